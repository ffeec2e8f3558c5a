import Verif.Lemmas.Bridged
/- What's left to do about a proxy which nobody needs. -/
set_option autoImplicit false

namespace Gb.Bridged
open Sharing (Item pop mine Covered)

theorem Settling.calm {s : State} {l : Label} (h : Settling l) : Calm s l := by
  unfold Calm; rintro rfl; exact h

/-- What's left to do about a task. -/
def Task.weight : Task → Nat
  | .acquire _ => 11
  | .acquired _ => 10
  | .release => 1
  | .done => 1

/-- What's left to do about something which has been read. -/
def inboxWeight : Nat × Item → Nat
  | (_, .acquire) => 12
  | (_, .release) => 2
  | (_, .complete) => 1
  | (_, .node) => 0

/-- What's left to do about something which hasn't been read yet. -/
def todoWeight : Nat × Item → Nat
  | (_, .node) => 9
  | _ => 13

/-- What's left to do. -/
def left (s : State) : Nat :=
  2 * s.sent.length + 2 * s.waiting.length + (s.tasks.map Task.weight).sum + (s.inbox.map inboxWeight).sum +
    (s.todo.map todoWeight).sum + (if s.proc then 8 else 0) + (if s.has then 0 else 5) + 10 * s.served.length + s.leaving

/-- What others have to do with the proxy. -/
def Same (s s' : State) : Prop :=
  s'.peers = s.peers ∧ s'.arriving = s.arriving ∧ s'.calls = s.calls ∧ s'.built = s.built ∧ s'.loose = s.loose ∧
    s'.other = s.other

theorem left_settle (s : State) : left s.settle = left s := by
  unfold State.settle; split <;> rfl

theorem same_settle (s : State) : Same s s.settle := by
  unfold State.settle; split <;> exact ⟨rfl, rfl, rfl, rfl, rfl, rfl⟩

theorem left_unused (s : State) : left s.unused ≤ left s + 8 := by
  unfold State.unused; split
  · simp only [left]
    cases s.proc <;> simp <;> omega
  · omega

theorem same_unused (s : State) : Same s s.unused := by
  unfold State.unused; split <;> exact ⟨rfl, rfl, rfl, rfl, rfl, rfl⟩

theorem Same.trans {a b c : State} (h : Same a b) (h' : Same b c) : Same a c := by
  unfold Same at *; grind

theorem left_ack (s : State) : left s.ack ≤ left s + 8 := left_unused _

theorem same_ack (s : State) : Same s s.ack := same_unused { s with localRefs := s.localRefs - 1 }

theorem left_readNode (s : State) (t : Nat) : left (s.readNode t) ≤ left s + 7 := by
  unfold State.readNode
  split
  · split
    · omega
    · rename_i h
      simp only [left, List.map_append, List.sum_append, h]
      simp [inboxWeight]; omega
  · split
    · rename_i h
      simp only [left, List.map_append, List.sum_append, h]
      simp [inboxWeight]; omega
    · omega

theorem same_readNode (s : State) (t : Nat) : Same s (s.readNode t) := by
  unfold State.readNode; split <;> split <;> exact ⟨rfl, rfl, rfl, rfl, rfl, rfl⟩

theorem pop_head (t : Nat) (x : Item) (l : List (Nat × Item)) : pop t ((t, x) :: l) = some (x, l) := by simp [pop]

/-- There's something left to do, and it can be done. -/
def Moves (s : State) : Prop := ∃ l s', Settling l ∧ step s l = .ok s' ∧ left s' < left s ∧ Same s s'

theorem move_todo {s : State} {x : Nat × Item} {r : List (Nat × Item)} (h : s.todo = x :: r) : Moves s := by
  obtain ⟨t, x⟩ := x
  have hp := pop_head t x r
  rw [← h] at hp
  by_cases hx : x = .node
  · subst hx
    refine ⟨.read t, { s with todo := r }.readNode t, trivial, by simp [step, hp], ?_, by exact same_readNode { s with todo := r } t⟩
    have := left_readNode { s with todo := r } t
    simp only [left, h, List.map_cons, List.sum_cons, todoWeight] at this ⊢
    omega
  · refine ⟨.read t, { s with todo := r, inbox := s.inbox ++ [(t, x)] }, trivial, ?_, ?_, rfl, rfl, rfl, rfl, rfl, rfl⟩
    · cases x <;> simp [step, hp] at hx ⊢
    · cases x <;> simp [left, h, todoWeight, inboxWeight] at hx ⊢ <;> omega

theorem move_proc {s : State} (h : s.proc = true) : Moves s := by
  refine ⟨.readProc 0, { s with proc := false }.readNode 0, trivial, by simp [step, h], ?_, by exact same_readNode { s with proc := false } 0⟩
  have := left_readNode { s with proc := false } 0
  simp only [left, h] at this ⊢
  simp at this ⊢
  omega

theorem move_inbox {s : State} (i : Core s) {x : Nat × Item} {r : List (Nat × Item)} (h : s.inbox = x :: r) : Moves s := by
  obtain ⟨t, x⟩ := x
  have hp := pop_head t x r
  rw [← h] at hp
  cases x with
  | node => exact absurd rfl (i.inboxItems (t, .node) (by simp [h]))
  | acquire =>
    cases hl : s.live with
    | true =>
      refine ⟨.take t, { s with inbox := r, tasks := s.tasks ++ [.acquire ((t, .reply) ∈ s.sent)] }, trivial,
        by simp [step, hp, hl], ?_, rfl, rfl, rfl, rfl, rfl, rfl⟩
      simp only [left, h, List.map_cons, List.sum_cons, List.map_append, List.sum_append, inboxWeight, Task.weight]
      simp
      omega
    | false =>
      refine ⟨.take t, { s with inbox := r }.ack, trivial, by simp [step, hp, hl], ?_, by exact same_ack { s with inbox := r }⟩
      have := left_ack { s with inbox := r }
      simp only [left, h, List.map_cons, List.sum_cons, inboxWeight] at this ⊢
      omega
  | release =>
    cases hl : s.live with
    | true =>
      refine ⟨.take t, { s with inbox := r, tasks := s.tasks ++ [.release] }, trivial,
        by simp [step, hp, hl], ?_, rfl, rfl, rfl, rfl, rfl, rfl⟩
      simp only [left, h, List.map_cons, List.sum_cons, List.map_append, List.sum_append, inboxWeight, Task.weight]
      simp
      omega
    | false =>
      refine ⟨.take t, { s with inbox := r }, trivial, by simp [step, hp, hl], ?_, rfl, rfl, rfl, rfl, rfl, rfl⟩
      simp only [left, h, List.map_cons, List.sum_cons, inboxWeight]
      omega
  | complete =>
    refine ⟨.take t, { s with
        inbox := r, sent := s.sent.filter (·.1 ≠ t), waiting := s.waiting ++ (s.sent.filter (·.1 = t)).map (·.2) }, trivial,
      by simp [step, hp], ?_, rfl, rfl, rfl, rfl, rfl, rfl⟩
    have hc : (s.sent.filter (·.1 ≠ t)).length + (s.sent.filter (·.1 = t)).length = s.sent.length := by
      simp only [← List.countP_eq_length_filter]
      have := List.length_eq_countP_add_countP (p := fun y : Nat × Kind => decide (y.1 = t)) (l := s.sent)
      simp at this ⊢
      omega
    simp only [left, h, List.map_cons, List.sum_cons, inboxWeight, List.length_append, List.length_map]
    omega

theorem move_waiting {s : State} {k : Kind} (h : k ∈ s.waiting) : Moves s := by
  have hl := List.length_erase_of_mem h
  have hpos := List.length_pos_of_mem h
  by_cases hk : k = .request
  · subst hk
    refine ⟨.finish .request, { s with waiting := s.waiting.erase .request, tasks := s.tasks ++ [.done] }, trivial, by simp [step, h],
      ?_, rfl, rfl, rfl, rfl, rfl, rfl⟩
    simp only [left, hl, List.map_append, List.sum_append]
    simp [Task.weight]
    omega
  · refine ⟨.finish k, { s with waiting := s.waiting.erase k }.settle, trivial, by simp [step, h, hk], ?_,
      by exact same_settle { s with waiting := s.waiting.erase k }⟩
    rw [left_settle]
    simp only [left, hl]
    omega

theorem move_tasks {s : State} {x : Task} {r : List Task} (h : s.tasks = x :: r) : Moves s := by
  cases x with
  | acquire k =>
    refine ⟨.run, _, trivial, by rw [step, h], ?_, ?_⟩
    · dsimp only
      split <;> (simp only [left, h, List.map_cons, List.sum_cons, Task.weight]; omega)
    · dsimp only
      split <;> exact ⟨rfl, rfl, rfl, rfl, rfl, rfl⟩
  | acquired k =>
    refine ⟨.run, { s with tasks := r }.ack.settle, trivial, by rw [step, h], ?_,
      by exact (same_ack { s with tasks := r }).trans (same_settle _)⟩
    rw [left_settle]
    have := left_ack { s with tasks := r }
    simp only [left, h, List.map_cons, List.sum_cons, Task.weight] at this ⊢
    omega
  | release =>
    refine ⟨.run, { s with tasks := r, strong := s.strong - 1 }, trivial, by rw [step, h], ?_, rfl, rfl, rfl, rfl, rfl, rfl⟩
    simp only [left, h, List.map_cons, List.sum_cons, Task.weight]
    omega
  | done =>
    refine ⟨.run, { s with tasks := r }.settle, trivial, by rw [step, h], ?_, by exact same_settle { s with tasks := r }⟩
    rw [left_settle]
    simp only [left, h, List.map_cons, List.sum_cons, Task.weight]
    omega

theorem move_served {s : State} {d : Bool} (h : d ∈ s.served) : Moves s := by
  have hl := List.length_erase_of_mem h
  have hpos := List.length_pos_of_mem h
  cases d with
  | true =>
    refine ⟨.answered true, { s with served := s.served.erase true, leaving := s.leaving + 1, localRefs := s.localRefs - 1 }.unused,
      trivial, by simp [step, h], ?_,
      by exact same_unused { s with served := s.served.erase true, leaving := s.leaving + 1, localRefs := s.localRefs - 1 }⟩
    have := left_unused { s with served := s.served.erase true, leaving := s.leaving + 1, localRefs := s.localRefs - 1 }
    simp only [left, hl] at this ⊢
    omega
  | false =>
    refine ⟨.answered false, { s with served := s.served.erase false, leaving := s.leaving + 1 },
      trivial, by simp [step, h], ?_, rfl, rfl, rfl, rfl, rfl, rfl⟩
    simp only [left, hl]
    omega

theorem move_leaving {s : State} (h : 0 < s.leaving) : Moves s := by
  refine ⟨.leave, { s with leaving := s.leaving - 1 }, trivial, by simp [step, h], ?_, rfl, rfl, rfl, rfl, rfl, rfl⟩
  simp only [left]
  omega

/-- Nothing is left to do. -/
def Settled (s : State) : Prop :=
  (s.sent = [] ∧ s.waiting = [] ∧ s.tasks = []) ∧ (s.inbox = [] ∧ s.todo = [] ∧ s.proc = false) ∧ s.served = [] ∧ s.leaving = 0

theorem Core.moves {s : State} (i : Core s) : Settled s ∨ Moves s := by
  cases h1 : s.todo with
  | cons x r => exact .inr (move_todo h1)
  | nil =>
  cases h2 : s.inbox with
  | cons x r => exact .inr (move_inbox i h2)
  | nil =>
  cases h3 : s.proc with
  | true => exact .inr (move_proc h3)
  | false =>
  cases h4 : s.waiting with
  | cons x r => exact .inr (move_waiting (k := x) (by simp [h4]))
  | nil =>
  cases h5 : s.tasks with
  | cons x r => exact .inr (move_tasks h5)
  | nil =>
  cases h6 : s.served with
  | cons x r => exact .inr (move_served (d := x) (by simp [h6]))
  | nil =>
  cases h7 : s.leaving with
  | succ n => exact .inr (move_leaving (by omega))
  | zero =>
  refine .inl ⟨⟨?_, h4, h5⟩, ⟨h2, h1, h3⟩, h6, h7⟩
  cases h8 : s.sent with
  | nil => rfl
  | cons x r =>
    have := i.count x.1
    simp [h1, h2, h8, mine] at this

/-- Whatever is left to do can be done, without anyone else doing anything. -/
theorem settles {s : State} (h : ReachIf step Calm {} s) :
    ∃ ls s', (∀ l ∈ ls, Settling l) ∧ exec step s ls = .ok s' ∧ ReachIf step Calm {} s' ∧ Settled s' ∧ Same s s' := by
  generalize hn : left s = n
  induction n using Nat.strongRecOn generalizing s with
  | ind n ih =>
    rcases (inv_reach h).toCore.moves with hd | ⟨l, s1, hl, hs, hlt, hsame⟩
    · exact ⟨[], s, by simp, rfl, h, hd, rfl, rfl, rfl, rfl, rfl, rfl⟩
    · obtain ⟨ls, s2, h1, h2, h3, h4, h5⟩ := ih (left s1) (hn ▸ hlt) (.step l h hl.calm hs) rfl
      refine ⟨l :: ls, s2, ?_, by simp only [exec, hs, h2], h3, h4, hsame.trans h5⟩
      intro x hx
      rcases List.mem_cons.1 hx with rfl | hx
      · exact hl
      · exact h1 x hx

end Gb.Bridged
