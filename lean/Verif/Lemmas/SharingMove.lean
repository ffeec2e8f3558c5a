import Verif.Lemmas.Sharing
import Verif.Lemmas.LocalObjMove
/- What's left to do about an object which nobody needs. -/
set_option autoImplicit false

namespace Gb.Sharing

theorem Settling.kept {p : Nat} {s : State} {l : Label} (h : Settling l) : Kept p s l := by
  unfold Kept; rintro rfl; exact h.elim

/-- What's left to do about something which has been read. -/
def inboxWeight : Nat × Item → Nat
  | (_, .acquire) => 43
  | (_, .release) => 17
  | (_, .complete) => 1
  | (_, .node) => 0

/-- What's left to do about something which hasn't been read yet. -/
def todoWeight : Nat × Item → Nat
  | (_, .node) => 32
  | _ => 44

/-- What's left to do. -/
def left (s : State) : Nat :=
  LocalObj.left s.obj + (s.inbox.map inboxWeight).sum + (s.todo.map todoWeight).sum +
    (if s.work = .proc then 31 else 0) + (if s.has then 0 else 13)

/-- What others have to do with the object, and what the application has. -/
def Same (s s' : State) : Prop :=
  s'.acquired = s.acquired ∧ s'.buffers = s.buffers ∧ s'.incoming = s.incoming ∧ s'.parcels = s.parcels ∧ s'.obj.user = s.obj.user

theorem Same.trans {a b c : State} (h : Same a b) (h' : Same b c) : Same a c := by
  unfold Same at *; grind

theorem left_unused (s : State) : left s.unused ≤ left s + 31 := by
  unfold State.unused; split
  · rename_i h
    simp [left, h.2.2.2]
    try omega
  · omega

theorem same_unused (s : State) : Same s s.unused := by
  unfold State.unused; split <;> exact ⟨rfl, rfl, rfl, rfl, rfl⟩

theorem left_ack (s : State) : left s.ack ≤ left s + 31 := left_unused _

theorem same_ack (s : State) : Same s s.ack := same_unused { s with pending := false, localRefs := s.localRefs - 1 }

theorem left_readNode (s : State) (t : Nat) : left (s.readNode t) ≤ left s + 30 := by
  unfold State.readNode
  split
  · split
    · omega
    · rename_i h
      simp only [left, List.map_append, List.sum_append, h]
      simp [inboxWeight]; omega
  · split
    · rename_i h
      simp only [left, List.map_append, List.sum_append, h]
      simp [inboxWeight]; omega
    · omega

theorem same_readNode (s : State) (t : Nat) : Same s (s.readNode t) := by
  unfold State.readNode; split <;> split <;> exact ⟨rfl, rfl, rfl, rfl, rfl⟩

theorem pop_head (t : Nat) (x : Item) (l : List (Nat × Item)) : pop t ((t, x) :: l) = some (x, l) := by simp [pop]

/-- There's something left to do, and it can be done. -/
def Moves (p : Nat) (s : State) : Prop := ∃ l s', Settling l ∧ step p s l = .ok s' ∧ left s' < left s ∧ Same s s'

theorem move_todo {p : Nat} {s : State} {x : Nat × Item} {r : List (Nat × Item)} (h : s.todo = x :: r) : Moves p s := by
  obtain ⟨t, x⟩ := x
  have hp := pop_head t x r
  rw [← h] at hp
  by_cases hx : x = .node
  · subst hx
    refine ⟨.read t, { s with todo := r, work := .nowhere }.readNode t, trivial, by simp [step, hp], ?_,
      by exact same_readNode { s with todo := r, work := .nowhere } t⟩
    have := left_readNode { s with todo := r, work := .nowhere } t
    simp only [left, h, List.map_cons, List.sum_cons, todoWeight] at this ⊢
    simp at this
    omega
  · refine ⟨.read t, { s with todo := r, inbox := s.inbox ++ [(t, x)] }, trivial, ?_, ?_, rfl, rfl, rfl, rfl, rfl⟩
    · cases x <;> simp [step, hp] at hx ⊢
    · cases x <;> simp [left, h, todoWeight, inboxWeight] at hx ⊢ <;> omega

theorem move_proc {p : Nat} {s : State} (h : s.work = .proc) : Moves p s := by
  refine ⟨.readProc 0, { s with work := .nowhere }.readNode 0, trivial, by simp [step, h], ?_,
    by exact same_readNode { s with work := .nowhere } 0⟩
  have := left_readNode { s with work := .nowhere } 0
  simp only [left, h] at this ⊢
  simp at this ⊢
  omega

theorem left_found {p : Nat} {s s' : State} {k : LocalObj.Kind} (ht : p ≠ 0 ∧ s.obj.table p = true)
    (hk : k = .acquire ∨ k = .release) (h : s.found p k = .ok s') :
    left s' ≤ left s + (if k = .acquire then 42 else 16) ∧ Same s s' := by
  unfold State.found at h
  split at h
  · rename_i o ho
    simp only [LocalObj.step, if_pos ht] at ho
    obtain ⟨h1, h2⟩ := LocalObj.left_addRef ho
    have h1' : LocalObj.left o = LocalObj.left s.obj + 5 := by
      rw [h1]; simp only [LocalObj.left, List.length_cons]; omega
    split at h
    · rename_i o' ho'
      cases h
      rcases hk with rfl | rfl
      · simp only [LocalObj.step] at ho'
        split at ho'
        · obtain ⟨h3, h4⟩ := LocalObj.left_addRef ho'
          refine ⟨?_, rfl, rfl, rfl, rfl, h4.trans h2⟩
          simp only [LocalObj.left, LocalObj.State.add, List.map_cons, List.sum_cons] at h3 h1'
          simp [LocalObj.Task.weight] at h3
          simp only [left, LocalObj.left, if_true] at h3 ⊢
          omega
        · cases ho'
      · simp only [LocalObj.step] at ho'
        split at ho'
        · rename_i hm
          split at ho'
          · cases ho'
            refine ⟨?_, rfl, rfl, rfl, rfl, h2⟩
            have hp := List.length_pos_of_mem hm
            have he := List.length_erase_of_mem hm
            simp only [left, LocalObj.left, LocalObj.State.add, List.map_cons, List.sum_cons] at h1' ⊢
            simp [LocalObj.unrefWeight, LocalObj.Task.weight]
            omega
          · cases ho'
        · cases ho'
    · cases h
    · cases h
  · cases h
  · cases h

theorem move_inbox {p : Nat} {s : State} (h : ReachIf (step p) (Kept p) {} s) {x : Nat × Item} {r : List (Nat × Item)}
    (hi : s.inbox = x :: r) : Moves p s := by
  have i := inv_reach h
  obtain ⟨t, x⟩ := x
  have hp := pop_head t x r
  rw [← hi] at hp
  have hmem : (t, x) ∈ s.inbox := by simp [hi]
  cases x with
  | node => exact absurd rfl (i.inboxItems (t, .node) hmem)
  | acquire =>
    obtain ⟨ha, hc⟩ := mem_inbox_alive i (t := t) (.inl hmem)
    have hn := ha.ne i.obj
    obtain ⟨o, o', h1, h2, h3⟩ := found_ok (s := { s with inbox := r }) (k := .acquire) ha i.obj (by intro e; cases e)
    obtain ⟨h4, h5⟩ := left_found (s := { s with inbox := r }) hn (.inl rfl) h3
    refine ⟨.take t, _, trivial, by rw [step, hp]; dsimp only; rw [if_pos hn]; exact h3, ?_, by exact h5⟩
    simp only [left, hi, List.map_cons, List.sum_cons, inboxWeight, if_true] at h4 ⊢
    omega
  | release =>
    obtain ⟨ha, hc⟩ := mem_inbox_alive i (t := t) (.inr hmem)
    have hn := ha.ne i.obj
    obtain ⟨o, o', h1, h2, h3⟩ := found_ok (s := { s with inbox := r }) (k := .release) ha i.obj (fun _ => hc hmem)
    obtain ⟨h4, h5⟩ := left_found (s := { s with inbox := r }) hn (.inr rfl) h3
    refine ⟨.take t, _, trivial, by rw [step, hp]; dsimp only; rw [if_pos hn]; exact h3, ?_, by exact h5⟩
    simp only [left, hi, List.map_cons, List.sum_cons, inboxWeight, reduceCtorEq, if_false] at h4 ⊢
    omega
  | complete =>
    refine ⟨.take t, { s with inbox := r, sent := s.sent.erase t }, trivial, by rw [step, hp], ?_, rfl, rfl, rfl, rfl, rfl⟩
    simp only [left, hi, List.map_cons, List.sum_cons, inboxWeight]
    omega

theorem move_obj {p : Nat} {s : State} {l : LocalObj.Label} (hl : l.settling) (hn : LocalObj.step s.obj l ≠ .no)
    (hu : step p s (.obj l) ≠ .ub) : Moves p s := by
  have hne : ¬ (l = .handle .acquire p ∨ l = .handle .release p) := by
    rintro (rfl | rfl) <;> exact hl.elim
  cases ho : LocalObj.step s.obj l with
  | no => exact absurd ho hn
  | ub => exact absurd (by rw [step, if_neg hne, ho]) hu
  | ok o =>
    obtain ⟨h1, h2⟩ := LocalObj.left_step hl ho
    refine ⟨.obj l, _, hl, by rw [step, if_neg hne, ho], ?_, ?_⟩
    · split
      · rename_i he
        have := left_ack { s with obj := o }
        subst he
        simp only [left, LocalObj.Label.extra, if_true] at this h1 ⊢
        omega
      · simp only [left]
        omega
    · split
      · exact Same.trans (b := { s with obj := o }) ⟨rfl, rfl, rfl, rfl, h2⟩ (same_ack _)
      · exact ⟨rfl, rfl, rfl, rfl, h2⟩

/-- Nothing is left to do. -/
def Settled (s : State) : Prop := s.inbox = [] ∧ s.todo = [] ∧ s.work = .nowhere ∧ LocalObj.Settled s.obj

theorem moves {p : Nat} {s : State} (h : ReachIf (step p) (Kept p) {} s)
    (hsafe : ∀ l, LocalObj.Label.settling l → step p s (.obj l) ≠ .ub) : Settled s ∨ Moves p s := by
  cases h1 : s.todo with
  | cons x r => exact .inr (move_todo h1)
  | nil =>
  cases h2 : s.inbox with
  | cons x r => exact .inr (move_inbox h h2)
  | nil =>
  cases h3 : s.work with
  | proc => exact .inr (move_proc h3)
  | thread t =>
    have := ((inv_reach h).workThread t h3).1
    rw [h1] at this; cases this
  | nowhere =>
  rcases LocalObj.enabled s.obj with h4 | ⟨l, h4, h5⟩
  · exact .inl ⟨h2, h1, h3, h4⟩
  · exact .inr (move_obj h4 h5 (hsafe l h4))

/-- Whatever is left to do can be done, without anyone else doing anything. -/
theorem settles {p : Nat}
    (hsafe : ∀ s, ReachIf (step p) (Kept p) {} s → ∀ l, LocalObj.Label.settling l → step p s (.obj l) ≠ .ub)
    {s : State} (h : ReachIf (step p) (Kept p) {} s) :
    ∃ ls s', (∀ l ∈ ls, Settling l) ∧ exec (step p) s ls = .ok s' ∧ ReachIf (step p) (Kept p) {} s' ∧ Settled s' ∧ Same s s' := by
  generalize hn : left s = n
  induction n using Nat.strongRecOn generalizing s with
  | ind n ih =>
    rcases moves h (hsafe s h) with hd | ⟨l, s1, hl, hs, hlt, hsame⟩
    · exact ⟨[], s, by simp, rfl, h, hd, rfl, rfl, rfl, rfl, rfl⟩
    · obtain ⟨ls, s2, h1, h2, h3, h4, h5⟩ := ih (left s1) (hn ▸ hlt) (.step l h hl.kept hs) rfl
      refine ⟨l :: ls, s2, ?_, by simp only [exec, hs, h2], h3, h4, hsame.trans h5⟩
      intro x hx
      rcases List.mem_cons.1 hx with rfl | hx
      · exact hl
      · exact h1 x hx

end Gb.Sharing
