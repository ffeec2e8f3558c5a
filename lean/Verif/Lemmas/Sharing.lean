import Verif.Lemmas.LocalObjLog
import Verif.Spec.Sharing
/- The invariant of an object which is used by other processes. -/
set_option autoImplicit false

namespace Gb.LocalObj

/-- What the step adds to the log. -/
def Label.ev : Label → List Ev
  | .new p => [.new p]
  | .handle k p => [.handled k p]
  | .run t => [.ran t.kind t.obj]
  | .done t => if t.kind = .acquire then [.ack t.obj] else []
  | .free p => [.freed p]
  | _ => []

theorem addRef_log {s s' : State} {p : Nat} (h : s.addRef p = .ok s') :
    s'.log = s.log ∧ s'.user = s.user := by
  obtain ⟨o, _, _, rfl⟩ := addRef_ok h; exact ⟨rfl, rfl⟩

theorem unref_log {s s' : State} {p : Nat} (h : s.unref p = .ok s') :
    s'.log = s.log ∧ s'.user = s.user := by
  obtain ⟨o, _, ⟨_, rfl⟩ | ⟨_, rfl⟩⟩ := unref_ok h <;> exact ⟨rfl, rfl⟩

theorem step_log {s s' : State} {l : Label} (hs : step s l = .ok s') (p : Nat) :
    s'.log = s.log ++ l.ev ∧
    s'.user p + (if l = .unref p then 1 else 0) = s.user p + (if l = .new p ∨ l = .ref p then 1 else 0) := by
  cases l with
  | new q =>
    simp only [step] at hs
    split at hs
    · cases hs
      refine ⟨rfl, ?_⟩
      simp only [State.add, Label.new.injEq, reduceCtorEq, or_false, if_false]
      by_cases h : p = q
      · subst h; simp [upd]
      · simp [upd, h, Ne.symm h]
    · cases hs
  | ref q =>
    simp only [step] at hs
    split at hs
    · obtain ⟨h1, h2⟩ := addRef_log hs
      refine ⟨by simpa [Label.ev] using h1, ?_⟩
      rw [h2]
      by_cases h : p = q
      · subst h; simp [upd]
      · simp [upd, h, Ne.symm h]
    · cases hs
  | unref q =>
    simp only [step] at hs
    split at hs
    · rename_i h0
      obtain ⟨h1, h2⟩ := unref_log hs
      refine ⟨by simpa [Label.ev] using h1, ?_⟩
      rw [h2]
      by_cases h : p = q
      · subst h; simp [upd]; omega
      · simp [upd, h, Ne.symm h]
    · cases hs
  | getLocal q =>
    simp only [step] at hs
    split at hs
    · obtain ⟨h1, h2⟩ := addRef_log hs
      exact ⟨by simpa [Label.ev] using h1, by simp [h2]⟩
    · cases hs; simp [Label.ev]
  | handle k q =>
    simp only [step] at hs
    split at hs
    · cases k <;> simp only at hs
      · obtain ⟨h1, h2⟩ := addRef_log hs
        exact ⟨by simpa [Label.ev, State.add] using h1, by simp [h2, State.add]⟩
      · cases hs; simp [Label.ev, State.add]
      · obtain ⟨h1, h2⟩ := addRef_log hs
        exact ⟨by simpa [Label.ev, State.add] using h1, by simp [h2, State.add]⟩
      · split at hs
        · cases hs; simp [Label.ev, State.add]
        · cases hs
    · cases hs
  | cleanup k q =>
    simp only [step] at hs
    split at hs
    · obtain ⟨h1, h2⟩ := addRef_log hs
      exact ⟨by simpa [Label.ev] using h1, by simp [h2]⟩
    · cases hs
  | put q =>
    simp only [step] at hs
    split at hs
    · obtain ⟨h1, h2⟩ := unref_log hs
      exact ⟨by simpa [Label.ev] using h1, by simp [h2]⟩
    · cases hs
  | run t =>
    simp only [step] at hs
    split at hs
    · simp only [runTask] at hs
      split at hs
      · cases hs
      · split at hs
        · cases hs; simp [Label.ev, State.add, *]
        · cases hs; simp [Label.ev, State.add, *]
        · obtain ⟨h1, h2⟩ := addRef_log hs
          exact ⟨by simpa [Label.ev, State.add] using h1, by simp [h2, State.add]⟩
        · split at hs
          · obtain ⟨h1, h2⟩ := unref_log hs
            exact ⟨by simpa [Label.ev, State.add] using h1, by simp [h2, State.add]⟩
          · cases hs; simp [Label.ev, State.add, *]
    · cases hs
  | done t =>
    simp only [step] at hs
    split at hs
    · simp only [taskDone] at hs
      split at hs
      · rename_i hk
        split at hs
        · cases hs
        · obtain ⟨h1, h2⟩ := unref_log hs
          exact ⟨by simpa [Label.ev, State.add, hk] using h1, by simp [h2, State.add]⟩
      · rename_i hk
        obtain ⟨h1, h2⟩ := unref_log hs
        refine ⟨?_, by simp [h2]⟩
        have : t.kind ≠ .acquire := fun h => hk h
        simpa [Label.ev, this] using h1
    · cases hs
  | dispose q =>
    simp only [step] at hs
    repeat' split at hs
    all_goals first | (cases hs; done) | (cases hs; simp [Label.ev])
  | settle q =>
    simp only [step] at hs
    repeat' split at hs
    all_goals first | (cases hs; done) | (cases hs; simp [Label.ev])
  | invalidate q =>
    simp only [step] at hs
    repeat' split at hs
    all_goals first | (cases hs; done) | (cases hs; simp [Label.ev])
  | free q =>
    simp only [step] at hs
    repeat' split at hs
    all_goals first | (cases hs; done) | (cases hs; simp [Label.ev, State.add])

/-- What the step does to the counters that matter to the kernel. -/
theorem step_counts {s s' : State} {l : Label} (h : Reach step {} s) (hs : step s l = .ok s') (p : Nat) :
    s'.credit p + (if l = .handle .release p then 1 else 0) =
      s.credit p + (if l = .done ⟨.acquire, p, true⟩ then 1 else 0) ∧
    s'.tq p + (if l = .done ⟨.acquire, p, true⟩ then 1 else 0) =
      s.tq p + (if l = .handle .acquire p then 1 else 0) := by
  have h1 := log_reach h p
  have h2 := log_reach (h.step hs) p
  have h3 := (step_log hs p).1
  have a1 := h1.acks
  have a2 := h1.credit
  have b1 := h2.acks
  have b2 := h2.credit
  rw [h3] at b1 b2
  cases l with
  | handle k q =>
    simp only [Label.ev, count_append, Ev.handled.injEq, reduceCtorEq, if_false, Nat.add_zero] at b1 b2
    simp only [Label.handle.injEq, reduceCtorEq, if_false, Nat.add_zero]
    cases k <;> simp only [reduceCtorEq, false_and, if_false, true_and] at b1 b2 ⊢ <;> omega
  | done t =>
    have ht : t.ran = true := by
      simp only [step] at hs
      split at hs
      · rename_i h; exact h.2
      · cases hs
    rcases t with ⟨k, o, r⟩
    simp only at ht
    subst ht
    simp only [Label.done.injEq, Task.mk.injEq, and_true, reduceCtorEq, if_false, Nat.add_zero]
    simp only [Label.ev] at b1 b2
    by_cases hk : k = .acquire
    · simp only [hk, if_true, count_append, Ev.ack.injEq, reduceCtorEq, if_false, Nat.add_zero] at b1 b2
      simp only [hk, true_and]
      by_cases ho : o = p
      · simp only [ho, if_true] at b1 b2 ⊢; omega
      · simp only [ho, if_false] at b1 b2 ⊢; omega
    · simp only [hk, if_false, List.append_nil] at b1 b2
      simp only [hk, false_and, if_false]
      omega
  | _ =>
    simp only [Label.ev, count_append, List.append_nil, reduceCtorEq, if_false, Nat.add_zero] at b1 b2 ⊢
    omega

end Gb.LocalObj

namespace Gb.Sharing

/-! ### Queues -/

/-- What there is for this thread. -/
def mine (t : Nat) (l : List (Nat × Item)) : List Item := (l.filter (·.1 = t)).map (·.2)

theorem mine_append (t : Nat) (a b : List (Nat × Item)) : mine t (a ++ b) = mine t a ++ mine t b := by
  simp [mine]

theorem mine_one (t u : Nat) (x : Item) : mine t [(u, x)] = if u = t then [x] else [] := by
  by_cases h : u = t <;> simp [mine, h]

theorem mine_filter (t : Nat) (l : List (Nat × Item)) :
    mine t (l.filter (·.2 ≠ .node)) = (mine t l).filter (· ≠ .node) := by
  induction l with
  | nil => rfl
  | cons x l ih =>
    simp only [mine] at ih ⊢
    by_cases h1 : x.1 = t <;> by_cases h2 : x.2 = .node <;> simp_all

theorem mem_mine {t : Nat} {x : Item} {l : List (Nat × Item)} : x ∈ mine t l ↔ (t, x) ∈ l := by
  simp only [mine, List.mem_map, List.mem_filter, decide_eq_true_eq]
  constructor
  · rintro ⟨⟨a, b⟩, ⟨h1, rfl⟩, rfl⟩; exact h1
  · intro h; exact ⟨_, ⟨h, rfl⟩, rfl⟩

theorem pop_some {t : Nat} {l r : List (Nat × Item)} {x : Item} (h : pop t l = some (x, r)) :
    ∃ a b, l = a ++ (t, x) :: b ∧ r = a ++ b ∧ mine t a = [] := by
  induction l generalizing r with
  | nil => cases h
  | cons y l ih =>
    simp only [pop] at h
    split at h
    · rename_i hy
      cases h
      exact ⟨[], l, by rw [← hy]; rfl, rfl, rfl⟩
    · rename_i hy
      cases hp : pop t l with
      | none => rw [hp] at h; cases h
      | some z =>
        rw [hp] at h
        cases h
        obtain ⟨a, b, h1, h2, h3⟩ := ih hp
        exact ⟨y :: a, b, by rw [h1]; rfl, by rw [h2]; rfl, by simpa [mine, hy] using h3⟩

theorem pop_mine {t : Nat} {l r : List (Nat × Item)} {x : Item} (h : pop t l = some (x, r)) :
    mine t l = x :: mine t r ∧ ∀ u, u ≠ t → mine u l = mine u r := by
  obtain ⟨a, b, rfl, rfl, h3⟩ := pop_some h
  have : (t, x) :: b = [(t, x)] ++ b := rfl
  refine ⟨?_, fun u hu => ?_⟩
  · rw [this, mine_append, mine_append, mine_append, h3, mine_one]; simp
  · rw [this, mine_append, mine_append, mine_append, mine_one]; simp [Ne.symm hu]

theorem pop_count {t : Nat} {l r : List (Nat × Item)} {x : Item} (h : pop t l = some (x, r))
    (q : Nat × Item → Bool) : l.countP q = r.countP q + if q (t, x) then 1 else 0 := by
  obtain ⟨a, b, rfl, rfl, _⟩ := pop_some h
  simp only [List.countP_append, List.countP_cons]
  omega

theorem pop_mem {t : Nat} {l r : List (Nat × Item)} {x : Item} (h : pop t l = some (x, r)) :
    (t, x) ∈ l ∧ ∀ y ∈ r, y ∈ l := by
  obtain ⟨a, b, rfl, rfl, _⟩ := pop_some h
  refine ⟨by simp, fun y hy => ?_⟩
  simp only [List.mem_append, List.mem_cons] at hy ⊢
  rcases hy with h | h
  · exact .inl h
  · exact .inr (.inr h)

/-- Whatever keeps the thread waiting comes after what it's waiting for. -/
def Covered : List Item → Prop
  | [] => True
  | x :: l => (x = .acquire ∨ x = .node → .complete ∈ l) ∧ Covered l

theorem Covered.mem {l : List Item} (h : Covered l) {x : Item} (hx : x = .acquire ∨ x = .node) (hm : x ∈ l) :
    .complete ∈ l := by
  induction l with
  | nil => cases hm
  | cons y l ih =>
    rcases List.mem_cons.1 hm with rfl | h1
    · exact List.mem_cons_of_mem _ (h.1 hx)
    · exact List.mem_cons_of_mem _ (ih h.2 h1)

theorem Covered.filter {l : List Item} (h : Covered l) : Covered (l.filter (· ≠ .node)) := by
  induction l with
  | nil => trivial
  | cons x l ih =>
    by_cases hx : x = .node
    · simpa [hx] using ih h.2
    · simp only [ne_eq, hx, not_false_eq_true, decide_true, List.filter_cons_of_pos]
      refine ⟨fun h1 => ?_, ih h.2⟩
      exact List.mem_filter.2 ⟨h.1 h1, by simp⟩

theorem Covered.complete {l : List Item} (h : Covered l) : Covered (l ++ [.complete]) := by
  induction l with
  | nil => exact ⟨by simp, trivial⟩
  | cons x l ih => exact ⟨fun _ => by simp, ih h.2⟩

theorem Covered.node {l : List Item} (h : Covered l) : Covered (l ++ [.node, .complete]) := by
  induction l with
  | nil => exact ⟨by simp, by simp, trivial⟩
  | cons x l ih => exact ⟨fun _ => by simp, ih h.2⟩

theorem Covered.change {a b : List Item} {x y : Item} (h : Covered (a ++ x :: b)) (hx : x = .node)
    (hy : y ≠ .complete) : Covered (a ++ y :: b) := by
  induction a with
  | nil => exact ⟨fun _ => h.1 (.inr hx), h.2⟩
  | cons z a ih =>
    refine ⟨fun h1 => ?_, ih h.2⟩
    have h2 : Item.complete ∈ a ++ x :: b := h.1 h1
    rcases List.mem_append.1 h2 with h2 | h2
    rotate_left
    rcases List.mem_cons.1 h2 with h2 | h2
    rotate_right
    · exact List.mem_append.2 (.inl h2)
    · rw [hx] at h2; cases h2
    · exact List.mem_append.2 (.inr (List.mem_cons_of_mem _ h2))

theorem Covered.remove {a b : List Item} {x : Item} (h : Covered (a ++ x :: b)) (hx : x ≠ .complete) :
    Covered (a ++ b) := by
  induction a with
  | nil => exact h.2
  | cons z a ih =>
    refine ⟨fun h1 => ?_, ih h.2⟩
    have h2 : Item.complete ∈ a ++ x :: b := h.1 h1
    rcases List.mem_append.1 h2 with h2 | h2
    rotate_left
    rcases List.mem_cons.1 h2 with h2 | h2
    rotate_right
    · exact List.mem_append.2 (.inl h2)
    · exact absurd h2.symm hx
    · exact List.mem_append.2 (.inr h2)

theorem Covered.insert {a b : List Item} {x : Item} (h : Covered (a ++ b)) (hx : x ≠ .acquire ∧ x ≠ .node) :
    Covered (a ++ x :: b) := by
  induction a with
  | nil => exact ⟨fun h1 => by rcases h1 with h1 | h1; exact absurd h1 hx.1; exact absurd h1 hx.2, h⟩
  | cons z a ih =>
    refine ⟨fun h1 => ?_, ih h.2⟩
    have h2 : Item.complete ∈ a ++ b := h.1 h1
    rcases List.mem_append.1 h2 with h2 | h2
    · exact List.mem_append.2 (.inl h2)
    · exact List.mem_append.2 (.inr (List.mem_cons_of_mem _ h2))

/-! ### The invariant -/

structure Core (p : Nat) (s : State) : Prop where
  obj : Reach LocalObj.step {} s.obj
  refs : ∃ l : List Nat, l.Nodup ∧ (∀ c, c ∈ l ↔ 0 < s.strong c) ∧ l.length = s.internal
  loc : s.localRefs = s.incoming + if s.pending then 1 else 0
  nodes : s.todo.countP (·.2 = .node) ≤ 1
  workThread : ∀ t, s.work = .thread t → (t, .node) ∈ s.todo ∧ s.has = false
  workNone : (∀ t, s.work ≠ .thread t) → s.todo.countP (·.2 = .node) = 0
  workProc : s.work = .proc → s.has = true
  pend : s.pending = true → s.has = true
  acq : 0 < s.internal + s.localRefs → s.has = false → ∃ t, s.work = .thread t
  acks : s.inbox.countP (·.2 = .acquire) + s.obj.tq p = if s.pending then 1 else 0
  credit : s.obj.credit p = (if s.has = true ∧ s.pending = false then 1 else 0) + s.inbox.countP (·.2 = .release)
  cover : ∀ t, Covered (mine t s.inbox ++ mine t s.todo)
  count : ∀ t, s.sent.count t = (mine t s.inbox ++ mine t s.todo).count .complete
  kept : 0 < s.parcels ∨ s.sent ≠ [] → 0 < s.obj.user p
  todoItems : ∀ x ∈ s.todo, x.2 = .node ∨ x.2 = .complete
  inboxItems : ∀ x ∈ s.inbox, x.2 ≠ .node

structure Inv (p : Nat) (s : State) : Prop extends Core p s where
  rel : s.has = true → s.internal + s.localRefs = 0 → s.work = .proc

theorem inv_init (p : Nat) : Inv p {} where
  obj := .init
  refs := ⟨[], by simp, by simp [State.strong], rfl⟩
  loc := rfl
  nodes := by simp
  workThread := by intro t h; cases h
  workNone := by simp
  workProc := by intro h; cases h
  pend := by simp
  acq := by simp
  rel := by simp
  acks := by simp [LocalObj.State.tq]
  credit := by simp
  cover := fun t => trivial
  count := by simp [mine]
  kept := by simp
  todoItems := by simp
  inboxItems := by simp

/-- A thread which has something to do with BR_ACQUIRE is in the middle of sending the object. -/
theorem Core.sending {p : Nat} {s : State} (i : Core p s) {t : Nat}
    (h : (t, .acquire) ∈ s.inbox ∨ (t, .node) ∈ s.todo) : 0 < s.obj.user p := by
  refine i.kept (.inr ?_)
  have : Item.complete ∈ mine t s.inbox ++ mine t s.todo := by
    rcases h with h | h
    · exact (i.cover t).mem (.inl rfl) (List.mem_append.2 (.inl (mem_mine.2 h)))
    · exact (i.cover t).mem (.inr rfl) (List.mem_append.2 (.inr (mem_mine.2 h)))
  have h1 := i.count t
  have h2 := List.count_pos_iff.2 this
  intro h3
  rw [h3] at h1
  simp only [List.count_nil] at h1
  omega

theorem alive_of {p : Nat} {s : State} (hr : Reach LocalObj.step {} s.obj)
    (h : 0 < s.obj.user p ∨ 0 < s.obj.credit p ∨ 0 < s.obj.tq p) : Alive p s := by
  have g := LocalObj.inv_reach hr p
  have h1 := g.refs
  have h2 := g.credit
  have ht : s.obj.tq p ≤ s.obj.t p := by
    simp only [LocalObj.State.tq, LocalObj.State.t]
    refine List.countP_mono_left ?_
    intro x _ hx
    simp only [decide_eq_true_eq] at hx ⊢
    exact hx.2
  have h3 : (s.obj.view p).user = s.obj.user p := rfl
  have h4 : (s.obj.view p).credit = s.obj.credit p := rfl
  have h5 : (s.obj.view p).t = s.obj.t p := rfl
  have hpos : 0 < (s.obj.view p).user + (s.obj.view p).t + (s.obj.view p).strong := by omega
  have hrefs : 1 ≤ (s.obj.view p).refs := by omega
  cases ho : s.obj.objs p with
  | none =>
    have : (s.obj.view p).refs = 0 := LocalObj.bad_refs (.inl ho)
    omega
  | some o =>
    have h6 := LocalObj.view_some ho
    refine ⟨?_, o, ho, by simpa only [LocalObj.State.view, ho, LocalObj.refsOf] using hrefs⟩
    cases htab : s.obj.table p with
    | true => rfl
    | false =>
      have := (g.gone (by simp [LocalObj.State.view, LocalObj.State.tab, htab]) h6.1).1
      omega

theorem Inv.alive {p : Nat} {s : State} (i : Inv p s) (h : 0 < s.internal + s.localRefs) : Alive p s := by
  refine alive_of i.obj ?_
  cases hh : s.has with
  | false =>
    obtain ⟨t, ht⟩ := i.acq h hh
    exact .inl (i.sending (.inr (i.workThread t ht).1))
  | true =>
    cases hp : s.pending with
    | false =>
      have := i.credit
      simp only [hh, hp, and_self, if_true] at this
      exact .inr (.inl (by omega))
    | true =>
      have h1 := i.acks
      simp only [hp, if_true] at h1
      by_cases h2 : 0 < s.obj.tq p
      · exact .inr (.inr h2)
      · have h3 : 0 < s.inbox.countP (·.2 = .acquire) := by omega
        obtain ⟨⟨t, x⟩, h4, h5⟩ := List.countP_pos_iff.1 h3
        simp only [decide_eq_true_eq] at h5
        subst h5
        exact .inl (i.sending (.inl h4))

theorem Alive.ne {p : Nat} {s : State} (h : Alive p s) (hr : Reach LocalObj.step {} s.obj) :
    p ≠ 0 ∧ s.obj.table p = true := by
  obtain ⟨h1, o, h2, _⟩ := h
  exact ⟨(LocalObj.inv_reach hr p).null (LocalObj.view_some h2).1, h1⟩

theorem Core.unused {p : Nat} {s : State} (c : Core p s) : Inv p s.unused := by
  unfold State.unused
  split
  · rename_i h
    obtain ⟨h1, h2, h3, h4⟩ := h
    refine { c with workThread := ?_, workNone := ?_, workProc := ?_, acq := ?_, rel := ?_ }
    · intro t ht; cases ht
    · intro _; exact c.workNone (by simp [h4])
    · intro _; exact h3
    · intro h5; simp only [h1, h2] at h5; omega
    · intro _ _; rfl
  · rename_i h
    refine { c with rel := ?_ }
    intro h1 h2
    cases hw : s.work with
    | nowhere => exact absurd ⟨by omega, by omega, h1, hw⟩ h
    | thread t => have := (c.workThread t hw).2; rw [h1] at this; cases this
    | proc => rfl

theorem inv_obj {p : Nat} {s s' : State} {l : LocalObj.Label} (i : Inv p s) (hk : Kept p s (.obj l))
    (hs : step p s (.obj l) = .ok s') : Inv p s' := by
  simp only [step] at hs
  split at hs
  · cases hs
  rename_i hl
  simp only [not_or] at hl
  cases ho : LocalObj.step s.obj l with
  | no => rw [ho] at hs; cases hs
  | ub => rw [ho] at hs; cases hs
  | ok o =>
    rw [ho] at hs
    simp only at hs
    obtain ⟨h1, h2⟩ := LocalObj.step_counts i.obj ho p
    have h3 := (LocalObj.step_log ho p).2
    simp only [hl.1, hl.2, if_false, Nat.add_zero] at h1 h2
    have hobj := i.obj.step ho
    have hkept : 0 < s.parcels ∨ s.sent ≠ [] → 0 < o.user p := by
      intro h
      have h4 := i.kept h
      by_cases hu : l = .unref p
      · rcases hk (by rw [hu]) with h5 | ⟨h5, h6⟩
        · simp only [hu, if_true, reduceCtorEq, or_self, if_false] at h3; omega
        · rcases h with h | h
          · omega
          · exact absurd h6 h
      · simp only [hu, if_false] at h3; omega
    have ha := i.acks
    have hc := i.credit
    split at hs
    · rename_i hd
      simp only [hd, if_true] at h1 h2
      cases hs
      have hp : s.pending = true := by
        cases hp : s.pending with
        | true => rfl
        | false => simp only [hp, Bool.false_eq_true, if_false] at ha; omega
      have hh := i.pend hp
      refine Core.unused ?_
      simp only [hp, hh, if_true, Bool.true_eq_false, and_false, if_false, Nat.zero_add] at ha hc
      refine { i.toCore with obj := hobj, loc := ?_, pend := ?_, acq := ?_, acks := ?_, credit := ?_, kept := hkept }
      · have := i.loc; simp only [hp, if_true] at this; simp [this]
      · intro h; cases h
      · intro _ h; simp only at h; rw [hh] at h; cases h
      · simp only [Bool.false_eq_true, if_false]; omega
      · simp only [hh, and_self, if_true]; omega
    · rename_i hd
      simp only [hd, if_false, Nat.add_zero] at h1 h2
      cases hs
      refine { i with obj := hobj, acks := ?_, credit := ?_, kept := hkept }
      · simp only [h2]; exact ha
      · simp only [h1]; exact hc

theorem refs_more {s : State} {acquired buffers : Nat → Nat} {c : Nat}
    (h : ∃ l : List Nat, l.Nodup ∧ (∀ c, c ∈ l ↔ 0 < s.strong c) ∧ l.length = s.internal)
    (hc : 0 < acquired c + buffers c)
    (ho : ∀ d, d ≠ c → acquired d + buffers d = s.strong d) :
    ∃ l : List Nat, l.Nodup ∧ (∀ d, d ∈ l ↔ 0 < acquired d + buffers d) ∧
      l.length = s.internal + if s.strong c = 0 then 1 else 0 := by
  obtain ⟨l, h1, h2, h3⟩ := h
  by_cases h0 : s.strong c = 0
  · have hn : c ∉ l := fun hm => by have := (h2 c).1 hm; omega
    refine ⟨c :: l, List.nodup_cons.2 ⟨hn, h1⟩, fun d => ?_, by simp [h0, h3]⟩
    by_cases hd : d = c
    · subst hd; simp [hc]
    · rw [ho d hd, ← h2 d]; simp [hd]
  · refine ⟨l, h1, fun d => ?_, by simp [h0, h3]⟩
    by_cases hd : d = c
    · subst hd
      have := (h2 d).2 (by omega)
      simp [hc, this]
    · rw [ho d hd, h2 d]

theorem refs_less {s : State} {acquired buffers : Nat → Nat} {c : Nat}
    (h : ∃ l : List Nat, l.Nodup ∧ (∀ c, c ∈ l ↔ 0 < s.strong c) ∧ l.length = s.internal)
    (hc : 0 < s.strong c) (ho : ∀ d, d ≠ c → acquired d + buffers d = s.strong d) :
    0 < s.internal ∧ ∃ l : List Nat, l.Nodup ∧ (∀ d, d ∈ l ↔ 0 < acquired d + buffers d) ∧
      l.length = s.internal - if acquired c + buffers c = 0 then 1 else 0 := by
  obtain ⟨l, h1, h2, h3⟩ := h
  have hm : c ∈ l := (h2 c).2 hc
  refine ⟨by have := List.length_pos_of_mem hm; omega, ?_⟩
  by_cases h0 : acquired c + buffers c = 0
  · refine ⟨l.erase c, h1.erase c, fun d => ?_, by simp [h0, h3, List.length_erase_of_mem hm]⟩
    rw [h1.mem_erase_iff]
    by_cases hd : d = c
    · subst hd; simp [h0]
    · rw [ho d hd, ← h2 d]; simp [hd]
  · refine ⟨l, h1, fun d => ?_, by rw [if_neg h0]; exact h3⟩
    by_cases hd : d = c
    · subst hd; simp only [hm, true_iff]; omega
    · rw [ho d hd, h2 d]

theorem inv_decRef {p : Nat} {s : State} {acquired buffers : Nat → Nat} {c : Nat} (i : Inv p s)
    (hc : 0 < s.strong c) (ho : ∀ d, d ≠ c → acquired d + buffers d = s.strong d) :
    Inv p ({ s with acquired, buffers }.decRef c) := by
  obtain ⟨h1, h2⟩ := refs_less i.refs hc ho
  unfold State.decRef
  split
  · rename_i h0
    simp only [State.strong] at h0
    simp only [h0, if_true] at h2
    refine Core.unused ?_
    refine { i.toCore with refs := h2, acq := ?_ }
    intro h3 h4
    exact i.acq (by simp only at h3; omega) h4
  · rename_i h0
    simp only [State.strong] at h0
    simp only [h0, if_false] at h2
    exact { i with refs := h2 }

theorem inv_send {p : Nat} {s s' : State} {t c : Nat} (i : Inv p s)
    (hs : step p s (.send t c) = .ok s') : Inv p s' := by
  simp only [step] at hs
  split at hs
  · rename_i hp
    cases hs
    have hrefs := refs_more (s := s) (acquired := s.acquired) (buffers := upd s.buffers c (s.buffers c + 1)) (c := c)
      i.refs (by simp [upd]; omega) (by intro d hd; simp [upd, hd, State.strong])
    have hsub : ∀ u, (t :: s.sent).count u = s.sent.count u + if u = t then 1 else 0 := by
      intro u
      rw [List.count_cons]
      by_cases h : u = t
      · simp [h]
      · simp [h, Ne.symm h]
    have hkept : 0 < s.obj.user p := i.kept (.inl hp)
    by_cases h0 : s.strong c = 0
    · simp only [h0, if_true] at hrefs
      by_cases hh : s.has = true
      · simp only [State.incRef, h0, if_true, State.incNode]
        rw [if_pos hh]
        refine { i with
          refs := hrefs, nodes := ?_, workThread := ?_, workNone := ?_, acq := ?_, rel := ?_, cover := ?_
          count := ?_, kept := fun _ => hkept, todoItems := ?_ }
        · have := i.nodes; simpa using this
        · intro u hu; have := (i.workThread u hu).2; rw [hh] at this; cases this
        · intro h; have := i.workNone h; simpa using this
        · intro _ h; dsimp only at h; rw [hh] at h; cases h
        · intro u
          rw [mine_append, mine_one, ← List.append_assoc]
          split
          · exact (i.cover u).complete
          · simpa using i.cover u
        · intro u
          rw [hsub, mine_append, mine_one, ← List.append_assoc, List.count_append, ← i.count u]
          by_cases hu : u = t
          · simp [hu]
          · simp [hu, Ne.symm hu]
        · intro x hx
          rcases List.mem_append.1 hx with h | h
          · exact i.todoItems x h
          · simp only [List.mem_singleton] at h; subst h; exact .inr rfl
        · intro _ h; dsimp only at h; omega
      · simp only [State.incRef, h0, if_true, State.incNode]
        rw [if_neg hh]
        simp only [List.append_assoc, List.cons_append, List.nil_append]
        have hz : (s.todo.filter (·.2 ≠ .node)).countP (·.2 = .node) = 0 := by
          rw [List.countP_eq_zero]
          intro x hx
          have := (List.mem_filter.1 hx).2
          simpa using this
        have hpair : ∀ u, mine u [(t, Item.node), (t, Item.complete)] = if t = u then [.node, .complete] else [] := by
          intro u
          by_cases h : t = u <;> simp [mine, h]
        refine { i with
          refs := hrefs, nodes := ?_, workThread := ?_, workNone := ?_, workProc := ?_, acq := ?_, rel := ?_
          cover := ?_, count := ?_, kept := fun _ => hkept, todoItems := ?_ }
        · simp only [List.countP_append, hz]; simp
        · intro u hu
          simp only [Loc.thread.injEq] at hu
          subst hu
          exact ⟨by simp, by simpa using hh⟩
        · intro h; exact absurd rfl (h t)
        · intro h; cases h
        · intro _ _; exact ⟨t, rfl⟩
        · intro u
          have h1 : Covered (mine u s.inbox ++ (mine u s.todo).filter (· ≠ .node)) := by
            have h2 := (i.cover u).filter
            rw [List.filter_append] at h2
            have h3 : (mine u s.inbox).filter (· ≠ .node) = mine u s.inbox := by
              rw [List.filter_eq_self]
              intro x hx
              have := i.inboxItems _ (mem_mine.1 hx)
              simpa using this
            rwa [h3] at h2
          rw [mine_append, mine_filter, hpair, ← List.append_assoc]
          split
          · exact h1.node
          · simpa using h1
        · intro u
          have h1 : ((mine u s.todo).filter (· ≠ .node)).count .complete = (mine u s.todo).count .complete := by
            rw [List.count_filter]; simp
          rw [hsub, mine_append, mine_filter, hpair, ← List.append_assoc, List.count_append, List.count_append, h1,
            ← List.count_append, ← i.count u]
          by_cases hu : u = t
          · simp [hu]
          · simp [hu, Ne.symm hu]
        · intro x hx
          simp only [List.mem_append, List.mem_cons, List.not_mem_nil, or_false, List.mem_filter] at hx
          rcases hx with h | h | h
          · exact i.todoItems x h.1
          · subst h; exact .inl rfl
          · subst h; exact .inr rfl
        · intro h; exact absurd h hh
    · simp only [h0, if_false, Nat.add_zero] at hrefs
      simp only [State.incRef, h0, if_false]
      refine { i with
        refs := hrefs, nodes := ?_, workThread := ?_, workNone := ?_, cover := ?_
        count := ?_, kept := fun _ => hkept, todoItems := ?_ }
      · have := i.nodes; simpa using this
      · intro u hu; have := i.workThread u hu; exact ⟨List.mem_append.2 (.inl this.1), this.2⟩
      · intro h; have := i.workNone h; simpa using this
      · intro u
        rw [mine_append, mine_one, ← List.append_assoc]
        split
        · exact (i.cover u).complete
        · simpa using i.cover u
      · intro u
        rw [hsub, mine_append, mine_one, ← List.append_assoc, List.count_append, ← i.count u]
        by_cases hu : u = t
        · simp [hu]
        · simp [hu, Ne.symm hu]
      · intro x hx
        rcases List.mem_append.1 hx with h | h
        · exact i.todoItems x h
        · simp only [List.mem_singleton] at h; subst h; exact .inr rfl
  · cases hs

theorem inv_read {p : Nat} {s s' : State} {t : Nat} (i : Inv p s)
    (hs : step p s (.read t) = .ok s') : Inv p s' := by
  simp only [step] at hs
  split at hs
  · rename_i l hp
    cases hs
    obtain ⟨m1, m2⟩ := pop_mine hp
    obtain ⟨e1, e2⟩ := pop_mem hp
    have hn := pop_count hp (·.2 = .node)
    simp only [decide_true, if_true] at hn
    have hz : l.countP (·.2 = .node) = 0 := by have := i.nodes; omega
    obtain ⟨u, hu⟩ : ∃ u, s.work = .thread u := by
      apply Classical.byContradiction
      intro h
      have := i.workNone (by intro u hu; exact h ⟨u, hu⟩)
      omega
    have hh := (i.workThread u hu).2
    have hcov : ∀ v, Covered (mine v s.inbox ++ mine v l) := by
      intro v
      have h := i.cover v
      by_cases hv : v = t
      · subst hv; rw [m1] at h; exact h.remove (by simp)
      · rwa [m2 v hv] at h
    have hcount : ∀ v, s.sent.count v = (mine v s.inbox ++ mine v l).count .complete := by
      intro v
      have h := i.count v
      by_cases hv : v = t
      · subst hv; rw [m1] at h; simpa [List.count_append] using h
      · rwa [m2 v hv] at h
    have hitems : ∀ x ∈ l, x.2 = .node ∨ x.2 = .complete := fun x hx => i.todoItems x (e2 x hx)
    have hpend : s.pending = false := by
      cases h : s.pending with
      | false => rfl
      | true => have := i.pend h; rw [hh] at this; cases this
    unfold State.readNode
    simp only
    split
    · rw [if_neg (by simp [hh])]
      refine { i with
        loc := ?_, nodes := by simp only; omega, workThread := ?_, workNone := fun _ => hz, workProc := ?_, pend := fun _ => rfl
        acq := ?_, acks := ?_, credit := ?_, cover := ?_, count := ?_, todoItems := hitems, inboxItems := ?_, rel := ?_ }
      · have := i.loc; simp only [hpend, Bool.false_eq_true, if_false] at this; simp [this]
      · intro v hv; cases hv
      · intro h; cases h
      · intro _ h; cases h
      · have := i.acks
        simp only [hpend, Bool.false_eq_true, if_false] at this
        simp only [List.countP_append, List.countP_cons, List.countP_nil, decide_true, if_true]
        omega
      · have := i.credit
        simp only [hh, Bool.false_eq_true, false_and, if_false] at this
        simp only [List.countP_append, List.countP_cons, List.countP_nil]
        simp [this]
      · intro v
        rw [mine_append, mine_one]
        have h := i.cover v
        by_cases hv : t = v
        · subst hv
          rw [m1] at h
          have h' := h.change (y := .acquire) rfl (by simp)
          simpa using h'
        · simpa [hv] using hcov v
      · intro v
        rw [mine_append, mine_one, hcount v]
        by_cases hv : t = v <;> simp [hv, List.count_append]
      · intro x hx
        rcases List.mem_append.1 hx with h | h
        · exact i.inboxItems x h
        · simp only [List.mem_singleton] at h; subst h; simp
      · intro _ h; simp only at h; omega
    · rename_i h0
      rw [if_neg (by simp [hh])]
      refine { i with
        nodes := by simp only; omega, workThread := ?_, workNone := fun _ => hz, workProc := ?_
        acq := fun h => absurd h h0, cover := hcov, count := hcount, todoItems := hitems, rel := ?_ }
      · intro v hv; cases hv
      · intro h; cases h
      · intro h; simp only at h; rw [hh] at h; cases h
  · rename_i x l hx hp
    cases hs
    obtain ⟨m1, m2⟩ := pop_mine hp
    obtain ⟨e1, e2⟩ := pop_mem hp
    have hn := pop_count hp (·.2 = .node)
    have hxn : x ≠ .node := hx
    have hc : x = .complete := by
      rcases i.todoItems _ e1 with h | h
      · exact absurd h hxn
      · exact h
    subst hc
    simp only [reduceCtorEq, decide_false, Bool.false_eq_true, if_false, Nat.add_zero] at hn
    have hm : ∀ v, mine v (s.inbox ++ [(t, Item.complete)]) ++ mine v l = mine v s.inbox ++ mine v s.todo := by
      intro v
      rw [mine_append, mine_one]
      by_cases hv : t = v
      · subst hv; rw [m1]; simp
      · rw [m2 v (Ne.symm hv)]; simp [hv]
    refine { i with
      nodes := by simp only; rw [← hn]; exact i.nodes, workThread := ?_, workNone := ?_, acks := ?_, credit := ?_
      cover := fun v => by simp only [hm]; exact i.cover v, count := fun v => by simp only [hm]; exact i.count v
      todoItems := fun x hx => i.todoItems x (e2 x hx), inboxItems := ?_ }
    · intro v hv
      refine ⟨?_, (i.workThread v hv).2⟩
      have := mem_mine.2 (i.workThread v hv).1
      refine mem_mine.1 ?_
      by_cases h : v = t
      · subst h; rw [m1] at this; simpa using this
      · rwa [m2 v h] at this
    · intro h; simp only; rw [← hn]; exact i.workNone h
    · have := i.acks; simpa [List.countP_append] using this
    · have := i.credit; simpa [List.countP_append] using this
    · intro x hx
      rcases List.mem_append.1 hx with h | h
      · exact i.inboxItems x h
      · simp only [List.mem_singleton] at h; subst h; simp
  · cases hs

theorem inv_readProc {p : Nat} {s s' : State} {t : Nat} (i : Inv p s)
    (hs : step p s (.readProc t) = .ok s') : Inv p s' := by
  simp only [step] at hs
  split at hs
  · rename_i hw
    cases hs
    have hh := i.workProc hw
    have hz := i.workNone (by simp [hw])
    unfold State.readNode
    simp only
    split
    · rename_i h0
      refine { i with workThread := ?_, workNone := fun _ => hz, workProc := ?_, acq := ?_, rel := ?_ }
      · intro v hv; cases hv
      · intro h; cases h
      · intro _ h; simp only at h; rw [hh] at h; cases h
      · intro _ h; simp only at h; omega
    · rename_i h0
      have hpend : s.pending = false := by
        cases h : s.pending with
        | false => rfl
        | true => have := i.loc; simp only [h, if_true] at this; omega
      refine { i with
        workThread := ?_, workNone := fun _ => hz, workProc := ?_, pend := ?_, acq := fun h => absurd h h0, acks := ?_
        credit := ?_, cover := ?_, count := ?_, inboxItems := ?_, rel := ?_ }
      · intro v hv; cases hv
      · intro h; cases h
      · intro h; simp only at h; rw [hpend] at h; cases h
      · have := i.acks; simpa [List.countP_append] using this
      · have := i.credit
        simp only [hh, hpend, and_self, if_true] at this
        simp only [List.countP_append, List.countP_cons, List.countP_nil]
        simp [this, Nat.add_comm]
      · intro v
        rw [mine_append, mine_one]
        by_cases hv : t = v
        · subst hv
          have := (i.cover t).insert (x := .release) ⟨by simp, by simp⟩
          simpa using this
        · simpa [hv] using i.cover v
      · intro v
        rw [mine_append, mine_one]
        have := i.count v
        by_cases hv : t = v <;> simpa [hv, List.count_append] using this
      · intro x hx
        rcases List.mem_append.1 hx with h | h
        · exact i.inboxItems x h
        · simp only [List.mem_singleton] at h; subst h; simp
      · intro h; cases h
  · cases hs

/-- The object is found if it's alive, and there's something to release. -/
theorem found_ok {p : Nat} {s : State} {k : LocalObj.Kind} (ha : Alive p s) (hr : Reach LocalObj.step {} s.obj)
    (hc : k = .release → 0 < s.obj.credit p) : ∃ o o' : LocalObj.State,
      LocalObj.step s.obj (.getLocal p) = .ok o ∧ LocalObj.step o (.handle k p) = .ok o' ∧
      s.found p k = .ok { s with obj := o' } := by
  obtain ⟨hn, ht⟩ := ha.ne hr
  obtain ⟨_, o, ho, h1⟩ := ha
  have e1 : LocalObj.step s.obj (.getLocal p) =
      .ok { s.obj with held := p :: s.obj.held, objs := upd s.obj.objs p (some { o with refs := o.refs + 1 }) } := by
    simp only [LocalObj.step, hn, ht, ne_eq, not_false_eq_true, and_self, if_true, LocalObj.State.addRef, ho]
    rw [if_neg (by omega)]
  generalize hX : ({ s.obj with
    held := p :: s.obj.held, objs := upd s.obj.objs p (some { o with refs := o.refs + 1 }) } : LocalObj.State) = X at e1
  have e2 : ∃ o', LocalObj.step X (.handle k p) = .ok o' := by
    subst hX
    cases k <;> simp [LocalObj.step, LocalObj.State.addRef, LocalObj.State.add, upd_same, hc]
  obtain ⟨o', e2⟩ := e2
  refine ⟨_, _, e1, e2, ?_⟩
  simp only [State.found, e1, e2]

theorem mem_inbox_alive {p : Nat} {s : State} (i : Inv p s) {t : Nat}
    (h : (t, .acquire) ∈ s.inbox ∨ (t, .release) ∈ s.inbox) :
    Alive p s ∧ ((t, .release) ∈ s.inbox → 0 < s.obj.credit p) := by
  have hr : (t, .release) ∈ s.inbox → 0 < s.obj.credit p := by
    intro h
    have h1 : 0 < s.inbox.countP (·.2 = .release) := List.countP_pos_iff.2 ⟨_, h, by simp⟩
    have := i.credit
    omega
  refine ⟨alive_of i.obj ?_, hr⟩
  rcases h with h | h
  · exact .inl (i.sending (.inl h))
  · exact .inr (.inl (hr h))

theorem inv_take {p : Nat} {s s' : State} {t : Nat} (i : Inv p s)
    (hs : step p s (.take t) = .ok s') : Inv p s' := by
  simp only [step] at hs
  have hcov : ∀ {x : Item} {l : List (Nat × Item)}, pop t s.inbox = some (x, l) → ∀ v, Covered (mine v l ++ mine v s.todo) := by
    intro x l hp v
    obtain ⟨m1, m2⟩ := pop_mine hp
    have h := i.cover v
    by_cases hv : v = t
    · subst hv; rw [m1] at h; exact h.2
    · rwa [m2 v hv] at h
  have hcount : ∀ {x : Item} {l : List (Nat × Item)}, pop t s.inbox = some (x, l) → x ≠ .complete →
      ∀ v, s.sent.count v = (mine v l ++ mine v s.todo).count .complete := by
    intro x l hp hx v
    obtain ⟨m1, m2⟩ := pop_mine hp
    have h := i.count v
    by_cases hv : v = t
    · subst hv; rw [m1] at h; simpa [List.count_cons, hx] using h
    · rwa [m2 v hv] at h
  split at hs
  · rename_i l hp
    obtain ⟨e1, e2⟩ := pop_mem hp
    have ha := (mem_inbox_alive i (.inl e1)).1
    obtain ⟨hn, ht⟩ := ha.ne i.obj
    rw [if_pos ⟨hn, ht⟩] at hs
    obtain ⟨o, o', h1, h2, h3⟩ := found_ok (s := { s with inbox := l }) (k := .acquire) ha i.obj (by simp)
    rw [h3] at hs
    cases hs
    obtain ⟨a1, a2⟩ := LocalObj.step_counts i.obj h1 p
    obtain ⟨b1, b2⟩ := LocalObj.step_counts (i.obj.step h1) h2 p
    have c1 := (LocalObj.step_log h1 p).2
    have c2 := (LocalObj.step_log h2 p).2
    have hq := pop_count hp (·.2 = .acquire)
    have hq' := pop_count hp (·.2 = .release)
    simp only [reduceCtorEq, LocalObj.Label.handle.injEq, false_and, if_false, true_and, if_true, Nat.add_zero, or_self] at a1 a2 b1 b2 c1 c2
    simp only [reduceCtorEq, decide_true, decide_false, if_true, Bool.false_eq_true, if_false, Nat.add_zero] at hq hq'
    refine { i with
      obj := (i.obj.step h1).step h2, acks := ?_, credit := ?_, cover := hcov hp, count := hcount hp (by simp)
      kept := ?_, inboxItems := fun x hx => i.inboxItems x (e2 x hx) }
    · have := i.acks; simp only; omega
    · have := i.credit; simp only; rw [← hq']; omega
    · intro h; have := i.kept h; simp only; omega
  · rename_i l hp
    obtain ⟨e1, e2⟩ := pop_mem hp
    obtain ⟨ha, hcr⟩ := mem_inbox_alive i (.inr e1)
    obtain ⟨hn, ht⟩ := ha.ne i.obj
    rw [if_pos ⟨hn, ht⟩] at hs
    obtain ⟨o, o', h1, h2, h3⟩ := found_ok (s := { s with inbox := l }) (k := .release) ha i.obj (fun _ => hcr e1)
    rw [h3] at hs
    cases hs
    obtain ⟨a1, a2⟩ := LocalObj.step_counts i.obj h1 p
    obtain ⟨b1, b2⟩ := LocalObj.step_counts (i.obj.step h1) h2 p
    have c1 := (LocalObj.step_log h1 p).2
    have c2 := (LocalObj.step_log h2 p).2
    have hq := pop_count hp (·.2 = .acquire)
    have hq' := pop_count hp (·.2 = .release)
    simp only [reduceCtorEq, LocalObj.Label.handle.injEq, false_and, if_false, true_and, if_true, Nat.add_zero, or_self] at a1 a2 b1 b2 c1 c2
    simp only [reduceCtorEq, decide_true, decide_false, if_true, Bool.false_eq_true, if_false, Nat.add_zero] at hq hq'
    refine { i with
      obj := (i.obj.step h1).step h2, acks := ?_, credit := ?_, cover := hcov hp, count := hcount hp (by simp)
      kept := ?_, inboxItems := fun x hx => i.inboxItems x (e2 x hx) }
    · have := i.acks; simp only; rw [← hq]; omega
    · have := i.credit; simp only; omega
    · intro h; have := i.kept h; simp only; omega
  · rename_i l hp
    obtain ⟨e1, e2⟩ := pop_mem hp
    obtain ⟨m1, m2⟩ := pop_mine hp
    cases hs
    have hq := pop_count hp (·.2 = .acquire)
    have hq' := pop_count hp (·.2 = .release)
    simp only [reduceCtorEq, decide_false, Bool.false_eq_true, if_false, Nat.add_zero] at hq hq'
    refine { i with
      acks := by simp only; rw [← hq]; exact i.acks, credit := by simp only; rw [← hq']; exact i.credit
      cover := hcov hp, count := ?_, kept := ?_, inboxItems := fun x hx => i.inboxItems x (e2 x hx) }
    · intro v
      have h := i.count v
      by_cases hv : v = t
      · subst hv; rw [m1] at h; simp only [List.count_erase_self]
        simp at h ⊢; omega
      · rw [m2 v hv] at h; simp only; rw [List.count_erase_of_ne hv]; exact h
    · intro h
      refine i.kept ?_
      rcases h with h | h
      · exact .inl h
      · refine .inr fun h0 => h ?_
        simp only [h0]; rfl
  · cases hs
  · cases hs

theorem inv_step {p : Nat} {s s' : State} {l : Label} (i : Inv p s) (hk : Kept p s l)
    (hs : step p s l = .ok s') : Inv p s' := by
  cases l with
  | obj l => exact inv_obj i hk hs
  | append =>
    simp only [step] at hs
    split at hs
    · rename_i h; cases hs; exact { i with kept := fun _ => h }
    · cases hs
  | discard =>
    simp only [step] at hs
    split at hs
    · rename_i h; cases hs; exact { i with kept := fun _ => i.kept (.inl h) }
    · cases hs
  | send t c => exact inv_send i hs
  | read t => exact inv_read i hs
  | readProc t => exact inv_readProc i hs
  | take t => exact inv_take i hs
  | acquire c =>
    simp only [step] at hs
    split at hs
    · rename_i h
      cases hs
      have := refs_more (s := s) (acquired := upd s.acquired c (s.acquired c + 1)) (buffers := s.buffers) (c := c)
        i.refs (by simp [upd]; omega) (by intro d hd; simp [upd, hd, State.strong])
      rw [if_neg (by omega)] at this
      exact { i with refs := this }
    · cases hs
  | release c =>
    simp only [step] at hs
    split at hs
    · rename_i h
      cases hs
      exact inv_decRef i (by simp only [State.strong]; omega) (by intro d hd; simp [upd, hd, State.strong])
    · cases hs
  | free c =>
    simp only [step] at hs
    split at hs
    · rename_i h
      cases hs
      exact inv_decRef i (by simp only [State.strong]; omega) (by intro d hd; simp [upd, hd, State.strong])
    · cases hs
  | give c c' =>
    simp only [step] at hs
    split at hs
    · rename_i h
      cases hs
      have h1 := refs_more (s := s) (acquired := s.acquired) (buffers := upd s.buffers c' (s.buffers c' + 1)) (c := c')
        i.refs (by simp [upd]; omega) (by intro d hd; simp [upd, hd, State.strong])
      have hpos := (refs_less (s := s) (acquired := s.acquired) (buffers := s.buffers) i.refs h (fun _ _ => rfl)).1
      by_cases h0 : s.strong c' = 0
      · simp only [h0, if_true] at h1
        simp only [State.incRef, h0, if_true, State.incNode]
        refine { i with refs := h1, acq := fun _ => i.acq (by omega), rel := ?_ }
        intro _ h; simp only at h; omega
      · simp only [h0, if_false, Nat.add_zero] at h1
        simp only [State.incRef, h0, if_false]
        exact { i with refs := h1 }
    · cases hs
  | call c =>
    simp only [step] at hs
    split at hs
    · rename_i h
      cases hs
      have hpos := (refs_less (s := s) (acquired := s.acquired) (buffers := s.buffers) i.refs h (fun _ _ => rfl)).1
      refine { i with loc := ?_, acq := fun _ => i.acq (by omega), rel := ?_ }
      · have := i.loc; simp only; omega
      · intro _ h; simp only at h; omega
    · cases hs
  | freeIncoming =>
    simp only [step] at hs
    split at hs
    · rename_i h
      cases hs
      have hl := i.loc
      refine Core.unused { i.toCore with loc := ?_, acq := ?_ }
      · simp only; omega
      · intro h1; refine i.acq ?_; simp only at h1; omega
    · cases hs

theorem inv_reach {p : Nat} {s : State} (h : ReachIf (step p) (Kept p) {} s) : Inv p s := by
  induction h with
  | init => exact inv_init p
  | step l _ hk hs ih => exact inv_step ih hk hs

end Gb.Sharing
