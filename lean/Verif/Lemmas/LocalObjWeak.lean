import Verif.Lemmas.LocalObj
import Verif.Spec.LocalObj
/- Weak references of the kernel to local objects. -/
set_option autoImplicit false

namespace Gb.LocalObj

theorem weakBalance_append (q : Nat) (l : List Ev) (e : Ev) :
    weakBalance q (l ++ [e]) = if e = .new q then 0 else if e = .ran .increfs q then weakBalance q l + 1
      else if e = .ran .decrefs q then weakBalance q l - 1 else weakBalance q l := by
  simp only [weakBalance, List.foldl_append, List.foldl_cons, List.foldl_nil]

/-- The object, if there is one, knows how many weak references the kernel has. -/
def WeakInv (q : Nat) (s : State) : Prop := ∀ o, s.objs q = some o → o.weak = weakBalance q s.log

theorem WeakInv.of_eq {s s' : State} {q : Nat} (h : WeakInv q s)
    (h1 : ∀ o', s'.objs q = some o' → ∃ o, s.objs q = some o ∧ o'.weak = o.weak)
    (h2 : weakBalance q s'.log = weakBalance q s.log) : WeakInv q s' := by
  intro o' ho'
  obtain ⟨o, ho, hw⟩ := h1 o' ho'
  rw [hw, h2]
  exact h o ho

theorem WeakInv.addRef {s s' : State} {p q : Nat} (hs : s.addRef p = .ok s') (h : WeakInv q s) :
    WeakInv q s' := by
  obtain ⟨o, ho, h0, rfl⟩ := addRef_ok hs
  refine h.of_eq (fun o' ho' => ?_) rfl
  by_cases hq : q = p
  · subst hq
    simp only [upd_same] at ho'
    cases ho'
    exact ⟨o, ho, rfl⟩
  · simp only [upd_ne _ _ hq] at ho'
    exact ⟨o', ho', rfl⟩

theorem WeakInv.unref {s s' : State} {p q : Nat} (hs : s.unref p = .ok s') (h : WeakInv q s) :
    WeakInv q s' := by
  obtain ⟨o, ho, ⟨h0, rfl⟩ | ⟨h0, rfl⟩⟩ := unref_ok hs
  · exact h.of_eq (fun o' ho' => ⟨o', ho', rfl⟩) rfl
  · refine h.of_eq (fun o' ho' => ?_) rfl
    by_cases hq : q = p
    · subst hq
      simp only [upd_same] at ho'
      cases ho'
      exact ⟨o, ho, rfl⟩
    · simp only [upd_ne _ _ hq] at ho'
      exact ⟨o', ho', rfl⟩

theorem WeakInv.add {s : State} {q : Nat} {e : Ev} (h : WeakInv q s) (h1 : e ≠ .new q)
    (h2 : e ≠ .ran .increfs q) (h3 : e ≠ .ran .decrefs q) : WeakInv q (s.add e) := by
  refine h.of_eq (fun o' ho' => ⟨o', ho', rfl⟩) ?_
  simp only [State.add, weakBalance_append, if_neg h1, if_neg h2, if_neg h3]

theorem weak_step {s s' : State} {l : Label} {q : Nat} (h : WeakInv q s) (hs : step s l = .ok s') :
    WeakInv q s' := by
  have same : ∀ {s1 : State}, s1.objs = s.objs → s1.log = s.log → WeakInv q s1 := by
    intro s1 h1 h2
    refine h.of_eq (fun o' ho' => ⟨o', by rw [← h1]; exact ho', rfl⟩) (by rw [h2])
  cases l with
  | new p =>
    simp only [step] at hs
    split at hs
    case isFalse => cases hs
    cases hs
    intro o ho
    simp only [State.add, weakBalance_append] at ho ⊢
    by_cases hp : q = p
    · subst hp
      simp only [upd_same] at ho
      cases ho
      simp
    · have : ¬ p = q := fun e => hp e.symm
      simp only [upd_ne _ _ hp] at ho
      simp only [Ev.new.injEq, this, if_false, reduceCtorEq]
      exact h o ho
  | ref p =>
    simp only [step] at hs
    split at hs
    · exact WeakInv.addRef hs (same rfl rfl)
    · cases hs
  | unref p =>
    simp only [step] at hs
    split at hs
    · exact WeakInv.unref hs (same rfl rfl)
    · cases hs
  | getLocal p =>
    simp only [step] at hs
    split at hs
    · exact WeakInv.addRef hs (same rfl rfl)
    · cases hs; exact h
  | handle k p =>
    simp only [step] at hs
    split at hs
    case isFalse => cases hs
    split at hs
    · exact WeakInv.addRef hs (WeakInv.add (same rfl rfl) (by simp) (by simp) (by simp))
    · exact WeakInv.addRef hs (WeakInv.add (same rfl rfl) (by simp) (by simp) (by simp))
    · cases hs; exact WeakInv.add (same rfl rfl) (by simp) (by simp) (by simp)
    · split at hs
      · cases hs; exact WeakInv.add (same rfl rfl) (by simp) (by simp) (by simp)
      · cases hs
  | cleanup k p =>
    simp only [step] at hs
    split at hs
    · exact WeakInv.addRef hs (same rfl rfl)
    · cases hs
  | put p =>
    simp only [step] at hs
    split at hs
    · exact WeakInv.unref hs (same rfl rfl)
    · cases hs
  | run t =>
    simp only [step] at hs
    split at hs
    case isFalse => cases hs
    obtain ⟨k, p, r⟩ := t
    simp only [runTask] at hs
    split at hs
    case h_1 => cases hs
    rename_i o ho
    have ho' : s.objs p = some o := ho
    cases k with
    | increfs =>
      cases hs
      intro o1 ho1
      simp only [State.add, weakBalance_append] at ho1 ⊢
      by_cases hp : q = p
      · subst hp
        simp only [upd_same] at ho1
        cases ho1
        simp [h o ho']
      · have : ¬ p = q := fun e => hp e.symm
        simp only [upd_ne _ _ hp] at ho1
        simp only [Ev.ran.injEq, this, and_false, if_false, reduceCtorEq]
        exact h o1 ho1
    | decrefs =>
      cases hs
      intro o1 ho1
      simp only [State.add, weakBalance_append] at ho1 ⊢
      by_cases hp : q = p
      · subst hp
        simp only [upd_same] at ho1
        cases ho1
        simp [h o ho']
      · have : ¬ p = q := fun e => hp e.symm
        simp only [upd_ne _ _ hp] at ho1
        simp only [Ev.ran.injEq, this, and_false, if_false, reduceCtorEq]
        exact h o1 ho1
    | acquire =>
      refine WeakInv.addRef hs ?_
      intro o1 ho1
      simp only [State.add, weakBalance_append] at ho1 ⊢
      by_cases hp : q = p
      · subst hp
        simp only [upd_same] at ho1
        cases ho1
        simp [h o ho']
      · simp only [upd_ne _ _ hp] at ho1
        simp only [Ev.ran.injEq, reduceCtorEq, false_and, if_false]
        exact h o1 ho1
    | release =>
      simp only at hs
      have hadd : WeakInv q (({ s with tasks := ⟨.release, p, true⟩ :: s.tasks.erase ⟨.release, p, r⟩ } : State).add
          (.ran .release p)) := WeakInv.add (same rfl rfl) (by simp) (by simp) (by simp)
      split at hs
      · refine WeakInv.unref hs (hadd.of_eq (fun o1 ho1 => ?_) rfl)
        by_cases hp : q = p
        · subst hp
          simp only [upd_same] at ho1
          cases ho1
          exact ⟨o, ho', rfl⟩
        · simp only [upd_ne _ _ hp] at ho1
          exact ⟨o1, ho1, rfl⟩
      · cases hs; exact hadd
  | done t =>
    simp only [step] at hs
    split at hs
    case isFalse => cases hs
    obtain ⟨k, p, r⟩ := t
    simp only [taskDone] at hs
    cases k with
    | acquire =>
      simp only at hs
      split at hs
      case h_1 => cases hs
      exact WeakInv.unref hs (WeakInv.add (same rfl rfl) (by simp) (by simp) (by simp))
    | increfs => exact WeakInv.unref hs (same rfl rfl)
    | decrefs => exact WeakInv.unref hs (same rfl rfl)
    | release => exact WeakInv.unref hs (same rfl rfl)
  | dispose p =>
    simp only [step] at hs
    split at hs
    case isFalse => cases hs
    split at hs
    case h_1 => cases hs
    split at hs <;> (cases hs; exact same rfl rfl)
  | settle p =>
    simp only [step] at hs
    split at hs
    case isFalse => cases hs
    split at hs
    case h_1 => cases hs
    rename_i o ho
    split at hs
    case isTrue => cases hs
    split at hs
    all_goals
      cases hs
      refine h.of_eq (fun o1 ho1 => ?_) rfl
      by_cases hp : q = p
      · subst hp
        simp only [upd_same] at ho1
        cases ho1
        exact ⟨o, ho, rfl⟩
      · simp only [upd_ne _ _ hp] at ho1
        exact ⟨o1, ho1, rfl⟩
  | invalidate p =>
    simp only [step] at hs
    split at hs
    case isFalse => cases hs
    split at hs
    case h_1 => cases hs
    cases hs; exact same rfl rfl
  | free p =>
    simp only [step] at hs
    split at hs
    case isFalse => cases hs
    split at hs
    case h_1 => cases hs
    cases hs
    refine WeakInv.add (h.of_eq (fun o1 ho1 => ?_) rfl) (by simp) (by simp) (by simp)
    by_cases hp : q = p
    · subst hp
      simp only [upd_same] at ho1
      cases ho1
    · simp only [upd_ne _ _ hp] at ho1
      exact ⟨o1, ho1, rfl⟩

theorem weak_reach {s : State} (h : Reach step {} s) (q : Nat) : WeakInv q s :=
  h.invariant (P := WeakInv q) (by intro o ho; cases ho) fun _ _ _ hp hs => weak_step hp hs

end Gb.LocalObj
