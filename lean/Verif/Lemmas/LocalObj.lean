import Verif.Model.LocalObj
/- The invariant of the local object machine. -/
set_option autoImplicit false

namespace Gb.LocalObj

def refsOf : Option Obj → Nat
  | none => 0
  | some o => o.refs

def strongOf : Option Obj → Nat
  | none => 0
  | some o => o.strong

def liveOf : Option Obj → Nat
  | none => 0
  | some _ => 1

def State.tab (s : State) (q : Nat) : Nat := if s.table q then 1 else 0
def State.h (s : State) (q : Nat) : Nat := s.held.countP fun x => decide (x = q)
def State.u (s : State) (q : Nat) : Nat := s.unrefs.countP fun x => decide (x.2 = q)
def State.ur (s : State) (q : Nat) : Nat := s.unrefs.countP fun x => decide (x = (Kind.release, q))
def State.t (s : State) (q : Nat) : Nat := s.tasks.countP fun x => decide (x.obj = q)
def State.tr (s : State) (q : Nat) : Nat :=
  s.tasks.countP fun x => decide (x = ⟨.release, q, false⟩)
def State.ta (s : State) (q : Nat) : Nat :=
  s.tasks.countP fun x => decide (x = ⟨.acquire, q, true⟩)
def State.dy (s : State) (q : Nat) (st : Stage) : Nat := s.dying.countP fun x => decide (x = ⟨q, st⟩)

/-- Everything the invariant is about. -/
structure View where
  refs : Nat
  strong : Nat
  live : Nat
  tab : Nat
  user : Nat
  h : Nat
  u : Nat
  t : Nat
  dg : Nat
  dd : Nat
  df : Nat
  dr : Nat
  credit : Nat
  ur : Nat
  tr : Nat
  ta : Nat

def State.view (s : State) (q : Nat) : View where
  refs := refsOf (s.objs q)
  strong := strongOf (s.objs q)
  live := liveOf (s.objs q)
  tab := s.tab q
  user := s.user q
  h := s.h q
  u := s.u q
  t := s.t q
  dg := s.dy q .disposing
  dd := s.dy q .disposed
  df := s.dy q .finalizing
  dr := s.dy q .removed
  credit := s.credit q
  ur := s.ur q
  tr := s.tr q
  ta := s.ta q

structure Good (q : Nat) (v : View) : Prop where
  refs : v.refs = v.user + v.h + v.u + v.t + v.strong + v.dg + v.dd
  fr : v.df + v.dr ≤ v.live
  live : v.live ≤ 1
  zero : 1 ≤ v.df + v.dr → v.refs = 0
  pos : v.live = 1 → v.df + v.dr = 0 → 1 ≤ v.refs
  none : v.live = 0 → v.tab = 0 ∧ v.refs = 0
  gone : v.tab = 0 → v.live = 1 → v.user + v.h + v.u + v.t + v.strong + v.dg = 0 ∧ v.dd + v.df + v.dr = 1
  rem : 1 ≤ v.dr → v.tab = 0
  credit : v.credit + v.ur + v.tr + v.ta = v.strong
  null : v.live = 1 → q ≠ 0

def Inv (s : State) : Prop := ∀ q, Good q (s.view q)

theorem inv_init : Inv {} := by
  intro q
  refine ⟨?_, ?_, ?_, ?_, ?_, ?_, ?_, ?_, ?_, ?_⟩ <;>
    simp [State.view, refsOf, strongOf, liveOf, State.tab, State.h, State.u, State.t, State.dy, State.ur, State.tr,
      State.ta]

theorem addRef_ok {s s' : State} {p : Nat} (h : s.addRef p = .ok s') :
    ∃ o, s.objs p = some o ∧ o.refs ≠ 0 ∧
      s' = { s with objs := upd s.objs p (some { o with refs := o.refs + 1 }) } := by
  unfold State.addRef at h
  split at h
  · cases h
  · rename_i o ho
    split at h
    · cases h
    · rename_i h0
      cases h
      exact ⟨o, ho, h0, rfl⟩

theorem unref_ok {s s' : State} {p : Nat} (h : s.unref p = .ok s') :
    ∃ o, s.objs p = some o ∧
      ((o.refs = 1 ∧ s' = { s with dying := ⟨p, .disposing⟩ :: s.dying }) ∨
       (2 ≤ o.refs ∧ s' = { s with objs := upd s.objs p (some { o with refs := o.refs - 1 }) })) := by
  unfold State.unref at h
  split at h
  · cases h
  · rename_i o ho
    split at h
    · cases h
    · split at h
      · rename_i h0 h1
        cases h
        exact ⟨o, ho, .inl ⟨h1, rfl⟩⟩
      · rename_i h0 h1
        cases h
        exact ⟨o, ho, .inr ⟨by omega, rfl⟩⟩



theorem countP_erase_sub {α : Type} [BEq α] [LawfulBEq α] (p : α → Bool) {l : List α} {a : α}
    (h : a ∈ l) : (l.erase a).countP p = l.countP p - (if p a then 1 else 0) := by
  have := countP_erase p h
  omega

theorem Good.of_eq {s s' : State} {q : Nat} (h : Good q (s.view q)) (e : s'.view q = s.view q) :
    Good q (s'.view q) := by rw [e]; exact h

/-- Reduces the view of the next state to the view of this one. -/
macro "view_simp" "[" l:Lean.Parser.Tactic.simpLemma,* "]" : tactic => `(tactic|
  (simp only [State.view, State.add, State.tab, State.h, State.u, State.ur, State.t, State.tr, State.ta,
    State.dy, List.countP_cons, decide_eq_true_eq, upd_same, refsOf, strongOf, liveOf, Dying.mk.injEq,
    Task.mk.injEq, Prod.mk.injEq, if_true, if_false, true_and, and_true, false_and, and_false,
    reduceCtorEq, Bool.false_eq_true, Nat.add_zero, Nat.sub_zero, $l,*] <;> rfl))

/-- Proves that the view is still good. -/
macro "good" : tactic => `(tactic|
  (rename_i a1 a2 a3 a4 a5 a6 a7 a8 a9 a10
   refine ⟨?_, ?_, ?_, ?_, ?_, ?_, ?_, ?_, ?_, ?_⟩ <;> intros <;> simp only [] at * <;>
     first | omega | exact ⟨by omega, trivial⟩))

theorem Good.of_view {s' : State} {q : Nat} {v : View} (e : s'.view q = v) (h : Good q v) :
    Good q (s'.view q) := by rw [e]; exact h

theorem view_none {s : State} {q : Nat} (h : s.objs q = none) :
    (s.view q).live = 0 ∧ (s.view q).strong = 0 := by view_simp [h]

theorem view_some {s : State} {q : Nat} {o : Obj} (h : s.objs q = some o) :
    (s.view q).live = 1 ∧ (s.view q).strong = o.strong ∧ (s.view q).refs = o.refs := by view_simp [h]

theorem inv_new {s s' : State} {p : Nat} (h : Inv s) (hs : step s (.new p) = .ok s') : Inv s' := by
  simp only [step] at hs
  split at hs
  case isFalse => cases hs
  case isTrue hc =>
    cases hs
    intro q
    by_cases hq : q = p
    · subst hq
      have hl := view_none hc.2
      have h0 := hc.1
      have hv := h q
      refine Good.of_view (v := { s.view q with refs := 1, strong := 0, live := 1, tab := 1, user := (s.view q).user + 1 }) (by view_simp []) ?_
      revert hl hv
      generalize s.view q = v
      rintro hl ⟨⟩
      good
    · refine (h q).of_eq ?_
      view_simp [upd_ne _ _ hq]

theorem inv_ref {s s' : State} {p : Nat} (h : Inv s) (hs : step s (.ref p) = .ok s') : Inv s' := by
  simp only [step] at hs
  split at hs
  case isFalse => cases hs
  case isTrue hc =>
    obtain ⟨o, ho, h0, rfl⟩ := addRef_ok hs
    simp only at ho
    intro q
    by_cases hq : q = p
    · subst hq
      have hl := view_some ho
      have hv := h q
      have hc : 0 < (s.view q).user := hc
      refine Good.of_view (v := { s.view q with refs := (s.view q).refs + 1, user := (s.view q).user + 1 }) (by view_simp [ho]) ?_
      revert hl hv hc
      generalize s.view q = v
      rintro hl ⟨⟩ hc
      good
    · refine (h q).of_eq ?_
      view_simp [upd_ne _ _ hq]

theorem inv_unref {s s' : State} {p : Nat} (h : Inv s) (hs : step s (.unref p) = .ok s') : Inv s' := by
  simp only [step] at hs
  split at hs
  case isFalse => cases hs
  case isTrue hc =>
    obtain ⟨o, ho, ⟨h0, rfl⟩ | ⟨h0, rfl⟩⟩ := unref_ok hs
    all_goals
      simp only at ho
      intro q
      by_cases hq : q = p
    · subst hq
      have hl := view_some ho
      have hv := h q
      have hc : 0 < (s.view q).user := hc
      refine Good.of_view (v := { s.view q with dg := (s.view q).dg + 1, user := (s.view q).user - 1 }) (by view_simp [ho]) ?_
      revert hl hv hc
      generalize s.view q = v
      rintro hl ⟨⟩ hc
      good
    · refine (h q).of_eq ?_
      have : ¬ p = q := fun e => hq e.symm
      view_simp [upd_ne _ _ hq, this]
    · subst hq
      have hl := view_some ho
      have hv := h q
      have hc : 0 < (s.view q).user := hc
      refine Good.of_view (v := { s.view q with refs := (s.view q).refs - 1, user := (s.view q).user - 1 }) (by view_simp [ho]) ?_
      revert hl hv hc
      generalize s.view q = v
      rintro hl ⟨⟩ hc
      good
    · refine (h q).of_eq ?_
      view_simp [upd_ne _ _ hq]

theorem inv_getLocal {s s' : State} {p : Nat} (h : Inv s) (hs : step s (.getLocal p) = .ok s') : Inv s' := by
  simp only [step] at hs
  split at hs
  case isFalse => cases hs; exact h
  case isTrue hm =>
    obtain ⟨_, hm⟩ := hm
    obtain ⟨o, ho, h0, rfl⟩ := addRef_ok hs
    simp only at ho
    intro q
    by_cases hq : q = p
    · subst hq
      have hl := view_some ho
      have hv := h q
      have hc : (s.view q).tab = 1 := by view_simp [hm]
      refine Good.of_view (v := { s.view q with h := (s.view q).h + 1, refs := (s.view q).refs + 1 }) (by view_simp [ho]) ?_
      revert hl hv hc
      generalize s.view q = v
      rintro hl ⟨⟩ hc
      good
    · refine (h q).of_eq ?_
      have hq' : ¬ p = q := fun e => hq e.symm
      view_simp [upd_ne _ _ hq, hq']

theorem inv_put {s s' : State} {p : Nat} (h : Inv s) (hs : step s (.put p) = .ok s') : Inv s' := by
  simp only [step] at hs
  split at hs
  case isFalse => cases hs
  case isTrue hm =>
    obtain ⟨o, ho, ⟨h0, rfl⟩ | ⟨h0, rfl⟩⟩ := unref_ok hs
    all_goals
      simp only at ho
      intro q
      by_cases hq : q = p
    · subst hq
      have hl := view_some ho
      have hv := h q
      have hc : 0 < (s.view q).h := by simpa [State.view, State.h, List.countP_pos_iff] using hm
      refine Good.of_view (v := { s.view q with h := (s.view q).h - 1, dg := (s.view q).dg + 1 }) (by view_simp [ho, countP_erase_sub _ hm]) ?_
      revert hl hv hc
      generalize s.view q = v
      rintro hl ⟨⟩ hc
      good
    · refine (h q).of_eq ?_
      have hq' : ¬ p = q := fun e => hq e.symm
      view_simp [upd_ne _ _ hq, hq', countP_erase_sub _ hm]
    · subst hq
      have hl := view_some ho
      have hv := h q
      have hc : 0 < (s.view q).h := by simpa [State.view, State.h, List.countP_pos_iff] using hm
      refine Good.of_view (v := { s.view q with h := (s.view q).h - 1, refs := (s.view q).refs - 1 }) (by view_simp [ho, countP_erase_sub _ hm]) ?_
      revert hl hv hc
      generalize s.view q = v
      rintro hl ⟨⟩ hc
      good
    · refine (h q).of_eq ?_
      have hq' : ¬ p = q := fun e => hq e.symm
      view_simp [upd_ne _ _ hq, hq', countP_erase_sub _ hm]

theorem inv_handle_increfs {s s' : State} {p : Nat} (h : Inv s) (hs : step s (.handle .increfs p) = .ok s') : Inv s' := by
  simp only [step] at hs
  split at hs
  case isFalse => cases hs
  case isTrue hm =>
    obtain ⟨o, ho, h0, rfl⟩ := addRef_ok hs
    simp only [State.add] at ho
    intro q
    by_cases hq : q = p
    · subst hq
      have hl := view_some ho
      have hv := h q
      have hc : 0 < (s.view q).h := by simpa [State.view, State.h, List.countP_pos_iff] using hm
      refine Good.of_view (v := { s.view q with t := (s.view q).t + 1, refs := (s.view q).refs + 1 }) (by view_simp [ho]) ?_
      revert hl hv hc
      generalize s.view q = v
      rintro hl ⟨⟩ hc
      good
    · refine (h q).of_eq ?_
      have hq' : ¬ p = q := fun e => hq e.symm
      view_simp [upd_ne _ _ hq, hq']

theorem inv_handle_acquire {s s' : State} {p : Nat} (h : Inv s) (hs : step s (.handle .acquire p) = .ok s') : Inv s' := by
  simp only [step] at hs
  split at hs
  case isFalse => cases hs
  case isTrue hm =>
    obtain ⟨o, ho, h0, rfl⟩ := addRef_ok hs
    simp only [State.add] at ho
    intro q
    by_cases hq : q = p
    · subst hq
      have hl := view_some ho
      have hv := h q
      have hc : 0 < (s.view q).h := by simpa [State.view, State.h, List.countP_pos_iff] using hm
      refine Good.of_view (v := { s.view q with t := (s.view q).t + 1, refs := (s.view q).refs + 1 }) (by view_simp [ho]) ?_
      revert hl hv hc
      generalize s.view q = v
      rintro hl ⟨⟩ hc
      good
    · refine (h q).of_eq ?_
      have hq' : ¬ p = q := fun e => hq e.symm
      view_simp [upd_ne _ _ hq, hq']

theorem inv_handle_decrefs {s s' : State} {p : Nat} (h : Inv s) (hs : step s (.handle .decrefs p) = .ok s') : Inv s' := by
  simp only [step] at hs
  split at hs
  case isFalse => cases hs
  case isTrue hm =>
    cases hs
    intro q
    by_cases hq : q = p
    · subst hq
      have hv := h q
      have hc : 0 < (s.view q).h := by simpa [State.view, State.h, List.countP_pos_iff] using hm
      refine Good.of_view (v := { s.view q with h := (s.view q).h - 1, u := (s.view q).u + 1 }) (by view_simp [countP_erase_sub _ hm]) ?_
      revert hv hc
      generalize s.view q = v
      rintro ⟨⟩ hc
      good
    · refine (h q).of_eq ?_
      have hq' : ¬ p = q := fun e => hq e.symm
      view_simp [upd_ne _ _ hq, hq', countP_erase_sub _ hm]

theorem inv_handle_release {s s' : State} {p : Nat} (h : Inv s) (hs : step s (.handle .release p) = .ok s') : Inv s' := by
  simp only [step] at hs
  split at hs
  case isFalse => cases hs
  case isTrue hm =>
    split at hs
    case isFalse => cases hs
    rename_i hcr
    cases hs
    intro q
    by_cases hq : q = p
    · subst hq
      have hv := h q
      have hc : 0 < (s.view q).h := by simpa [State.view, State.h, List.countP_pos_iff] using hm
      have hf0 : 0 < (s.view q).credit := hcr
      refine Good.of_view (v := { s.view q with h := (s.view q).h - 1, u := (s.view q).u + 1, ur := (s.view q).ur + 1, credit := (s.view q).credit - 1 }) (by view_simp [countP_erase_sub _ hm]) ?_
      revert hv hc hf0
      generalize s.view q = v
      rintro ⟨⟩ hc hf0
      good
    · refine (h q).of_eq ?_
      have hq' : ¬ p = q := fun e => hq e.symm
      view_simp [upd_ne _ _ hq, hq', countP_erase_sub _ hm]

theorem inv_cleanup_decrefs {s s' : State} {p : Nat} (h : Inv s) (hs : step s (.cleanup .decrefs p) = .ok s') : Inv s' := by
  simp only [step] at hs
  split at hs
  case isFalse => cases hs
  case isTrue hm =>
    obtain ⟨o, ho, h0, rfl⟩ := addRef_ok hs
    simp only at ho
    intro q
    by_cases hq : q = p
    · subst hq
      have hl := view_some ho
      have hv := h q
      have hc : 0 < (s.view q).u := by
        simp only [State.view, State.u, List.countP_pos_iff]
        exact ⟨_, hm, by simp⟩
      refine Good.of_view (v := { s.view q with h := (s.view q).h + 1, refs := (s.view q).refs + 1, u := (s.view q).u - 1, t := (s.view q).t + 1 }) (by view_simp [ho, countP_erase_sub _ hm]) ?_
      revert hl hv hc
      generalize s.view q = v
      rintro hl ⟨⟩ hc
      good
    · refine (h q).of_eq ?_
      have hq' : ¬ p = q := fun e => hq e.symm
      view_simp [upd_ne _ _ hq, hq', countP_erase_sub _ hm]

theorem inv_cleanup_release {s s' : State} {p : Nat} (h : Inv s) (hs : step s (.cleanup .release p) = .ok s') : Inv s' := by
  simp only [step] at hs
  split at hs
  case isFalse => cases hs
  case isTrue hm =>
    obtain ⟨o, ho, h0, rfl⟩ := addRef_ok hs
    simp only at ho
    intro q
    by_cases hq : q = p
    · subst hq
      have hl := view_some ho
      have hv := h q
      have hc : 0 < (s.view q).u := by
        simp only [State.view, State.u, List.countP_pos_iff]
        exact ⟨_, hm, by simp⟩
      have hf0 : 0 < (s.view q).ur := by
        simp only [State.view, State.ur, List.countP_pos_iff]
        exact ⟨_, hm, by simp⟩
      refine Good.of_view (v := { s.view q with h := (s.view q).h + 1, refs := (s.view q).refs + 1, u := (s.view q).u - 1, t := (s.view q).t + 1, ur := (s.view q).ur - 1, tr := (s.view q).tr + 1 }) (by view_simp [ho, countP_erase_sub _ hm]) ?_
      revert hl hv hc hf0
      generalize s.view q = v
      rintro hl ⟨⟩ hc hf0
      good
    · refine (h q).of_eq ?_
      have hq' : ¬ p = q := fun e => hq e.symm
      view_simp [upd_ne _ _ hq, hq', countP_erase_sub _ hm]

theorem inv_cleanup_increfs {s s' : State} {p : Nat} (h : Inv s) (hs : step s (.cleanup .increfs p) = .ok s') : Inv s' := by
  simp only [step] at hs
  split at hs
  case isFalse => cases hs
  case isTrue hm =>
    obtain ⟨o, ho, h0, rfl⟩ := addRef_ok hs
    simp only at ho
    intro q
    by_cases hq : q = p
    · subst hq
      have hl := view_some ho
      have hv := h q
      have hc : 0 < (s.view q).u := by
        simp only [State.view, State.u, List.countP_pos_iff]
        exact ⟨_, hm, by simp⟩
      refine Good.of_view (v := { s.view q with h := (s.view q).h + 1, refs := (s.view q).refs + 1, u := (s.view q).u - 1, t := (s.view q).t + 1 }) (by view_simp [ho, countP_erase_sub _ hm]) ?_
      revert hl hv hc
      generalize s.view q = v
      rintro hl ⟨⟩ hc
      good
    · refine (h q).of_eq ?_
      have hq' : ¬ p = q := fun e => hq e.symm
      view_simp [upd_ne _ _ hq, hq', countP_erase_sub _ hm]

theorem inv_cleanup_acquire {s s' : State} {p : Nat} (h : Inv s) (hs : step s (.cleanup .acquire p) = .ok s') : Inv s' := by
  simp only [step] at hs
  split at hs
  case isFalse => cases hs
  case isTrue hm =>
    obtain ⟨o, ho, h0, rfl⟩ := addRef_ok hs
    simp only at ho
    intro q
    by_cases hq : q = p
    · subst hq
      have hl := view_some ho
      have hv := h q
      have hc : 0 < (s.view q).u := by
        simp only [State.view, State.u, List.countP_pos_iff]
        exact ⟨_, hm, by simp⟩
      refine Good.of_view (v := { s.view q with h := (s.view q).h + 1, refs := (s.view q).refs + 1, u := (s.view q).u - 1, t := (s.view q).t + 1 }) (by view_simp [ho, countP_erase_sub _ hm]) ?_
      revert hl hv hc
      generalize s.view q = v
      rintro hl ⟨⟩ hc
      good
    · refine (h q).of_eq ?_
      have hq' : ¬ p = q := fun e => hq e.symm
      view_simp [upd_ne _ _ hq, hq', countP_erase_sub _ hm]

theorem inv_run_increfs {s s' : State} {p : Nat} {r : Bool} (h : Inv s) (hs : step s (.run ⟨.increfs, p, r⟩) = .ok s') : Inv s' := by
  simp only [step] at hs
  split at hs
  case isFalse => cases hs
  case isTrue hm =>
    obtain rfl : r = false := hm.2
    simp only [runTask] at hs
    split at hs
    case h_1 => cases hs
    rename_i o1 ho1
    cases hs
    have ho := ho1
    simp only [State.add] at ho
    intro q
    by_cases hq : q = p
    · subst hq
      have hl := view_some ho
      have hv := h q
      have hc : 0 < (s.view q).t := by
        simp only [State.view, State.t, List.countP_pos_iff]
        exact ⟨_, hm.1, by simp⟩
      refine Good.of_view (v := { s.view q with t := (s.view q).t - 1 + 1 }) (by view_simp [ho, countP_erase_sub _ hm.1]) ?_
      revert hl hv hc
      generalize s.view q = v
      rintro hl ⟨⟩ hc
      good
    · refine (h q).of_eq ?_
      have hq' : ¬ p = q := fun e => hq e.symm
      view_simp [upd_ne _ _ hq, hq', countP_erase_sub _ hm.1]

theorem inv_run_decrefs {s s' : State} {p : Nat} {r : Bool} (h : Inv s) (hs : step s (.run ⟨.decrefs, p, r⟩) = .ok s') : Inv s' := by
  simp only [step] at hs
  split at hs
  case isFalse => cases hs
  case isTrue hm =>
    obtain rfl : r = false := hm.2
    simp only [runTask] at hs
    split at hs
    case h_1 => cases hs
    rename_i o1 ho1
    cases hs
    have ho := ho1
    simp only [State.add] at ho
    intro q
    by_cases hq : q = p
    · subst hq
      have hl := view_some ho
      have hv := h q
      have hc : 0 < (s.view q).t := by
        simp only [State.view, State.t, List.countP_pos_iff]
        exact ⟨_, hm.1, by simp⟩
      refine Good.of_view (v := { s.view q with t := (s.view q).t - 1 + 1 }) (by view_simp [ho, countP_erase_sub _ hm.1]) ?_
      revert hl hv hc
      generalize s.view q = v
      rintro hl ⟨⟩ hc
      good
    · refine (h q).of_eq ?_
      have hq' : ¬ p = q := fun e => hq e.symm
      view_simp [upd_ne _ _ hq, hq', countP_erase_sub _ hm.1]

theorem inv_run_acquire {s s' : State} {p : Nat} {r : Bool} (h : Inv s) (hs : step s (.run ⟨.acquire, p, r⟩) = .ok s') : Inv s' := by
  simp only [step] at hs
  split at hs
  case isFalse => cases hs
  case isTrue hm =>
    obtain rfl : r = false := hm.2
    simp only [runTask] at hs
    split at hs
    case h_1 => cases hs
    rename_i o1 ho1
    obtain ⟨o, ho, h0, rfl⟩ := addRef_ok hs
    simp only [State.add] at ho1
    simp only [State.add, upd_same, Option.some.injEq] at ho
    subst ho
    have ho := ho1
    intro q
    by_cases hq : q = p
    · subst hq
      have hl := view_some ho
      have hv := h q
      have hc : 0 < (s.view q).t := by
        simp only [State.view, State.t, List.countP_pos_iff]
        exact ⟨_, hm.1, by simp⟩
      refine Good.of_view (v := { s.view q with refs := (s.view q).refs + 1, strong := (s.view q).strong + 1, ta := (s.view q).ta + 1, t := (s.view q).t - 1 + 1 }) (by view_simp [ho, countP_erase_sub _ hm.1, ho1]) ?_
      revert hl hv hc
      generalize s.view q = v
      rintro hl ⟨⟩ hc
      good
    · refine (h q).of_eq ?_
      have hq' : ¬ p = q := fun e => hq e.symm
      view_simp [upd_ne _ _ hq, hq', countP_erase_sub _ hm.1]

theorem inv_run_release {s s' : State} {p : Nat} {r : Bool} (h : Inv s) (hs : step s (.run ⟨.release, p, r⟩) = .ok s') : Inv s' := by
  simp only [step] at hs
  split at hs
  case isFalse => cases hs
  case isTrue hm =>
    obtain rfl : r = false := hm.2
    simp only [runTask] at hs
    split at hs
    case h_1 => cases hs
    rename_i o1 ho1
    split at hs
    case isFalse hz =>
      exfalso
      have hv := (h p).credit
      have h1 : 0 < (s.view p).tr := by
        simp only [State.view, State.tr, List.countP_pos_iff]
        exact ⟨_, hm.1, by simp⟩
      have h2 := (view_some (s := s) ho1).2.1
      omega
    rename_i hz
    obtain ⟨o, ho, ⟨h0, rfl⟩ | ⟨h0, rfl⟩⟩ := unref_ok hs
    all_goals
      simp only [State.add] at ho1
      simp only [State.add, upd_same, Option.some.injEq] at ho
      subst ho
      have ho := ho1
      intro q
      by_cases hq : q = p
    · subst hq
      have hl := view_some ho
      have hv := h q
      have hc : 0 < (s.view q).t := by
        simp only [State.view, State.t, List.countP_pos_iff]
        exact ⟨_, hm.1, by simp⟩
      have hf0 : 0 < (s.view q).tr := by
        simp only [State.view, State.tr, List.countP_pos_iff]
        exact ⟨_, hm.1, by simp⟩
      have hf1 : 0 < (s.view q).strong := by
        simp only [State.view, ho1, strongOf]
        exact hz
      refine Good.of_view (v := { s.view q with strong := (s.view q).strong - 1, tr := (s.view q).tr - 1, t := (s.view q).t - 1 + 1, dg := (s.view q).dg + 1 }) (by view_simp [ho, countP_erase_sub _ hm.1, ho1]) ?_
      revert hl hv hc hf0 hf1
      generalize s.view q = v
      rintro hl ⟨⟩ hc hf0 hf1
      good
    · refine (h q).of_eq ?_
      have hq' : ¬ p = q := fun e => hq e.symm
      view_simp [upd_ne _ _ hq, hq', countP_erase_sub _ hm.1]
    · subst hq
      have hl := view_some ho
      have hv := h q
      have hc : 0 < (s.view q).t := by
        simp only [State.view, State.t, List.countP_pos_iff]
        exact ⟨_, hm.1, by simp⟩
      have hf0 : 0 < (s.view q).tr := by
        simp only [State.view, State.tr, List.countP_pos_iff]
        exact ⟨_, hm.1, by simp⟩
      have hf1 : 0 < (s.view q).strong := by
        simp only [State.view, ho1, strongOf]
        exact hz
      refine Good.of_view (v := { s.view q with strong := (s.view q).strong - 1, tr := (s.view q).tr - 1, t := (s.view q).t - 1 + 1, refs := (s.view q).refs - 1 }) (by view_simp [ho, countP_erase_sub _ hm.1, ho1]) ?_
      revert hl hv hc hf0 hf1
      generalize s.view q = v
      rintro hl ⟨⟩ hc hf0 hf1
      good
    · refine (h q).of_eq ?_
      have hq' : ¬ p = q := fun e => hq e.symm
      view_simp [upd_ne _ _ hq, hq', countP_erase_sub _ hm.1]

theorem inv_done_increfs {s s' : State} {p : Nat} {r : Bool} (h : Inv s) (hs : step s (.done ⟨.increfs, p, r⟩) = .ok s') : Inv s' := by
  simp only [step] at hs
  split at hs
  case isFalse => cases hs
  case isTrue hm =>
    obtain rfl : r = true := hm.2
    simp only [taskDone] at hs
    obtain ⟨o, ho, ⟨h0, rfl⟩ | ⟨h0, rfl⟩⟩ := unref_ok hs
    all_goals
      simp only at ho
      intro q
      by_cases hq : q = p
    · subst hq
      have hl := view_some ho
      have hv := h q
      have hc : 0 < (s.view q).t := by
        simp only [State.view, State.t, List.countP_pos_iff]
        exact ⟨_, hm.1, by simp⟩
      refine Good.of_view (v := { s.view q with t := (s.view q).t - 1, dg := (s.view q).dg + 1 }) (by view_simp [ho, countP_erase_sub _ hm.1]) ?_
      revert hl hv hc
      generalize s.view q = v
      rintro hl ⟨⟩ hc
      good
    · refine (h q).of_eq ?_
      have hq' : ¬ p = q := fun e => hq e.symm
      view_simp [upd_ne _ _ hq, hq', countP_erase_sub _ hm.1]
    · subst hq
      have hl := view_some ho
      have hv := h q
      have hc : 0 < (s.view q).t := by
        simp only [State.view, State.t, List.countP_pos_iff]
        exact ⟨_, hm.1, by simp⟩
      refine Good.of_view (v := { s.view q with t := (s.view q).t - 1, refs := (s.view q).refs - 1 }) (by view_simp [ho, countP_erase_sub _ hm.1]) ?_
      revert hl hv hc
      generalize s.view q = v
      rintro hl ⟨⟩ hc
      good
    · refine (h q).of_eq ?_
      have hq' : ¬ p = q := fun e => hq e.symm
      view_simp [upd_ne _ _ hq, hq', countP_erase_sub _ hm.1]

theorem inv_done_decrefs {s s' : State} {p : Nat} {r : Bool} (h : Inv s) (hs : step s (.done ⟨.decrefs, p, r⟩) = .ok s') : Inv s' := by
  simp only [step] at hs
  split at hs
  case isFalse => cases hs
  case isTrue hm =>
    obtain rfl : r = true := hm.2
    simp only [taskDone] at hs
    obtain ⟨o, ho, ⟨h0, rfl⟩ | ⟨h0, rfl⟩⟩ := unref_ok hs
    all_goals
      simp only at ho
      intro q
      by_cases hq : q = p
    · subst hq
      have hl := view_some ho
      have hv := h q
      have hc : 0 < (s.view q).t := by
        simp only [State.view, State.t, List.countP_pos_iff]
        exact ⟨_, hm.1, by simp⟩
      refine Good.of_view (v := { s.view q with t := (s.view q).t - 1, dg := (s.view q).dg + 1 }) (by view_simp [ho, countP_erase_sub _ hm.1]) ?_
      revert hl hv hc
      generalize s.view q = v
      rintro hl ⟨⟩ hc
      good
    · refine (h q).of_eq ?_
      have hq' : ¬ p = q := fun e => hq e.symm
      view_simp [upd_ne _ _ hq, hq', countP_erase_sub _ hm.1]
    · subst hq
      have hl := view_some ho
      have hv := h q
      have hc : 0 < (s.view q).t := by
        simp only [State.view, State.t, List.countP_pos_iff]
        exact ⟨_, hm.1, by simp⟩
      refine Good.of_view (v := { s.view q with t := (s.view q).t - 1, refs := (s.view q).refs - 1 }) (by view_simp [ho, countP_erase_sub _ hm.1]) ?_
      revert hl hv hc
      generalize s.view q = v
      rintro hl ⟨⟩ hc
      good
    · refine (h q).of_eq ?_
      have hq' : ¬ p = q := fun e => hq e.symm
      view_simp [upd_ne _ _ hq, hq', countP_erase_sub _ hm.1]

theorem inv_done_acquire {s s' : State} {p : Nat} {r : Bool} (h : Inv s) (hs : step s (.done ⟨.acquire, p, r⟩) = .ok s') : Inv s' := by
  simp only [step] at hs
  split at hs
  case isFalse => cases hs
  case isTrue hm =>
    obtain rfl : r = true := hm.2
    simp only [taskDone] at hs
    split at hs
    case h_1 => cases hs
    obtain ⟨o, ho, ⟨h0, rfl⟩ | ⟨h0, rfl⟩⟩ := unref_ok hs
    all_goals
      simp only [State.add] at ho
      intro q
      by_cases hq : q = p
    · subst hq
      have hl := view_some ho
      have hv := h q
      have hc : 0 < (s.view q).t := by
        simp only [State.view, State.t, List.countP_pos_iff]
        exact ⟨_, hm.1, by simp⟩
      have hf0 : 0 < (s.view q).ta := by
        simp only [State.view, State.ta, List.countP_pos_iff]
        exact ⟨_, hm.1, by simp⟩
      refine Good.of_view (v := { s.view q with t := (s.view q).t - 1, ta := (s.view q).ta - 1, credit := (s.view q).credit + 1, dg := (s.view q).dg + 1 }) (by view_simp [ho, countP_erase_sub _ hm.1]) ?_
      revert hl hv hc hf0
      generalize s.view q = v
      rintro hl ⟨⟩ hc hf0
      good
    · refine (h q).of_eq ?_
      have hq' : ¬ p = q := fun e => hq e.symm
      view_simp [upd_ne _ _ hq, hq', countP_erase_sub _ hm.1]
    · subst hq
      have hl := view_some ho
      have hv := h q
      have hc : 0 < (s.view q).t := by
        simp only [State.view, State.t, List.countP_pos_iff]
        exact ⟨_, hm.1, by simp⟩
      have hf0 : 0 < (s.view q).ta := by
        simp only [State.view, State.ta, List.countP_pos_iff]
        exact ⟨_, hm.1, by simp⟩
      refine Good.of_view (v := { s.view q with t := (s.view q).t - 1, ta := (s.view q).ta - 1, credit := (s.view q).credit + 1, refs := (s.view q).refs - 1 }) (by view_simp [ho, countP_erase_sub _ hm.1]) ?_
      revert hl hv hc hf0
      generalize s.view q = v
      rintro hl ⟨⟩ hc hf0
      good
    · refine (h q).of_eq ?_
      have hq' : ¬ p = q := fun e => hq e.symm
      view_simp [upd_ne _ _ hq, hq', countP_erase_sub _ hm.1]

theorem inv_done_release {s s' : State} {p : Nat} {r : Bool} (h : Inv s) (hs : step s (.done ⟨.release, p, r⟩) = .ok s') : Inv s' := by
  simp only [step] at hs
  split at hs
  case isFalse => cases hs
  case isTrue hm =>
    obtain rfl : r = true := hm.2
    simp only [taskDone] at hs
    obtain ⟨o, ho, ⟨h0, rfl⟩ | ⟨h0, rfl⟩⟩ := unref_ok hs
    all_goals
      simp only at ho
      intro q
      by_cases hq : q = p
    · subst hq
      have hl := view_some ho
      have hv := h q
      have hc : 0 < (s.view q).t := by
        simp only [State.view, State.t, List.countP_pos_iff]
        exact ⟨_, hm.1, by simp⟩
      refine Good.of_view (v := { s.view q with t := (s.view q).t - 1, dg := (s.view q).dg + 1 }) (by view_simp [ho, countP_erase_sub _ hm.1]) ?_
      revert hl hv hc
      generalize s.view q = v
      rintro hl ⟨⟩ hc
      good
    · refine (h q).of_eq ?_
      have hq' : ¬ p = q := fun e => hq e.symm
      view_simp [upd_ne _ _ hq, hq', countP_erase_sub _ hm.1]
    · subst hq
      have hl := view_some ho
      have hv := h q
      have hc : 0 < (s.view q).t := by
        simp only [State.view, State.t, List.countP_pos_iff]
        exact ⟨_, hm.1, by simp⟩
      refine Good.of_view (v := { s.view q with t := (s.view q).t - 1, refs := (s.view q).refs - 1 }) (by view_simp [ho, countP_erase_sub _ hm.1]) ?_
      revert hl hv hc
      generalize s.view q = v
      rintro hl ⟨⟩ hc
      good
    · refine (h q).of_eq ?_
      have hq' : ¬ p = q := fun e => hq e.symm
      view_simp [upd_ne _ _ hq, hq', countP_erase_sub _ hm.1]

theorem inv_dispose {s s' : State} {p : Nat} (h : Inv s) (hs : step s (.dispose p) = .ok s') : Inv s' := by
  simp only [step] at hs
  split at hs
  case isFalse => cases hs
  case isTrue hm =>
    split at hs
    case h_1 => cases hs
    rename_i o ho
    split at hs
    all_goals
      rename_i hr
      cases hs
      intro q
      by_cases hq : q = p
    · subst hq
      have hl := view_some ho
      have hv := h q
      have hc : 0 < (s.view q).dg := by
        simp only [State.view, State.dy, List.countP_pos_iff]
        exact ⟨_, hm, by simp⟩
      refine Good.of_view (v := { s.view q with tab := 0, dg := (s.view q).dg - 1, dd := (s.view q).dd + 1 }) (by view_simp [ho, countP_erase_sub _ hm]) ?_
      revert hl hv hc
      generalize s.view q = v
      rintro hl ⟨⟩ hc
      good
    · refine (h q).of_eq ?_
      have hq' : ¬ p = q := fun e => hq e.symm
      view_simp [upd_ne _ _ hq, hq', countP_erase_sub _ hm]
    · subst hq
      have hl := view_some ho
      have hv := h q
      have hc : 0 < (s.view q).dg := by
        simp only [State.view, State.dy, List.countP_pos_iff]
        exact ⟨_, hm, by simp⟩
      refine Good.of_view (v := { s.view q with dg := (s.view q).dg - 1, dd := (s.view q).dd + 1 }) (by view_simp [ho, countP_erase_sub _ hm]) ?_
      revert hl hv hc
      generalize s.view q = v
      rintro hl ⟨⟩ hc
      good
    · refine (h q).of_eq ?_
      have hq' : ¬ p = q := fun e => hq e.symm
      view_simp [upd_ne _ _ hq, hq', countP_erase_sub _ hm]

theorem inv_settle {s s' : State} {p : Nat} (h : Inv s) (hs : step s (.settle p) = .ok s') : Inv s' := by
  simp only [step] at hs
  split at hs
  case isFalse => cases hs
  case isTrue hm =>
    split at hs
    case h_1 => cases hs
    rename_i o ho
    split at hs
    case isTrue => cases hs
    rename_i hz
    split at hs
    all_goals
      rename_i hr
      cases hs
      intro q
      by_cases hq : q = p
    · subst hq
      have hl := view_some ho
      have hv := h q
      have hc : 0 < (s.view q).dd := by
        simp only [State.view, State.dy, List.countP_pos_iff]
        exact ⟨_, hm, by simp⟩
      refine Good.of_view (v := { s.view q with refs := 0, dd := (s.view q).dd - 1, df := (s.view q).df + 1 }) (by view_simp [ho, countP_erase_sub _ hm]) ?_
      revert hl hv hc
      generalize s.view q = v
      rintro hl ⟨⟩ hc
      good
    · refine (h q).of_eq ?_
      have hq' : ¬ p = q := fun e => hq e.symm
      view_simp [upd_ne _ _ hq, hq', countP_erase_sub _ hm]
    · subst hq
      have hl := view_some ho
      have hv := h q
      have hc : 0 < (s.view q).dd := by
        simp only [State.view, State.dy, List.countP_pos_iff]
        exact ⟨_, hm, by simp⟩
      refine Good.of_view (v := { s.view q with refs := (s.view q).refs - 1, dd := (s.view q).dd - 1 }) (by view_simp [ho, countP_erase_sub _ hm]) ?_
      revert hl hv hc
      generalize s.view q = v
      rintro hl ⟨⟩ hc
      good
    · refine (h q).of_eq ?_
      have hq' : ¬ p = q := fun e => hq e.symm
      view_simp [upd_ne _ _ hq, hq', countP_erase_sub _ hm]

theorem inv_invalidate {s s' : State} {p : Nat} (h : Inv s) (hs : step s (.invalidate p) = .ok s') : Inv s' := by
  simp only [step] at hs
  split at hs
  case isFalse => cases hs
  case isTrue hm =>
    split at hs
    case h_1 => cases hs
    rename_i o ho
    cases hs
    intro q
    by_cases hq : q = p
    · subst hq
      have hl := view_some ho
      have hv := h q
      have hc : 0 < (s.view q).df := by
        simp only [State.view, State.dy, List.countP_pos_iff]
        exact ⟨_, hm, by simp⟩
      refine Good.of_view (v := { s.view q with tab := 0, df := (s.view q).df - 1, dr := (s.view q).dr + 1 }) (by view_simp [ho, countP_erase_sub _ hm]) ?_
      revert hl hv hc
      generalize s.view q = v
      rintro hl ⟨⟩ hc
      good
    · refine (h q).of_eq ?_
      have hq' : ¬ p = q := fun e => hq e.symm
      view_simp [upd_ne _ _ hq, hq', countP_erase_sub _ hm]

theorem inv_free {s s' : State} {p : Nat} (h : Inv s) (hs : step s (.free p) = .ok s') : Inv s' := by
  simp only [step] at hs
  split at hs
  case isFalse => cases hs
  case isTrue hm =>
    split at hs
    case h_1 => cases hs
    rename_i o ho
    cases hs
    intro q
    by_cases hq : q = p
    · subst hq
      have hl := view_some ho
      have hv := h q
      have hc : 0 < (s.view q).dr := by
        simp only [State.view, State.dy, List.countP_pos_iff]
        exact ⟨_, hm, by simp⟩
      refine Good.of_view (v := { s.view q with refs := 0, strong := 0, live := 0, dr := (s.view q).dr - 1 }) (by view_simp [ho, countP_erase_sub _ hm]) ?_
      revert hl hv hc
      generalize s.view q = v
      rintro hl ⟨⟩ hc
      good
    · refine (h q).of_eq ?_
      have hq' : ¬ p = q := fun e => hq e.symm
      view_simp [upd_ne _ _ hq, hq', countP_erase_sub _ hm]

theorem inv_step {s s' : State} {l : Label} (h : Inv s) (hs : step s l = .ok s') : Inv s' := by
  cases l with
  | new p => exact inv_new h hs
  | ref p => exact inv_ref h hs
  | unref p => exact inv_unref h hs
  | getLocal p => exact inv_getLocal h hs
  | handle k p =>
    cases k with
    | increfs => exact inv_handle_increfs h hs
    | decrefs => exact inv_handle_decrefs h hs
    | acquire => exact inv_handle_acquire h hs
    | release => exact inv_handle_release h hs
  | cleanup k p =>
    cases k with
    | increfs => exact inv_cleanup_increfs h hs
    | decrefs => exact inv_cleanup_decrefs h hs
    | acquire => exact inv_cleanup_acquire h hs
    | release => exact inv_cleanup_release h hs
  | put p => exact inv_put h hs
  | run t =>
    obtain ⟨k, p, r⟩ := t
    cases k with
    | increfs => exact inv_run_increfs h hs
    | decrefs => exact inv_run_decrefs h hs
    | acquire => exact inv_run_acquire h hs
    | release => exact inv_run_release h hs
  | done t =>
    obtain ⟨k, p, r⟩ := t
    cases k with
    | increfs => exact inv_done_increfs h hs
    | decrefs => exact inv_done_decrefs h hs
    | acquire => exact inv_done_acquire h hs
    | release => exact inv_done_release h hs
  | dispose p => exact inv_dispose h hs
  | settle p => exact inv_settle h hs
  | invalidate p => exact inv_invalidate h hs
  | free p => exact inv_free h hs

theorem inv_reach {s : State} (h : Reach step {} s) : Inv s :=
  h.invariant inv_init fun _ _ _ hi hs => inv_step hi hs

theorem addRef_ub {s : State} {p : Nat} (h : s.addRef p = .ub) :
    s.objs p = none ∨ ∃ o, s.objs p = some o ∧ o.refs = 0 := by
  unfold State.addRef at h
  split at h
  · rename_i ho; exact .inl ho
  · rename_i o ho
    split at h
    · rename_i h0; exact .inr ⟨o, ho, h0⟩
    · cases h

theorem unref_ub {s : State} {p : Nat} (h : s.unref p = .ub) :
    s.objs p = none ∨ ∃ o, s.objs p = some o ∧ o.refs = 0 := by
  unfold State.unref at h
  split at h
  · rename_i ho; exact .inl ho
  · rename_i o ho
    split at h
    · rename_i h0; exact .inr ⟨o, ho, h0⟩
    · split at h <;> cases h

theorem bad_refs {s : State} {p : Nat} (h : s.objs p = none ∨ ∃ o, s.objs p = some o ∧ o.refs = 0) :
    (s.view p).refs = 0 := by
  rcases h with h | ⟨o, h, h0⟩
  · view_simp [h]
  · simp only [State.view, h, refsOf, h0]

/-- Whoever has a reference to an object has something to refer to. -/
theorem alive_of_owner {s : State} {p : Nat} (h : Inv s)
    (ho : 0 < s.user p ∨ p ∈ s.held ∨ (∃ k, (k, p) ∈ s.unrefs) ∨ (∃ t ∈ s.tasks, t.obj = p) ∨
      ⟨p, .disposing⟩ ∈ s.dying ∨ ⟨p, .disposed⟩ ∈ s.dying) : ∃ o, s.objs p = some o ∧ 1 ≤ o.refs := by
  have h1 := (h p).refs
  have h2 : 1 ≤ (s.view p).refs := by
    rcases ho with ho | ho | ⟨k, ho⟩ | ⟨t, ho, rfl⟩ | ho | ho
    · have : 0 < (s.view p).user := ho
      omega
    · have : 0 < (s.view p).h := by
        simp only [State.view, State.h, List.countP_pos_iff]
        exact ⟨_, ho, by simp⟩
      omega
    · have : 0 < (s.view p).u := by
        simp only [State.view, State.u, List.countP_pos_iff]
        exact ⟨_, ho, by simp⟩
      omega
    · have : 0 < (s.view t.obj).t := by
        simp only [State.view, State.t, List.countP_pos_iff]
        exact ⟨_, ho, by simp⟩
      omega
    · have : 0 < (s.view p).dg := by
        simp only [State.view, State.dy, List.countP_pos_iff]
        exact ⟨_, ho, by simp⟩
      omega
    · have : 0 < (s.view p).dd := by
        simp only [State.view, State.dy, List.countP_pos_iff]
        exact ⟨_, ho, by simp⟩
      omega
  cases ho : s.objs p with
  | none => simp only [State.view, ho, refsOf] at h2; omega
  | some o => exact ⟨o, rfl, by simpa only [State.view, ho, refsOf] using h2⟩

theorem alive_of_fin {s : State} {p : Nat} (h : Inv s)
    (ho : ⟨p, .finalizing⟩ ∈ s.dying ∨ ⟨p, .removed⟩ ∈ s.dying) : s.objs p ≠ none := by
  intro hn
  have h1 := (h p).fr
  have h2 : 1 ≤ (s.view p).df + (s.view p).dr := by
    rcases ho with ho | ho
    · have : 0 < (s.view p).df := by
        simp only [State.view, State.dy, List.countP_pos_iff]
        exact ⟨_, ho, by simp⟩
      omega
    · have : 0 < (s.view p).dr := by
        simp only [State.view, State.dy, List.countP_pos_iff]
        exact ⟨_, ho, by simp⟩
      omega
  have := (view_none hn).1
  omega

theorem not_bad {s : State} {p : Nat} (h : ∃ o, s.objs p = some o ∧ 1 ≤ o.refs)
    (hb : s.objs p = none ∨ ∃ o, s.objs p = some o ∧ o.refs = 0) : False := by
  obtain ⟨o, h1, h2⟩ := h
  rcases hb with hb | ⟨o', hb, hb'⟩
  · rw [h1] at hb; cases hb
  · rw [h1] at hb; cases hb; omega

theorem not_bad' {s s' : State} {p : Nat} (h : ∃ o, s.objs p = some o ∧ 1 ≤ o.refs)
    (hb : s'.objs p = none ∨ ∃ o, s'.objs p = some o ∧ o.refs = 0) (he : s'.objs = s.objs) : False := by
  rw [he] at hb
  exact not_bad h hb

/-- The only step which may go wrong is the lookup of an object which is being finalized. -/
theorem step_ub {s : State} {l : Label} (h : Inv s) (hs : step s l = .ub) :
    ∃ p o, l = .getLocal p ∧ s.table p = true ∧ s.objs p = some o ∧ o.refs = 0 := by
  cases l with
  | new p => simp only [step] at hs; split at hs <;> cases hs
  | ref p =>
    simp only [step] at hs
    split at hs
    · rename_i hc
      exact (not_bad' (alive_of_owner h (.inl hc)) (addRef_ub hs) rfl).elim
    · cases hs
  | unref p =>
    simp only [step] at hs
    split at hs
    · rename_i hc
      exact (not_bad' (alive_of_owner h (.inl hc)) (unref_ub hs) rfl).elim
    · cases hs
  | getLocal p =>
    simp only [step] at hs
    split at hs
    · rename_i hc
      rcases addRef_ub hs with hb | ⟨o, hb, h0⟩
      · have h1 := ((h p).none (view_none hb).1).1
        simp only [State.view, State.tab, hc.2] at h1
        cases h1
      · exact ⟨p, o, rfl, hc.2, hb, h0⟩
    · cases hs
  | handle k p =>
    simp only [step] at hs
    split at hs
    · rename_i hc
      split at hs
      · exact (not_bad' (alive_of_owner h (.inr (.inl hc))) (addRef_ub hs) rfl).elim
      · exact (not_bad' (alive_of_owner h (.inr (.inl hc))) (addRef_ub hs) rfl).elim
      · cases hs
      · split at hs <;> cases hs
    · cases hs
  | cleanup k p =>
    simp only [step] at hs
    split at hs
    · rename_i hc
      exact (not_bad' (alive_of_owner h (.inr (.inr (.inl ⟨k, hc⟩)))) (addRef_ub hs) rfl).elim
    · cases hs
  | put p =>
    simp only [step] at hs
    split at hs
    · rename_i hc
      exact (not_bad' (alive_of_owner h (.inr (.inl hc))) (unref_ub hs) rfl).elim
    · cases hs
  | run t =>
    simp only [step] at hs
    split at hs
    · rename_i hc
      obtain ⟨o, ho, h1⟩ := alive_of_owner h (.inr (.inr (.inr (.inl ⟨t, hc.1, rfl⟩))))
      simp only [runTask, State.add, ho] at hs
      split at hs
      · cases hs
      · cases hs
      · rcases addRef_ub hs with hb | ⟨o', hb, h0⟩
        · simp only [upd_same] at hb; cases hb
        · simp only [upd_same] at hb; cases hb; simp only at h0; omega
      · split at hs
        · rcases unref_ub hs with hb | ⟨o', hb, h0⟩
          · simp only [upd_same] at hb; cases hb
          · simp only [upd_same] at hb; cases hb; simp only at h0; omega
        · cases hs
    · cases hs
  | done t =>
    simp only [step] at hs
    split at hs
    · rename_i hc
      have ha := alive_of_owner h (.inr (.inr (.inr (.inl ⟨t, hc.1, rfl⟩))))
      simp only [taskDone] at hs
      split at hs
      · split at hs
        · rename_i hn
          exact (not_bad ha (.inl hn)).elim
        · exact (not_bad' ha (unref_ub hs) rfl).elim
      · exact (not_bad' ha (unref_ub hs) rfl).elim
    · cases hs
  | dispose p =>
    simp only [step] at hs
    split at hs
    · rename_i hc
      have ha := alive_of_owner h (.inr (.inr (.inr (.inr (.inl hc)))))
      split at hs
      · rename_i hn
        exact (not_bad ha (.inl hn)).elim
      · split at hs <;> cases hs
    · cases hs
  | settle p =>
    simp only [step] at hs
    split at hs
    · rename_i hc
      have ha := alive_of_owner h (.inr (.inr (.inr (.inr (.inr hc)))))
      split at hs
      · rename_i hn
        exact (not_bad ha (.inl hn)).elim
      · rename_i o hn
        split at hs
        · rename_i h0
          exact (not_bad ha (.inr ⟨o, hn, h0⟩)).elim
        · split at hs <;> cases hs
    · cases hs
  | invalidate p =>
    simp only [step] at hs
    split at hs
    · rename_i hc
      split at hs
      · rename_i hn
        exact (alive_of_fin h (.inl hc) hn).elim
      · cases hs
    · cases hs
  | free p =>
    simp only [step] at hs
    split at hs
    · rename_i hc
      split at hs
      · rename_i hn
        exact (alive_of_fin h (.inr hc) hn).elim
      · cases hs
    · cases hs

end Gb.LocalObj
