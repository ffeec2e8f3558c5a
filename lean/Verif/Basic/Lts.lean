/-
State machines with labelled steps. The labels tell who does what, an execution is any list of
labels, so a property of all executions is a property of all schedules.
-/
set_option autoImplicit false

namespace Gb

/-- The outcome of a step: it can't happen in this state, it happens, or it is undefined
behaviour (e.g. access to memory which has been freed). -/
inductive Out (S : Type)
  | no
  | ok (s : S)
  | ub

/-- The step has happened, and the state satisfies the condition. -/
def Out.holds {S : Type} (o : Out S) (p : S → Bool) : Bool :=
  match o with
  | .ok s => p s
  | _ => false

def Out.isUb {S : Type} : Out S → Bool
  | .ub => true
  | _ => false

theorem Out.isUb_iff {S : Type} {o : Out S} : o.isUb = true ↔ o = .ub := by
  cases o <;> simp [Out.isUb]

/-- One thing after another. -/
def Out.andThen {S : Type} (o : Out S) (f : S → Out S) : Out S :=
  match o with
  | .ok s => f s
  | .no => .no
  | .ub => .ub

/-- A sequence of steps. -/
def exec {S L : Type} (step : S → L → Out S) : S → List L → Out S
  | s, [] => .ok s
  | s, l :: ls =>
    match step s l with
    | .ok s' => exec step s' ls
    | .no => .no
    | .ub => .ub

/-- States in which a (finite) execution may end up. -/
def Reach {S L : Type} (step : S → L → Out S) (init s : S) : Prop :=
  ∃ ls, exec step init ls = .ok s

theorem exec_append {S L : Type} (step : S → L → Out S) (s : S) (a b : List L) :
    exec step s (a ++ b) =
      match exec step s a with
      | .ok s' => exec step s' b
      | .no => .no
      | .ub => .ub := by
  induction a generalizing s with
  | nil => rfl
  | cons l ls ih =>
    simp only [List.cons_append, exec]
    split <;> simp_all

theorem exec_invariant {S L : Type} {step : S → L → Out S} {P : S → Prop}
    (hs : ∀ s l s', P s → step s l = .ok s' → P s') {s : S} (h : P s) {ls : List L} {s' : S}
    (he : exec step s ls = .ok s') : P s' := by
  induction ls generalizing s with
  | nil => cases he; exact h
  | cons l ls ih =>
    simp only [exec] at he
    split at he
    · rename_i s1 h1
      exact ih (hs s l s1 h h1) he
    · cases he
    · cases he

/-- Whatever holds initially and is preserved by each step, always holds. -/
theorem Reach.invariant {S L : Type} {step : S → L → Out S} {init : S} {P : S → Prop}
    (h0 : P init) (hs : ∀ s l s', P s → step s l = .ok s' → P s') {s : S}
    (h : Reach step init s) : P s := by
  obtain ⟨ls, h⟩ := h
  exact exec_invariant hs h0 h

theorem Reach.init {S L : Type} {step : S → L → Out S} {init : S} : Reach step init init :=
  ⟨[], rfl⟩

theorem Reach.step {S L : Type} {step : S → L → Out S} {init s s' : S} (h : Reach step init s)
    {l : L} (hl : step s l = .ok s') : Reach step init s' := by
  obtain ⟨ls, h⟩ := h
  refine ⟨ls ++ [l], ?_⟩
  rw [exec_append, h]
  simp [exec, hl]

/-- States in which an execution may end up if all its steps meet a condition. -/
inductive ReachIf {S L : Type} (step : S → L → Out S) (ok : S → L → Prop) (init : S) : S → Prop
  | init : ReachIf step ok init init
  | step {s s' : S} (l : L) : ReachIf step ok init s → ok s l → step s l = .ok s' →
      ReachIf step ok init s'

theorem ReachIf.reach {S L : Type} {step : S → L → Out S} {ok : S → L → Prop} {init s : S}
    (h : ReachIf step ok init s) : Reach step init s := by
  induction h with
  | init => exact Reach.init
  | step l _ _ hs ih => exact ih.step hs

/-- A function changed at one point. -/
def upd {α : Type} (f : Nat → α) (k : Nat) (v : α) : Nat → α := fun x => if x = k then v else f x

theorem upd_same {α : Type} (f : Nat → α) (k : Nat) (v : α) : upd f k v k = v := by simp [upd]

theorem upd_ne {α : Type} (f : Nat → α) {k x : Nat} (v : α) (h : x ≠ k) : upd f k v x = f x := by
  simp [upd, h]

theorem countP_erase {α : Type} [BEq α] [LawfulBEq α] (p : α → Bool) {l : List α} {a : α}
    (h : a ∈ l) : (l.erase a).countP p + (if p a then 1 else 0) = l.countP p := by
  induction l with
  | nil => cases h
  | cons b l ih =>
    rw [List.erase_cons]
    by_cases hb : b = a
    · subst hb
      simp [List.countP_cons]
    · have : (b == a) = false := by simp [hb]
      rw [this]
      have h : a ∈ l := by
        rcases List.mem_cons.1 h with h | h
        · exact absurd h.symm hb
        · exact h
      have := ih h
      simp only [Bool.false_eq_true, if_false, List.countP_cons]
      omega

end Gb
