import Verif.Model.Poll
/-
The order of strings.
-/
set_option autoImplicit false

namespace Gb.Poll

theorem le_refl (a : Bytes) : le a a = true := by
  induction a with
  | nil => rfl
  | cons x a ih => simp [le, ih]

theorem le_total (a b : Bytes) : (le a b || le b a) = true := by
  induction a generalizing b with
  | nil => rfl
  | cons x a ih =>
    cases b with
    | nil => rfl
    | cons y b =>
      have := ih b
      simp only [le, Bool.or_eq_true, Bool.and_eq_true, decide_eq_true_eq, beq_iff_eq] at this ⊢
      by_cases hxy : x = y
      · subst hxy; rcases this with h | h
        · exact .inl (.inr ⟨rfl, h⟩)
        · exact .inr (.inr ⟨rfl, h⟩)
      · rcases UInt8.lt_or_lt_of_ne hxy with h | h
        · exact .inl (.inl h)
        · exact .inr (.inl h)

theorem le_trans (a b c : Bytes) : le a b = true → le b c = true → le a c = true := by
  induction a generalizing b c with
  | nil => intros; rfl
  | cons x a ih =>
    cases b with
    | nil => intro h; cases h
    | cons y b =>
      cases c with
      | nil => intro _ h; cases h
      | cons z c =>
        simp only [le, Bool.or_eq_true, Bool.and_eq_true, decide_eq_true_eq, beq_iff_eq]
        rintro (h1 | ⟨rfl, h1⟩) (h2 | ⟨rfl, h2⟩)
        · exact .inl (UInt8.lt_trans h1 h2)
        · exact .inl h1
        · exact .inl h2
        · exact .inr ⟨rfl, ih b c h1 h2⟩

theorem le_antisymm (a b : Bytes) : le a b = true → le b a = true → a = b := by
  induction a generalizing b with
  | nil => cases b with
    | nil => intros; rfl
    | cons y b => intro _ h; cases h
  | cons x a ih =>
    cases b with
    | nil => intro h; cases h
    | cons y b =>
      simp only [le, Bool.or_eq_true, Bool.and_eq_true, decide_eq_true_eq, beq_iff_eq]
      rintro (h1 | ⟨rfl, h1⟩) (h2 | ⟨h3, h2⟩)
      · exact absurd (UInt8.lt_trans h1 h2) (UInt8.lt_irrefl _)
      · subst h3; exact absurd h1 (UInt8.lt_irrefl _)
      · exact absurd h2 (UInt8.lt_irrefl _)
      · rw [ih b h1 h2]

end Gb.Poll
