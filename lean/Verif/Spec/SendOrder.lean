import Verif.Model.SendOrder
/-
The order in which calls are sent.
-/
set_option autoImplicit false

namespace Gb.SendOrder

/-- `a` has happened before `b`. -/
def Before (a b : Ev) (log : List Ev) : Prop := ∃ x y, log = x ++ y ∧ a ∈ x ∧ b ∈ y

/-- If `c` was made before `d`, then it was sent before `d` (unless one of them hasn't been sent). -/
def Sorted (c d : Call) (log : List Ev) : Prop :=
  Before (.called c) (.called d) log → ¬ Before (.sent d) (.sent c) log

/-- All calls are sent in the order in which they were made. -/
def InOrder (log : List Ev) : Prop := ∀ c d, Sorted c d log

end Gb.SendOrder
