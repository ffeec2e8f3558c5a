import Verif.Model.Loopers
/-
What it means for the loopers to be in the lists.
-/
set_option autoImplicit false

namespace Gb.Loopers

/-- These are the elements of a list. -/
def Chain (next : Nat → Option Nat) : Option Nat → List Nat → Prop
  | h, [] => h = none
  | h, x :: l => h = some x ∧ Chain next (next x) l

/-- The thread is not blocked, and is not going to exit. It may be waiting for the main thread to
handle a transaction, or to find out that it's blocked. -/
def Serving (s : State) (x : Nat) : Prop :=
  (s.thread x = .starting ∨ s.thread x = .loop ∨ s.thread x = .reading ∨ s.thread x = .waiting) ∧
    ∃ o, s.obj x = some o ∧ o.exit = false

/-- When the loopers are being stopped, no transaction which has been blocked keeps a looper
waiting. -/
def Calm (s : State) : Label → Prop
  | .stop _ | .again => ∀ x, s.thread x ≠ .blocked true ∧ s.thread x ≠ .finishing true
  | _ => True

/-- Threads and pipes can be created, the driver works and the loopers are not being stopped. -/
def Healthy (s : State) : Label → Prop
  | .check ok | .block _ ok | .start _ ok => ok = true
  | .leave x => ∃ o, s.obj x = some o ∧ o.exit = true
  | .stop _ => False
  | _ => True

end Gb.Loopers
