import Verif.Model.EventFlag
/-
What one event bit is supposed to do.
-/
set_option autoImplicit false

namespace Gb.EventFlag

/-- The state of a bit after a sequence of events, if there's nothing wrong with those events:
gbinder_fmq_wake sets the bit if it's in the mask, gbinder_fmq_wait returns it if and only if it's
in the mask and is set, and then it becomes clear. -/
def track (b : Nat) : Bool → List Ev → Option Bool
  | cur, [] => some cur
  | cur, .wake mask :: evs => track b (cur || mask.getLsbD b) evs
  | cur, .got mask bits :: evs =>
    if bits.getLsbD b = (mask.getLsbD b && cur) then track b (cur && !mask.getLsbD b) evs else none
  | cur, .none mask :: evs => if mask.getLsbD b && cur then none else track b cur evs

/-- How many times gbinder_fmq_wait has returned the bit. -/
def returned (b : Nat) (evs : List Ev) : Nat :=
  evs.countP (fun e => match e with | .got _ bits => bits.getLsbD b | _ => false)

/-- How many times the bit has become set. -/
def raised (b : Nat) : Bool → List Ev → Nat
  | _, [] => 0
  | cur, .wake mask :: evs =>
    (if !cur && mask.getLsbD b then 1 else 0) + raised b (cur || mask.getLsbD b) evs
  | cur, .got mask _ :: evs => raised b (cur && !mask.getLsbD b) evs
  | cur, .none _ :: evs => raised b cur evs

end Gb.EventFlag
