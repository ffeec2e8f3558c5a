import Verif.Spec.Driver
/-
The references of the kernel to local objects which a call has to drop: those named by the
BR_RELEASE and BR_DECREFS commands it has received for objects which exist.
-/
set_option autoImplicit false

namespace Gb.Driver

/-- The reference (strong if `true`) which the last event of the log tells to drop. -/
def due (W : World) (io : Io) (log : List Ev) : Ev → List (Bool × Nat)
  | .cmd c d =>
    match decodePtr io d with
    | none => []
    | some p =>
      if W.getLocal log p then
        if c = BR.release.code io then [(true, p)]
        else if c = BR.decrefs.code io then [(false, p)]
        else []
      else []
  | _ => []

/-- All those references, `pre` being what has happened before. -/
def duesFrom (W : World) (io : Io) : List Ev → List Ev → List (Bool × Nat)
  | _, [] => []
  | pre, e :: l => due W io (pre ++ [e]) e ++ duesFrom W io (pre ++ [e]) l

/-- All those references. -/
def dues (W : World) (io : Io) (l : List Ev) : List (Bool × Nat) := duesFrom W io [] l

/-- The call which drops a reference. -/
def dropped : Bool × Nat → Ev
  | (true, p) => .release p
  | (false, p) => .decrefs p

/-- A reference is dropped. -/
def Ev.drops : Ev → Bool
  | .release _ | .decrefs _ => true
  | _ => false

end Gb.Driver
