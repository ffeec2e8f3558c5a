import Verif.Model.Exit
/-
What to expect when the process exits.
-/
set_option autoImplicit false

namespace Gb.Exit

/-- What happened before gbinder_ipc_exit was called. -/
def before : List Ev → List Ev
  | [] => []
  | .exit :: _ => []
  | e :: l => e :: before l

/-- Something that the event loop does while gbinder_ipc_exit is running, i.e. a destroy callback runs
it. -/
def nested (s : State) : Label → Prop
  | .complete _ | .destroy _ | .acquire _ | .release _ => s.pc ≠ .off
  | _ => False

/-- Steps of gbinder_ipc_exit, including those of its callbacks which return. -/
def Label.ofExit : Label → Bool
  | .next | .wait _ | .cancel | .ret | .objects _ | .drop | .put => true
  | _ => false

/-- The application has submitted this transaction before the exit, and its completion callback wasn't
running then. -/
def Outstanding (log : List Ev) (p : Nat) : Prop :=
  (∃ i, .submit p i ∈ before log) ∧ (.done p ∈ before log → .destroy p ∈ before log)

end Gb.Exit
