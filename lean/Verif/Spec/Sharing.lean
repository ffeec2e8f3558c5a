import Verif.Model.Sharing
import Verif.Spec.LocalObj
/-
What it means to share an object with other processes.
-/
set_option autoImplicit false

namespace Gb.Sharing

/-- Someone else has a strong reference to the object: another process, which has acquired it or has a
buffer with a reference to it, or the kernel itself, for the sake of an incoming transaction. -/
def Shared (s : State) : Prop := (∃ c, 0 < s.acquired c ∨ 0 < s.buffers c) ∨ 0 < s.incoming

/-- The application doesn't drop the last one of its own references while the object is in a request or
a reply which hasn't been sent yet, or is being sent. -/
def Kept (p : Nat) (s : State) (l : Label) : Prop :=
  l = .obj (.unref p) → 2 ≤ s.obj.user p ∨ (s.parcels = 0 ∧ s.sent = [])

instance (p : Nat) (s : State) (l : Label) : Decidable (Kept p s l) := by
  unfold Kept; infer_instance

/-- The object is there, and can be found by its address. -/
def Alive (p : Nat) (s : State) : Prop :=
  s.obj.table p = true ∧ ∃ o, s.obj.objs p = some o ∧ 1 ≤ o.refs

/-- What happens by itself: threads of the owner read and handle what the kernel has for them, and the main thread does what has been
scheduled. Nothing is sent, and nobody gets a reference. -/
def Settling : Label → Prop
  | .read _ | .readProc _ | .take _ => True
  | .obj l => l.settling
  | _ => False

end Gb.Sharing
