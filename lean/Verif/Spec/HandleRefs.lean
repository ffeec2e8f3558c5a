import Verif.Model.HandleRefs
/-
What it means for a handle to refer to what it's supposed to.
-/
set_option autoImplicit false

namespace Gb.HandleRefs

/-- Where transactions sent with this object go (the handle is all that the kernel gets). -/
def target (s : State) (p : Nat) : Option Nat :=
  match s.lib.objs p with
  | some o => s.node o.handle
  | none => none

/-- Handles aren't given to something else too early: while the object for the old one is still in the
table, or while there's BR_DEAD_BINDER about the old one which hasn't been handled. And handles aren't
read by someone who doesn't acquire them (gbinder_proxy_object.c:115-116). -/
def Calm (s : State) : Label → Prop
  | .receive h _ => s.node h = none → s.lib.table h = none ∧ ∀ x ∈ s.lib.incoming, x.1 ≠ h
  | .read _ c _ => c = .acquired
  | _ => True

instance (s : State) (l : Label) : Decidable (Calm s l) := by
  cases l <;> simp only [Calm] <;> infer_instance

end Gb.HandleRefs
