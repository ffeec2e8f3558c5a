import Verif.Model.RemoteObj
/- When handles are not reused too early. -/
set_option autoImplicit false

namespace Gb.RemoteObj

/-- What C29 needs: an object is created for a handle only when everything that's left of the
previous object with the same handle is gone, including the death notification. And no-one declares
the service manager dead other than the kernel. -/
def Fresh (s : State) : Label → Prop
  | .lookup h c _ => s.table h = none → c ≠ .no →
      (∀ p o, s.objs p = some o → o.handle ≠ h) ∧ ∀ a, (h, a) ∉ s.incoming
  | .suicide p => ∀ o, s.objs p = some o → o.handle ≠ smHandle
  | _ => True

end Gb.RemoteObj
