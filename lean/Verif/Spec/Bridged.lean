import Verif.Model.Bridged
/-
What's required from those who use proxies.
-/
set_option autoImplicit false

namespace Gb.Bridged

/-- There's always some data in the calls made to proxies (there always is, if they begin with the name of
the interface). -/
def Calm (_ : State) (l : Label) : Prop := l ≠ .call false

instance (s : State) (l : Label) : Decidable (Calm s l) := by unfold Calm; infer_instance

/-- Another process has the proxy, or has called it. -/
def Used (s : State) : Prop := 0 < s.peers ∨ s.arriving ≠ [] ∨ s.calls ≠ []

/-- What happens by itself: threads of this process read and handle what the kernel has for them, messages which have been sent
are done with, calls which have been handled are answered, and the main thread does what has been scheduled. Nothing
is received or sent, and nobody gets or drops a reference. -/
def Settling : Label → Prop
  | .read _ | .readProc _ | .take _ | .finish _ | .run | .answered _ | .leave | .free => True
  | _ => False

end Gb.Bridged
