import Verif.Lemmas.Junk
import Verif.Spec.Demo
/-
C53. No uninitialised memory is sent.
-/
set_option autoImplicit false

namespace Gb.C53

/-- C53: whatever the memory added to the parcel contained before, the parcel (and everything
else the writer keeps) is the same after any sequence of calls. -/
theorem C53_no_leak (e : Env) (junk : Nat → Byte) (w : Writer) (ops : List WOp) :
    WOp.runAll { e with junk := junk } w ops = WOp.runAll e w ops :=
  Like.runAll (any := false) (e := e) (e' := { e with junk := junk }) ⟨rfl, fun _ => rfl⟩ ops w (.inl rfl)

/-- The parcel grows by uninitialised bytes first (so that there is something to prove). -/
example : setSize Demo.env.junk [1] 4 = [1, 8, 15, 22] := by decide

/-- The calls of the example succeed. -/
example : (WOp.runAll Demo.env { io := .io64, protocol := .aidl3, mem := Demo.mem } Demo.ops).isOk
    = true := by decide +kernel

end Gb.C53
