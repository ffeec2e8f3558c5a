import Verif.Spec.Driver
/-
What may be written to the driver.
-/
set_option autoImplicit false

namespace Gb.Driver

/-- A command known to the kernel, with the data it expects. -/
def IsCommand (io : Io) (b : Bytes) : Prop := ∃ c d, WellFormed (BC.code io c, d) ∧ b = encode (BC.code io c, d)

/-- What's written without reading (`none`) is one command. Nothing is written if something is
read. -/
def Ev.Proper (io : Io) : Ev → Prop
  | .ioctl w none _ => IsCommand io w
  | .ioctl w (some _) _ => w = []
  | _ => True

/-- How much the kernel has consumed of what was written along with reading. -/
def Ev.taken : Ev → Nat
  | .ioctl w (some _) (.ok n _) => min n w.length
  | _ => 0

def taken (l : List Ev) : Nat := (l.map Ev.taken).sum

end Gb.Driver
