import Verif.Model.Driver
/-
What the properties of the command loops say about the log of a call: the bytes delivered by the
kernel, the commands acted upon, the commands sent.
-/
set_option autoImplicit false

namespace Gb.Driver

/-- The bytes delivered by the kernel in a step. -/
def Ev.delivered : Ev → Bytes
  | .ioctl _ (some _) (.ok _ rd) => rd
  | _ => []

/-- Everything the kernel has delivered. -/
def delivered (l : List Ev) : Bytes := l.flatMap Ev.delivered

def Ev.command : Ev → Option (Nat × Bytes)
  | .cmd c d => some (c, d)
  | _ => none

/-- The commands the library has acted upon. -/
def commands (l : List Ev) : List (Nat × Bytes) := l.filterMap Ev.command

/-- How the kernel writes a command. -/
def encode (c : Nat × Bytes) : Bytes := leBytes 4 c.1 ++ c.2

/-- What the kernel writes is a command word (never zero) and the data, the size of which is a
part of the word. -/
def WellFormed (c : Nat × Bytes) : Prop := c.1 ≠ 0 ∧ c.1 < 2 ^ 32 ∧ c.2.length = iocSize c.1

instance (c : Nat × Bytes) : Decidable (WellFormed c) := by unfold WellFormed; infer_instance

/-- The state in which a call begins. -/
def St.Fresh (s : St) : Prop := s.buf = [] ∧ s.off = 0 ∧ s.unrefs = [] ∧ s.log = []

/-- The log of a run, finished or not. -/
def Run.log {α : Type} : Run α → List Ev
  | .done _ s => s.log
  | .stop _ s => s.log

/-- The two ways in which commands are received. -/
inductive Call
  | read
  | transact (handle code : Nat) (req : Writer) (reply : Bool)

def Call.run (k : Cfg) (W : World) (f : Nat) : Call → Run Unit
  | .read => (Driver.read k W f {}).bind fun _ s => .done () s
  | .transact handle code req reply =>
    (Driver.transact k W f handle code req reply {}).bind fun _ s => .done () s

/-- The call has returned. -/
def Run.Returned {α : Type} : Run α → Prop
  | .done _ _ => True
  | .stop _ _ => False

end Gb.Driver
