import Verif.Model.IpcTable
/-
References to GBinderIpc objects as seen by those who have them.
-/
set_option autoImplicit false

namespace Gb.IpcTable

/-- Those who have got a reference and those who have dropped it. -/
def gives (i : Nat) : Ev → Bool
  | .got _ _ j => i == j
  | .ref j => i == j
  | _ => false

def takes (i : Nat) : Ev → Bool
  | .unref j => i == j
  | _ => false

/-- The number of references which haven't been dropped. -/
def owned (i : Nat) (log : List Ev) : Nat := log.countP (gives i) - log.countP (takes i)

/-- Returned to somebody who has asked for this device and this protocol. -/
def IsFor (i : Nat) (dev : Bytes) (p : Protocol) (log : List Ev) : Prop := Ev.got dev p i ∈ log

/-- Only those who have a reference may copy it or drop it. -/
def Ok (s : State) : Label → Prop
  | .ref i => 0 < owned i s.log
  | .unref _ i => 0 < owned i s.log
  | _ => True

/-- An object which is being disposed of: the last reference is being dropped, but it's still in the table. -/
def Doomed (s : State) (i : Nat) : Prop := ∃ t, s.doing t = some (i, .dispose)

/-- No one is looking for an object which is being disposed of. -/
def Calm (auto : Bytes → Protocol) (s : State) (l : Label) : Prop :=
  Ok s l ∧
  match l with
  | .new dev name _ =>
    ∀ i x, Doomed s i → s.ipc i = some x → ¬(x.dev = device dev ∧ x.protocol = protocol auto (device dev) name)
  | .exit => ∀ i, ¬Doomed s i
  | _ => True

end Gb.IpcTable
