import Verif.Model.SmTable
/-
References to GBinderServiceManager objects as seen by those who have them.
-/
set_option autoImplicit false

namespace Gb.SmTable

open Client (Kind)

/-- The number of references which have been given out and haven't been dropped. -/
def ownStep (i : Nat) (n : Nat) : Ev → Nat
  | .got _ _ _ j => if j = i then n + 1 else n
  | .ref j => if j = i then n + 1 else n
  | .unref j => if j = i then n - 1 else n
  | _ => n

def owned (i : Nat) (log : List Ev) : Nat := log.foldl (ownStep i) 0

/-- Returned to somebody who has asked for a service manager of this kind for this device. -/
def IsFor (i : Nat) (k : Kind) (dev : Bytes) (log : List Ev) : Prop := ∃ p, Ev.got k dev p i ∈ log

/-- Only those who have a reference may copy it or drop it. -/
def Ok (s : State) : Label → Prop
  | .ref i => 0 < owned i s.log
  | .unref _ i => 0 < owned i s.log
  | _ => True

/-- The last reference is being dropped. -/
def Doomed (s : State) (i : Nat) : Prop := ∃ t ph, s.doing t = some (i, ph)

/-- What's needed for everything to be all right: the name of the device isn't empty, nobody asks for a manager whose
last reference is being dropped, and no aidl manager is there when aidl2, aidl3 or aidl4 is used for the first
time. -/
structure Calm (s : State) (k : Kind) (dev : Bytes) : Prop where
  named : dev ≠ []
  calm : ∀ i x, Doomed s i → s.sm i = some x → ¬(x.kind = k ∧ x.dev = dev)
  first : s.cls k = none → ∀ q, parent k = some q → ∀ i x, s.sm i = some x → x.kind ≠ q

def Good (s : State) (l : Label) : Prop :=
  Ok s l ∧ ∀ k dev name opens, l = .new k dev name opens → Calm s k dev

end Gb.SmTable
