import Verif.Model.Buffers
/-
What has to happen to a buffer received from the kernel, and who may use it.
-/
set_option autoImplicit false

namespace Gb.Buffers

/-- A buffer which hasn't been returned to the kernel yet: which one it is, whether there were objects
in it, whether the descriptors have been closed. -/
structure Given where
  n : Nat
  objs : Bool
  closed : Bool
  deriving DecidableEq, Repr

/-- The life of an address. The inner option tells what's there, the outer one is none if the rules
are broken: nothing may be returned which hasn't been received or has already been returned, and the
descriptors are closed once, before that. -/
def next (a : Nat) (st : Option Given) : Ev → Option (Option Given)
  | .deliver n a' objs =>
    if a' = a then
      match st with
      | none => some (some { n, objs, closed := false })
      | some _ => none
    else some st
  | .close a' =>
    if a' = a then
      match st with
      | some g => if g.objs = true ∧ g.closed = false then some (some { g with closed := true }) else none
      | none => none
    else some st
  | .free a' =>
    if a' = a then
      match st with
      | some g => if g.objs = g.closed then some none else none
      | none => none
    else some st

def track (a : Nat) (log : List Ev) : Option (Option Given) :=
  log.foldl (fun st e => st.bind fun st => next a st e) (some none)

/-- References to the contents of received buffers. -/
def Obj.cons : Obj → List Nat
  | .buffer c => c.toList
  | .remote _ _ => []
  | .parcel _ c l => c.toList ++ l
  | .list l => l

/-- GBinderBuffers of requests and replies. -/
def Obj.bufs : Obj → List Nat
  | .remote _ b => b.toList
  | _ => []

/-- Somebody uses the n-th received buffer. -/
def Uses (s : State) (n : Nat) : Prop := ∃ i o, s.obj i = some o ∧ n ∈ o.cons

/-- The n-th received buffer is in possession of the process. -/
def Held (s : State) (n : Nat) : Prop := ∃ a objs, track a s.log = some (some ⟨n, objs, false⟩)

end Gb.Buffers
