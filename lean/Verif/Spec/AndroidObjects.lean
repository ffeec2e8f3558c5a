import Verif.Spec.Android
import Verif.Spec.Kernel
/-
Specification: how Android reads references to objects (unflattenBinder and readObject of
frameworks/native/libs/binder/Parcel.cpp, Stability.cpp as of Android 11; not part of the repository).
-/
set_option autoImplicit false

namespace Gb.Android

/-- What a reference refers to: nothing, somebody else's object, or an object of the process itself. -/
inductive Ref
  | null
  | handle (h : Nat)
  | own (cookie : Nat)
  deriving DecidableEq, Repr

/-- `finishUnflattenBinder`: since Android 11 (`stable`) there is the stability of the object at `p`, VENDOR, SYSTEM or
VINTF. The stability of no object is UNDECLARED. -/
def finish (stable : Bool) (b : Bytes) (r : Ref) (p : Nat) : Option (Ref × Nat × Nat) :=
  if stable then
    if p + 4 ≤ b.length then
      if (if r = .null then num b p 4 = 0 else num b p 4 ∈ [0x03, 0x0c, 0x3f]) then some (r, num b p 4, p + 4)
      else none
    else none
  else some (r, 0, p)

/-- `readStrongBinder`: what is referred to, its stability and what's next. NULL references don't have to be in the
table of objects. -/
def readBinder (io : Io) (stable : Bool) (b : Bytes) (offs : List Nat) (p : Nat) : Option (Ref × Nat × Nat) :=
  let w := Kernel.word io
  if p + (8 + 2 * w) ≤ b.length then
    if (num b (p + 8) w = 0 ∧ num b (p + 8 + w) w = 0) ∨ p ∈ offs then
      if num b p 4 = Kernel.tBinder then
        finish stable b (if num b (p + 8 + w) w = 0 then .null else .own (num b (p + 8 + w) w)) (p + (8 + 2 * w))
      else if num b p 4 = Kernel.tHandle then finish stable b (.handle (num b (p + 8) 4)) (p + (8 + 2 * w))
      else none
    else none
  else none

end Gb.Android
