import Verif.Spec.Kernel
/-
Specification of received parcels which get copied to outgoing ones.
-/
set_option autoImplicit false

namespace Gb.Copy
open Kernel

/-- What follows an object and belongs to it: the stability of binders in Android 11. -/
def annotation : Protocol → KObj → Nat
  | .aidl3, .binder .. => 4
  | .aidl3, .handle .. => 4
  | _, _ => 0

/-- A received parcel from `off` on: whole objects at increasing offsets. -/
def Whole (io : Io) (p : Protocol) (data : Bytes) : Nat → List Nat → Prop
  | off, [] => off ≤ data.length
  | off, o :: rest => off ≤ o ∧ ∃ x size, getObject io data o = some (x, size) ∧
      Whole io p data (o + size + annotation p x) rest

/-- Buffers of an object. -/
def buffers (io : Io) (data : Bytes) (o : Nat) : Nat :=
  match getObject io data o with
  | some (x, _) => extra x
  | none => 0

/-- The parcel has no arrays of descriptors. -/
def NoFda (io : Io) (data : Bytes) (objects : List Nat) : Prop :=
  ∀ o ∈ objects, fieldAt data o 4 ≠ tFda

/-- The object at `o` refers to a remote object for which the converter has a local one. -/
def Translated (f : Nat → Option LocalRef) (data : Bytes) (o : Nat) (l : LocalRef) : Prop :=
  fieldAt data o 4 = tHandle ∧ f (fieldAt data (o + 8) 4) = some l

/-- Position `k` doesn't belong to an object which gets replaced. -/
def Untouched (io : Io) (p : Protocol) (f : Nat → Option LocalRef) (data : Bytes)
    (objects : List Nat) (k : Nat) : Prop :=
  ∀ o ∈ objects, ∀ l, Translated f data o l →
    ¬ (o ≤ k ∧ k < o + 8 + 2 * word io + (if p = .aidl3 then 4 else 0))

end Gb.Copy
