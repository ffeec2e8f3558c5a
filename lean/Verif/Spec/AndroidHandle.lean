import Verif.Spec.AndroidFmq
/-
Specification: how Android reads native handles (readNullableNativeHandleNoDup of Parcel.cpp, system/libhwbinder) and
file descriptors (readFileDescriptor of Parcel.cpp, frameworks/native/libs/binder), not part of the repository.
-/
set_option autoImplicit false

namespace Gb.Android

/-- native_handle_t -/
structure NativeHandle where
  fds : List Nat
  ints : List Nat
  deriving DecidableEq, Repr

/-- `Parcel::readNullableNativeHandleNoDup`: the size, which is zero if there's no handle; a buffer with the version, the
number of descriptors, the number of integers, the descriptors and the integers; and an array of descriptors 12 bytes
into that buffer. -/
def Parcel.readNative (c : Parcel) (p : Nat) : Option (Option NativeHandle × Nat) :=
  if p + 8 ≤ c.data.length then
    let size := num c.data p 8
    if size = 0 then some (none, p + 8)
    else do
      let b ← c.readBuffer (p + 8) size
      let nf ← c.numAt (b.addr + 4) 4
      let ni ← c.numAt (b.addr + 8) 4
      if size = 12 + 4 * (nf + ni) ∧ b.next ∈ c.offs then
        match Kernel.getObject c.io c.data b.next with
        | some (.fda n i o, sz) =>
          if n = nf ∧ i = b.handle ∧ o = 12 then do
            let fds ← c.ints (b.addr + 12) nf
            let ints ← c.ints (b.addr + 12 + 4 * nf) ni
            some (some ⟨fds, ints⟩, b.next + sz)
          else none
        | _ => none
      else none
  else none

/-- `Parcel::readFileDescriptor` -/
def Parcel.readFd (c : Parcel) (p : Nat) : Option (Nat × Nat) :=
  if p ∈ c.offs then
    match Kernel.getObject c.io c.data p with
    | some (.fd n, sz) => some (n, p + sz)
    | _ => none
  else none

end Gb.Android
