import Verif.Spec.AndroidHidl
import Verif.Spec.Transfer
/-
Specification: how Android reads the description of a fast message queue (readEmbeddedFromParcel of MQDescriptor,
HidlTransportSupport of system/libhidl; readNativeHandle of Parcel.cpp, system/libhwbinder, not part of the
repository), and what the kernel does with arrays of file descriptors (`binder_translate_fd_array` and
`binder_apply_fd_fixups` of drivers/android/binder.c).
-/
set_option autoImplicit false

namespace Gb.Kernel

/-- Arrays of file descriptors: the object itself isn't changed, and the numbers in the parent buffer are replaced
with numbers which mean the same to the receiver. `Same x y` says that `y` in the receiving process is the same open
file as `x` in the sending process. -/
structure FdArrays (io : Io) (src : Mem) (offs : List Nat) (objs : List KObj) (addr : Nat → Nat) (dst : Mem)
    (b' : Bytes) (Same : Nat → Nat → Prop) : Prop where
  kept : ∀ (i : Nat) o n par off, offs[i]? = some o → objs[i]? = some (.fda n par off) →
    getObject io b' o = some (.fda n par off, 8 + 3 * word io)
  moved : ∀ (i : Nat) n par off a len pp, objs[i]? = some (.fda n par off) →
    objs[par]? = some (.buffer a len pp) → ∀ k < n, ∀ x, x < 2 ^ 32 →
    src.load (a + off + 4 * k) 4 = some (leBytes 4 x) →
    ∃ y, y < 2 ^ 32 ∧ dst.load (addr par + off + 4 * k) 4 = some (leBytes 4 y) ∧ Same x y

end Gb.Kernel

namespace Gb.Android

/-- GrantorDescriptor: flags, fdIndex, offset (4 bytes each) and, aligned, extent (8 bytes). -/
structure Grant where
  flags : Nat
  fdIndex : Nat
  offset : Nat
  extent : Nat
  deriving DecidableEq, Repr

/-- MQDescriptor -/
structure Queue where
  grants : List Grant
  handle : List Nat
  quantum : Nat
  flags : Nat
  deriving DecidableEq, Repr

/-- `n` grantors at the address `a`. -/
def Parcel.grants (c : Parcel) : Nat → Nat → Option (List Grant)
  | _, 0 => some []
  | a, n + 1 => do
    let fl ← c.numAt a 4
    let fd ← c.numAt (a + 4) 4
    let off ← c.numAt (a + 8) 4
    let ext ← c.numAt (a + 16) 8
    let l ← c.grants (a + 24) n
    some (⟨fl, fd, off, ext⟩ :: l)

/-- `n` 32-bit numbers at the address `a`. -/
def Parcel.ints (c : Parcel) : Nat → Nat → Option (List Nat)
  | _, 0 => some []
  | a, n + 1 => do
    let x ← c.numAt a 4
    let l ← c.ints (a + 4) n
    some (x :: l)

/-- `Parcel::readEmbeddedNativeHandle`, native_handle without integers: its size, a buffer with the version, the number
of descriptors, the number of integers and the descriptors, and an array of descriptors 12 bytes into that
buffer. -/
def Parcel.readHandle (c : Parcel) (parent : Buf) (off p : Nat) : Option (List Nat × Nat) :=
  if p + 8 ≤ c.data.length then do
    let size := num c.data p 8
    let b ← c.readEmbedded parent off (p + 8) size
    let fds ← c.numAt (b.addr + 4) 4
    let ints ← c.numAt (b.addr + 8) 4
    if ints = 0 ∧ size = 12 + 4 * fds ∧ b.next ∈ c.offs then
      match Kernel.getObject c.io c.data b.next with
      | some (.fda n i o, sz) =>
        if n = fds ∧ i = b.handle ∧ o = 12 then do
          let l ← c.ints (b.addr + 12) fds
          some (l, b.next + sz)
        else none
      | _ => none
    else none
  else none

/-- An argument of the type MQDescriptor: 32 bytes, a vector of grantors, a handle, the quantum and the flags (1 if the
queue is synchronized, 2 if it isn't). -/
def Parcel.readQueue (c : Parcel) (p : Nat) : Option (Queue × Nat) := do
  let d ← c.readBuffer p 32
  let n ← c.numAt (d.addr + 8) 4
  let b ← c.readEmbedded d 0 d.next (n * 24)
  let gs ← c.grants b.addr n
  let (fds, q) ← c.readHandle d 16 b.next
  let quantum ← c.numAt (d.addr + 24) 4
  let flags ← c.numAt (d.addr + 28) 4
  some (⟨gs, fds, quantum, flags⟩, q)

end Gb.Android
