import Verif.Spec.Android
import Verif.Spec.Kernel
import Verif.Model.Mem
/-
Specification: how Android's libhwbinder and the code generated by hidl-gen read strings and vectors (Parcel.cpp of
system/libhwbinder, HidlBinderSupport.cpp of system/libhidl, not part of the repository).
-/
set_option autoImplicit false

namespace Gb.Android

/-- A parcel which has been received: its contents, where the objects are in it, and the memory which the kernel has
put the buffers into. -/
structure Parcel where
  io : Io
  data : Bytes
  offs : List Nat
  mem : Mem

/-- A buffer in a parcel: its index in the table of objects, where it is, how many bytes there are, its parent
(the index and the offset of the pointer there), and what's next in the parcel. -/
structure Buf where
  handle : Nat
  addr : Nat
  len : Nat
  parent : Option (Nat × Nat)
  next : Nat
  deriving DecidableEq, Repr

/-- `readObject<binder_buffer_object>`: there has to be an object at `p`. -/
def Parcel.buffer (c : Parcel) (p : Nat) : Option Buf :=
  if p ∈ c.offs then
    match Kernel.getObject c.io c.data p with
    | some (.buffer a len par, n) => some ⟨c.offs.idxOf p, a, len, par, p + n⟩
    | _ => none
  else none

/-- `Parcel::readBuffer` -/
def Parcel.readBuffer (c : Parcel) (p n : Nat) : Option Buf :=
  (c.buffer p).filter fun b => b.parent = none ∧ b.len = n

/-- A number in memory. -/
def Parcel.numAt (c : Parcel) (a n : Nat) : Option Nat := (c.mem.load a n).map (num · 0 n)

/-- `Parcel::readEmbeddedBuffer`: the right parent and offset, and that's where the parent points to (hidl_pointer is
8 bytes even if pointers aren't, the rest is zero then). -/
def Parcel.readEmbedded (c : Parcel) (parent : Buf) (off p n : Nat) : Option Buf :=
  (c.buffer p).filter fun b => b.parent = some (parent.handle, off) ∧ b.len = n ∧
    c.numAt (parent.addr + off) 8 = some b.addr

/-- `readEmbeddedFromParcel(hidl_string)`: hidl_string is a pointer (8 bytes), the length (4 bytes) and a boolean. It's
`off` bytes into the buffer `parent`. There's a NUL at the end. -/
def Parcel.embeddedString (c : Parcel) (parent : Buf) (off p : Nat) : Option (Bytes × Nat) := do
  let n ← c.numAt (parent.addr + off + 8) 4
  let b ← c.readEmbedded parent off p (n + 1)
  let s ← c.mem.load b.addr (n + 1)
  if s.drop n = [0] then some (s.take n, b.next) else none

/-- An argument of the type `string`. -/
def Parcel.readString (c : Parcel) (p : Nat) : Option (Bytes × Nat) := do
  let d ← c.readBuffer p 16
  c.embeddedString d 0 d.next

/-- An argument of the type `vec<T>`, T being `size` bytes without pointers in them. hidl_vec has the same layout as
hidl_string. The result is the number of elements and their contents. -/
def Parcel.readVec (c : Parcel) (size p : Nat) : Option (Nat × Bytes × Nat) := do
  let d ← c.readBuffer p 16
  let n ← c.numAt (d.addr + 8) 4
  let b ← c.readEmbedded d 0 d.next (n * size)
  let s ← c.mem.load b.addr (n * size)
  some (n, s, b.next)

/-- `k` strings from the `i`-th on, their descriptors are in the buffer `parent`. -/
def Parcel.strings (c : Parcel) (parent : Buf) : Nat → Nat → Nat → Option (List Bytes × Nat)
  | _, 0, p => some ([], p)
  | i, k + 1, p => do
    let (s, q) ← c.embeddedString parent (16 * i) p
    let (l, q) ← c.strings parent (i + 1) k q
    some (s :: l, q)

/-- An argument of the type `vec<string>`. -/
def Parcel.readStringVec (c : Parcel) (p : Nat) : Option (List Bytes × Nat) := do
  let d ← c.readBuffer p 16
  let n ← c.numAt (d.addr + 8) 4
  let b ← c.readEmbedded d 0 d.next (n * 16)
  c.strings b 0 n b.next

/-- What the kernel guarantees: objects don't overlap, memory blocks don't overlap, and no buffer is at NULL. -/
structure Parcel.Delivered (c : Parcel) : Prop where
  objects : ∃ objs, Kernel.accepts c.io c.data c.offs = some objs
  apart : c.mem.Apart
  nonnull : ∀ o ∈ c.offs, ∀ a len par n, Kernel.getObject c.io c.data o = some (.buffer a len par, n) → a ≠ 0

end Gb.Android
