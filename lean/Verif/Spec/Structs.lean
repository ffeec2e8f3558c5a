import Verif.Spec.AndroidHidl
import Verif.Model.Writer
import Verif.Model.Reader
/-
Specification: HIDL structures. What's in a structure in the memory of the sender, and how Android reads a structure
from a parcel (the code generated by hidl-gen: readEmbeddedFromParcel for each of the fields, in the order of the
fields, vec<T> being followed by the fields of its elements).
-/
set_option autoImplicit false

namespace Gb
open Writer

/-- What a structure consists of: plain data (with zeros in the place of pointers), what a pointer points to, the
contents of a string, the number of elements in a vector. Followed by what it points to, that's all there is to know
about it. -/
inductive Tok
  | plain (b : Bytes)
  | data (b : Bytes)
  | str (b : Bytes)
  | items (n : Nat)
  deriving DecidableEq, Repr

namespace Writer

/-- Where the pointer is. -/
def WField.off : WField → Nat
  | .ptr o _ _ => o
  | .str o => o
  | .vec o _ _ => o
  | .vecNoType o => o

/-- The number of bytes: a pointer, hidl_string or hidl_vec. -/
def WField.width : WField → Nat
  | .ptr _ _ _ => 8
  | _ => 16

/-- Fields don't overlap and are inside of the structure. -/
def Fits (size : Nat) (fs : List WField) : Prop :=
  fs.Pairwise (fun f g => f.off + f.width ≤ g.off ∨ g.off + g.width ≤ f.off) ∧ ∀ f ∈ fs, f.off + f.width ≤ size

mutual
/-- A type which makes sense: so do the types of what is pointed to and of the elements of the vectors. -/
def WField.Ok : WField → Prop
  | .ptr _ size fs => Fits size fs ∧ FieldsOk fs
  | .str _ => True
  | .vec _ size fs => Fits size fs ∧ FieldsOk fs
  | .vecNoType _ => False

def FieldsOk : List WField → Prop
  | [] => True
  | f :: fs => f.Ok ∧ FieldsOk fs
end

mutual
/-- Nothing that is pointed to has pointers (except for the elements of the vectors). -/
def WField.Flat : WField → Prop
  | .ptr _ _ fs => fs = []
  | .str _ => True
  | .vec _ _ fs => FlatFields fs
  | .vecNoType _ => True

def FlatFields : List WField → Prop
  | [] => True
  | f :: fs => f.Flat ∧ FlatFields fs
end

end Writer

/-- The data without pointers. -/
def blank (fs : List WField) (b : Bytes) : Bytes :=
  b.mapIdx fun k x => if fs.any (fun f => decide (f.off ≤ k ∧ k < f.off + 8)) then 0 else x

/-- One after the other. -/
def inOrder (f : Nat → Option (List Tok)) : Nat → Option (List Tok)
  | 0 => some []
  | n + 1 => do
    let l ← inOrder f n
    let r ← f n
    some (l ++ r)

/-- A number in memory. -/
def Mem.num (m : Mem) (a n : Nat) : Option Nat := (m.load a n).map (Android.num · 0 n)

mutual
/-- What a field of the structure at `a` refers to. Pointers are less than `lim`, and sizes are less than
`mx`. -/
def sentField (lim mx : Nat) (m : Mem) (a : Nat) : WField → Option (List Tok)
  | .ptr off size fs => do
    let p ← m.num (a + off) 8
    let b ← m.load p size
    let r ← sentFields lim mx m p fs
    if p < lim ∧ size < mx then some (.data (blank fs b) :: r) else none
  | .str off => do
    let p ← m.num (a + off) 8
    let n ← m.num (a + off + 8) 4
    let s ← m.load p (n + 1)
    if s.drop n = [0] ∧ n + 1 < mx then some [.str (s.take n)] else none
  | .vec off size fs => do
    let p ← m.num (a + off) 8
    let n ← m.num (a + off + 8) 4
    let b ← m.load p (n * size)
    let l ← inOrder (fun i => do
      let r ← sentFields lim mx m (p + i * size) fs
      some (.plain (blank fs ((b.drop (i * size)).take size)) :: r)) n
    if p < lim ∧ n * size < mx then some (.items n :: l) else none
  | .vecNoType _ => none

/-- All of them. -/
def sentFields (lim mx : Nat) (m : Mem) (a : Nat) : List WField → Option (List Tok)
  | [] => some []
  | f :: fs => do
    let l ← sentField lim mx m a f
    let r ← sentFields lim mx m a fs
    some (l ++ r)
end

/-- The structure at `a`. -/
def sentStruct (lim mx : Nat) (m : Mem) (a size : Nat) (fs : List WField) : Option (List Tok) := do
  let b ← m.load a size
  let l ← sentFields lim mx m a fs
  if a < lim ∧ size < mx then some (.plain (blank fs b) :: l) else none

/-- `n` structures at `a`. -/
def sentVec (lim mx : Nat) (m : Mem) (a n size : Nat) (fs : List WField) : Option (List Tok) := do
  let b ← m.load a (n * size)
  let l ← inOrder (fun i => do
    let r ← sentFields lim mx m (a + i * size) fs
    some (.plain (blank fs ((b.drop (i * size)).take size)) :: r)) n
  if a < lim ∧ n * size < mx then some (.items n :: l) else none

/-- gbinder_reader_skip_buffer, called `n` times. -/
def Reader.skips : Nat → Reader → Option Reader
  | 0, r => some r
  | n + 1, r => (Reader.skips n r).bind fun r1 =>
    match r1.readBufferObject with
    | .ok _ r2 => some r2
    | _ => none

namespace Android

/-- One after the other, each of them beginning where the previous one ends. -/
def inOrder (f : Nat → Nat → Option (List Tok × Nat)) : Nat → Nat → Option (List Tok × Nat)
  | 0, p => some ([], p)
  | n + 1, p => do
    let (l, p1) ← inOrder f n p
    let (r, p2) ← f n p1
    some (l ++ r, p2)

mutual
/-- `readEmbeddedFromParcel` for a field of the structure which is `base` bytes into the buffer `d`. The next object in
the parcel is at `p`. -/
def Parcel.field (c : Parcel) (d : Buf) (base p : Nat) : WField → Option (List Tok × Nat)
  | .ptr off size fs => do
    let b ← c.readEmbedded d (base + off) p size
    let s ← c.mem.load b.addr size
    let (r, q) ← c.fields b 0 b.next fs
    some (.data (blank fs s) :: r, q)
  | .str off => do
    let (s, q) ← c.embeddedString d (base + off) p
    some ([.str s], q)
  | .vec off size fs => do
    let n ← c.numAt (d.addr + (base + off) + 8) 4
    let b ← c.readEmbedded d (base + off) p (n * size)
    let s ← c.mem.load b.addr (n * size)
    let (l, q) ← inOrder (fun i p => do
      let (r, q) ← c.fields b (i * size) p fs
      some (.plain (blank fs ((s.drop (i * size)).take size)) :: r, q)) n b.next
    some (.items n :: l, q)
  | .vecNoType _ => none

/-- All of them. -/
def Parcel.fields (c : Parcel) (d : Buf) (base p : Nat) : List WField → Option (List Tok × Nat)
  | [] => some ([], p)
  | f :: fs => do
    let (l, p1) ← c.field d base p f
    let (r, p2) ← c.fields d base p1 fs
    some (l ++ r, p2)
end

/-- An argument which is a structure: a buffer, followed by what it points to. -/
def Parcel.readStruct (c : Parcel) (size : Nat) (fs : List WField) (p : Nat) : Option (List Tok × Nat) := do
  let d ← c.readBuffer p size
  let s ← c.mem.load d.addr size
  let (l, q) ← c.fields d 0 d.next fs
  some (.plain (blank fs s) :: l, q)

/-- An argument of the type vec<T>, T being a structure. -/
def Parcel.readStructVec (c : Parcel) (size : Nat) (fs : List WField) (p : Nat) : Option (List Tok × Nat) := do
  let d ← c.readBuffer p 16
  c.field d 0 d.next (.vec 0 size fs)

end Android
end Gb
