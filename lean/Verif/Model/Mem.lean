import Verif.Model.Io
/-
Process memory as a list of live blocks.  No code of the library is modelled here;
g_malloc/g_new0/gutil_memdup are external (GLib, libglibutil).
-/
set_option autoImplicit false

namespace Gb

/-- Live memory blocks: start address and contents. -/
abbrev Mem := List (Nat × Bytes)

/-- Load `n` bytes from address `a`. `none` if the range is not inside a single live block
(an out-of-bounds access). Zero bytes can be "loaded" from anywhere. -/
def Mem.load (m : Mem) (a n : Nat) : Option Bytes :=
  if n = 0 then some []
  else match m with
    | [] => none
    | (base, b) :: rest =>
      if base ≤ a ∧ a + n ≤ base + b.length then some ((b.drop (a - base)).take n)
      else Mem.load rest a n

/-- The NUL-terminated string at address `a`, without the terminator.
`none` if there is no NUL before the end of the block (strlen would run out of bounds). -/
def Mem.cstr (m : Mem) (a : Nat) : Option Bytes :=
  match m with
  | [] => none
  | (base, b) :: rest =>
    if base ≤ a ∧ a < base + b.length then
      let t := b.drop (a - base)
      if (0 : Byte) ∈ t then some (t.takeWhile (· ≠ 0)) else none
    else Mem.cstr rest a

/-- Two address ranges do not intersect. -/
def disjoint (a n b m : Nat) : Prop := a + n ≤ b ∨ b + m ≤ a

/-- What the writer depends on besides its arguments: the previous contents of memory handed
out by `g_byte_array_set_size` (which does not clear it), the addresses returned by malloc and
the spare capacity GByteArray happens to have beyond its length `n`. -/
structure Env where
  junk : Nat → Byte
  alloc : Mem → Nat → Nat
  slack : Nat → Nat

/-- Blocks do not overlap. -/
def Mem.Apart (m : Mem) : Prop :=
  m.Pairwise fun x y => disjoint x.1 x.2.length y.1 y.2.length

/-- The memory of a process: live blocks do not overlap, none of them is at NULL, and addresses
are less than `lim`. malloc keeps it that way. -/
structure Mem.Sane (lim : Nat) (m : Mem) : Prop where
  apart : m.Apart
  nonnull : ∀ blk ∈ m, blk.1 ≠ 0
  fits : ∀ blk ∈ m, blk.1 + blk.2.length ≤ lim

instance (a n b m : Nat) : Decidable (disjoint a n b m) := by unfold disjoint; infer_instance

instance (m : Mem) : Decidable m.Apart := by unfold Mem.Apart; infer_instance

instance (lim : Nat) (m : Mem) : Decidable (m.Sane lim) :=
  decidable_of_iff (m.Apart ∧ (∀ blk ∈ m, blk.1 ≠ 0) ∧ ∀ blk ∈ m, blk.1 + blk.2.length ≤ lim)
    ⟨fun h => ⟨h.1, h.2.1, h.2.2⟩, fun h => ⟨h.apart, h.nonnull, h.fits⟩⟩

end Gb
