/-
Bytes, little-endian words and alignment.  No code of the library is modelled
in this file, only the arithmetic it is built on.
-/
set_option autoImplicit false

namespace Gb

abbrev Byte := UInt8
abbrev Bytes := List UInt8

/-- Little-endian encoding of `v` into `n` bytes (excess high bits are dropped,
as they are by a C assignment to an `n`-byte unsigned type). -/
def leBytes : Nat → Nat → Bytes
  | 0, _ => []
  | n + 1, v => UInt8.ofNat v :: leBytes n (v / 256)

/-- Value of a little-endian byte string. -/
def leVal : Bytes → Nat
  | [] => 0
  | b :: bs => b.toNat + 256 * leVal bs

@[simp] theorem length_leBytes (n v : Nat) : (leBytes n v).length = n := by
  induction n generalizing v with
  | zero => rfl
  | succ n ih => simp [leBytes, ih]

theorem leVal_leBytes (n v : Nat) : leVal (leBytes n v) = v % 256 ^ n := by
  induction n generalizing v with
  | zero => simp [leBytes, leVal, Nat.mod_one]
  | succ n ih =>
    simp only [leBytes, leVal, ih, UInt8.toNat_ofNat']
    rw [show (2 : Nat) ^ 8 = 256 from rfl, Nat.pow_succ, Nat.mul_comm (256 ^ n) 256, Nat.mod_mul]

theorem leVal_leBytes_of_lt {n v : Nat} (h : v < 256 ^ n) : leVal (leBytes n v) = v := by
  rw [leVal_leBytes, Nat.mod_eq_of_lt h]

theorem leVal_lt (bs : Bytes) : leVal bs < 256 ^ bs.length := by
  induction bs with
  | nil => simp [leVal]
  | cons b bs ih =>
    have hb : b.toNat < 256 := b.toNat_lt
    simp only [leVal, List.length_cons, Nat.pow_succ]
    omega

theorem leBytes_leVal (bs : Bytes) : leBytes bs.length (leVal bs) = bs := by
  induction bs with
  | nil => rfl
  | cons b bs ih =>
    have hb : b.toNat < 256 := b.toNat_lt
    have h1 : (b.toNat + 256 * leVal bs) / 256 = leVal bs := by omega
    simp only [leBytes, leVal, List.length_cons, h1, ih]
    congr 1
    apply UInt8.toNat_inj.mp
    rw [UInt8.toNat_ofNat']
    omega

theorem leBytes_mod (n v : Nat) : leBytes n (v % 256 ^ n) = leBytes n v := by
  have h := leBytes_leVal (leBytes n v)
  rw [length_leBytes, leVal_leBytes] at h
  exact h

/-- `G_ALIGN4(x)`: round up to a multiple of 4 (gutil_macros.h). -/
def align4 (n : Nat) : Nat := (n + 3) / 4 * 4

/-- `G_ALIGN8(x)`: round up to a multiple of 8 (gutil_macros.h). -/
def align8 (n : Nat) : Nat := (n + 7) / 8 * 8

theorem align4_mod (n : Nat) : align4 n % 4 = 0 := by unfold align4; omega
theorem align8_mod (n : Nat) : align8 n % 8 = 0 := by unfold align8; omega
theorem le_align4 (n : Nat) : n ≤ align4 n := by unfold align4; omega
theorem align4_lt (n : Nat) : align4 n < n + 4 := by unfold align4; omega
theorem le_align8 (n : Nat) : n ≤ align8 n := by unfold align8; omega
theorem align8_lt (n : Nat) : align8 n < n + 8 := by unfold align8; omega

/-- The bytes of `b` at positions `off .. off+n`, if they are all inside. -/
def slice (b : Bytes) (off n : Nat) : Option Bytes :=
  if off + n ≤ b.length then some ((b.drop off).take n) else none

theorem slice_eq_some_iff {b : Bytes} {off n : Nat} {s : Bytes} :
    slice b off n = some s ↔ off + n ≤ b.length ∧ (b.drop off).take n = s := by
  unfold slice
  split
  · simp_all
  · simp_all; omega

theorem slice_isSome {b : Bytes} {off n : Nat} (h : off + n ≤ b.length) :
    slice b off n = some ((b.drop off).take n) := by
  simp [slice, h]

theorem length_of_slice {b : Bytes} {off n : Nat} {s : Bytes}
    (h : slice b off n = some s) : s.length = n := by
  rw [slice_eq_some_iff] at h
  obtain ⟨h1, rfl⟩ := h
  simp only [List.length_take, List.length_drop]
  omega

/-- Slicing the middle part of a concatenation. -/
theorem slice_append_mid (a m c : Bytes) : slice (a ++ (m ++ c)) a.length m.length = some m := by
  rw [slice_isSome (by simp)]
  simp

theorem slice_append_mid' {a m c : Bytes} {off n : Nat} (ho : off = a.length)
    (hn : n = m.length) : slice (a ++ (m ++ c)) off n = some m := by
  subst ho hn
  exact slice_append_mid a m c

/-- Overwrite the bytes starting at `off` with `bs`
(meaningful when `off + bs.length ≤ b.length`). -/
def poke (b : Bytes) (off : Nat) (bs : Bytes) : Bytes :=
  b.take off ++ bs ++ b.drop (off + bs.length)

theorem length_poke {b : Bytes} {off : Nat} {bs : Bytes} (h : off + bs.length ≤ b.length) :
    (poke b off bs).length = b.length := by
  simp only [poke, List.length_append, List.length_take, List.length_drop]
  omega

theorem poke_append_right {a b : Bytes} {off : Nat} {bs : Bytes} :
    poke (a ++ b) (a.length + off) bs = a ++ poke b off bs := by
  have h : a.length + off + bs.length = a.length + (off + bs.length) := by omega
  simp only [poke, h, List.take_length_add_append, List.drop_length_add_append, List.append_assoc]

theorem poke_prefix (bs c : Bytes) {b : Bytes} (h : b.length = bs.length) :
    poke (b ++ c) 0 bs = bs ++ c := by
  simp [poke, ← h]

/-- Equality of outcomes is decidable (used by the examples). -/
instance {ε α : Type} [DecidableEq ε] [DecidableEq α] : DecidableEq (Except ε α)
  | .ok a, .ok b => if h : a = b then isTrue (h ▸ rfl) else isFalse (fun hh => h (by cases hh; rfl))
  | .error a, .error b =>
    if h : a = b then isTrue (h ▸ rfl) else isFalse (fun hh => h (by cases hh; rfl))
  | .ok _, .error _ => isFalse (fun h => by cases h)
  | .error _, .ok _ => isFalse (fun h => by cases h)

end Gb
