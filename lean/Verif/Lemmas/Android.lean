import Verif.Spec.AndroidCalls
import Verif.Lemmas.Plain
import Verif.Props.C07
import Verif.Props.C18
/-
Proofs of C80.
-/
set_option autoImplicit false

namespace Gb.C80
open Android

/-! ### Numbers -/

theorem num_eq (b : Bytes) (p n : Nat) (h : p + n ≤ b.length) : num b p n = leVal ((b.drop p).take n) := by
  induction n generalizing p with
  | zero => simp [num, leVal]
  | succ n ih =>
    have hp : p < b.length := by omega
    rw [List.drop_eq_getElem_cons hp]
    simp only [num, byte, List.take_succ_cons, leVal]
    rw [ih (p + 1) (by omega)]
    simp [List.getElem?_eq_getElem hp]

theorem deref_num {α : Type} {r : Reader} {p n : Nat} (h : p + n ≤ r.buf.length) (k : Bytes → Res α) :
    r.deref p n k = k ((r.buf.drop p).take n) := by
  simp only [Reader.deref, slice_isSome h]

theorem leVal_take_mod (s : Bytes) (n : Nat) : leVal (s.take n) = leVal s % 256 ^ n := by
  induction n generalizing s with
  | zero => simp [leVal, Nat.mod_one]
  | succ n ih =>
    cases s with
    | nil => simp [leVal]
    | cons a s =>
      have ha : a.toNat < 256 := a.toNat_lt
      simp only [List.take_succ_cons, leVal, ih]
      rw [Nat.pow_succ, Nat.mul_comm (256 ^ n) 256, Nat.mod_mul]
      have h1 : (a.toNat + 256 * leVal s) % 256 = a.toNat := by omega
      have h2 : (a.toNat + 256 * leVal s) / 256 = leVal s := by omega
      rw [h1, h2]

theorem low_mod (b : Bytes) (p k n : Nat) (hk : k ≤ n) (h : p + n ≤ b.length) :
    leVal ((b.drop p).take k) = num b p n % 256 ^ k := by
  rw [num_eq b p n h, ← leVal_take_mod, List.take_take, Nat.min_eq_left hk]

theorem unitsOf_drop (b : Bytes) : ∀ (n p : Nat), p + 2 * n ≤ b.length →
    Reader.unitsOf ((b.drop p).take (2 * n)) = unitsAt b p n := by
  intro n
  induction n with
  | zero => intro p _; simp [Reader.unitsOf, unitsAt]
  | succ n ih =>
    intro p h
    have h0 : p < b.length := by omega
    have h1 : p + 1 < b.length := by omega
    have e : (b.drop p).take (2 * (n + 1)) = b[p] :: b[p + 1] :: (b.drop (p + 2)).take (2 * n) := by
      rw [List.drop_eq_getElem_cons h0, List.drop_eq_getElem_cons h1]
      rfl
    rw [e, Reader.unitsOf, ih (p + 2) (by omega)]
    unfold unitsAt
    rw [List.range_succ_eq_map, List.map_cons, List.map_map]
    congr 1
    · simp [num, byte, leVal, List.getElem?_eq_getElem h0, List.getElem?_eq_getElem h1]
    · apply List.map_congr_left
      intro i _
      simp only [Function.comp]
      congr 1
      omega

theorem unitsAt_length (b : Bytes) (p n : Nat) : (unitsAt b p n).length = n := by simp [unitsAt]

theorem unitsAt_succ (b : Bytes) (p n : Nat) : unitsAt b p (n + 1) = unitsAt b p n ++ [num b (p + 2 * n) 2] := by
  simp [unitsAt, List.range_succ]

theorem remaining_eq {r : Reader} (hf : r.fin = r.buf.length) (hp : r.pos ≤ r.fin) (n : Nat) :
    r.canRead n = decide (r.pos + n ≤ r.buf.length) := by
  simp only [Reader.canRead, Reader.remaining, if_pos hp]
  rw [Bool.eq_iff_iff]
  simp
  omega

theorem num_lt (b : Bytes) (p n : Nat) : num b p n < 256 ^ n := by
  induction n generalizing p with
  | zero => simp [num]
  | succ n ih =>
    have h1 : byte b p < 256 := (b[p]?.getD 0).toNat_lt
    have := ih (p + 1)
    simp only [num, Nat.pow_succ]
    omega


theorem padSize_eq (n : Nat) : padSize n = align4 n := rfl

/-- Numbers of any size. -/
theorem readWord_eq {r : Reader} (hf : r.fin = r.buf.length) (hp : r.pos ≤ r.fin) (n : Nat) :
    r.readWord n = if r.pos + n ≤ r.buf.length then .ok (num r.buf r.pos n) (r.advance n) else .fail r := by
  unfold Reader.readWord
  rw [remaining_eq hf hp]
  by_cases h : r.pos + n ≤ r.buf.length
  · simp only [h, decide_true, if_true, deref_num h, num_eq r.buf r.pos n h]
  · simp [h]

theorem readUInt8_eq {r : Reader} (hf : r.fin = r.buf.length) (hp : r.pos ≤ r.fin) :
    r.readUInt8 = if r.pos + 4 ≤ r.buf.length then .ok (num r.buf r.pos 4 % 2 ^ 8) (r.advance 4) else .fail r := by
  unfold Reader.readUInt8
  rw [remaining_eq hf hp]
  by_cases h : r.pos + 4 ≤ r.buf.length
  · simp only [h, decide_true, if_true, deref_num (show r.pos + 1 ≤ r.buf.length by omega)]
    rw [low_mod r.buf r.pos 1 4 (by omega) h]
  · simp [h]

theorem readUInt16_eq {r : Reader} (hf : r.fin = r.buf.length) (hp : r.pos ≤ r.fin) :
    r.readUInt16 = if r.pos + 4 ≤ r.buf.length then .ok (num r.buf r.pos 4 % 2 ^ 16) (r.advance 4) else .fail r := by
  unfold Reader.readUInt16
  rw [remaining_eq hf hp]
  by_cases h : r.pos + 4 ≤ r.buf.length
  · simp only [h, decide_true, if_true, deref_num (show r.pos + 2 ≤ r.buf.length by omega)]
    rw [low_mod r.buf r.pos 2 4 (by omega) h]
  · simp [h]

theorem readString8_eq {r : Reader} (hf : r.fin = r.buf.length) :
    r.readString8 =
      (let s := (r.buf.drop r.pos).takeWhile (fun x => x != 0)
       if r.pos + s.length < r.buf.length ∧ r.pos + padSize (s.length + 1) ≤ r.buf.length then
         .ok s (r.advance (padSize (s.length + 1))) else .fail r) := by
  unfold Reader.readString8
  rw [if_pos (Or.inl (by omega))]
  have hs : Reader.scanNul r.buf r.pos r.fin = ((r.buf.drop r.pos).takeWhile (fun x => x != 0)).length := by
    unfold Reader.scanNul
    rw [hf, List.take_of_length_le (by simp)]
    congr 2
    funext x
    by_cases hx : x = 0 <;> simp [hx]
  rw [hs]
  simp only [hf, ← padSize_eq]
  have hpre : (r.buf.drop r.pos).takeWhile (fun x => x != 0) <+: r.buf.drop r.pos := List.takeWhile_prefix _
  have htake := List.prefix_iff_eq_take.mp hpre
  generalize (r.buf.drop r.pos).takeWhile (fun x => x != 0) = t at *
  by_cases h1 : r.pos + t.length < r.buf.length
  · by_cases h2 : r.pos + padSize (t.length + 1) ≤ r.buf.length
    · simp only [h1, h2, and_self, if_true, deref_num (show r.pos + t.length ≤ r.buf.length by omega)]
      rw [← htake]
    · simp [h1, h2]
  · simp [h1]

theorem last_byte (b : Bytes) (p n : Nat) (h : p + n + 1 ≤ b.length) :
    (((b.drop p).take (n + 1)).drop n = [0]) ↔ byte b (p + n) = 0 := by
  have hl : p + n < b.length := by omega
  rw [List.drop_take, List.drop_drop, List.drop_eq_getElem_cons hl]
  simp only [Nat.add_sub_cancel_left, List.take_succ_cons, List.take_zero, byte,
    List.getElem?_eq_getElem hl, Option.getD_some, List.cons.injEq, and_true]
  constructor
  · intro h; rw [h]; rfl
  · intro h; exact UInt8.toNat_inj.mp h

theorem readNullableString8_eq {r : Reader} (hf : r.fin = r.buf.length) :
    r.readNullableString8 = .ub .overflow ∧ num r.buf r.pos 4 = 2 ^ 31 - 1 ∧ r.pos + 4 ≤ r.buf.length ∨
    r.readNullableString8 =
      (if r.pos + 4 ≤ r.buf.length then
        let n := num r.buf r.pos 4
        if n = 2 ^ 32 - 1 then .ok none (r.advance 4)
        else if n < 2 ^ 31 - 1 ∧ r.pos + 4 + padSize (n + 1) ≤ r.buf.length ∧ byte r.buf (r.pos + 4 + n) = 0 then
          .ok (some ((r.buf.drop (r.pos + 4)).take n)) (r.advance (padSize (n + 1) + 4))
        else .fail r
      else .fail r) := by
  unfold Reader.readNullableString8
  rw [hf]
  by_cases h : r.pos + 4 ≤ r.buf.length
  · simp only [h, if_true, deref_num h, ← num_eq r.buf r.pos 4 h, and_true]
    have hn := num_lt r.buf r.pos 4
    generalize num r.buf r.pos 4 = n at *
    by_cases hm : n = 2 ^ 31 - 1
    · left
      subst hm
      simp
    · right
      by_cases h1 : n = 2 ^ 32 - 1
      · subst h1; simp
      · rw [if_neg (by omega), if_neg h1]
        by_cases h2 : n < 2 ^ 31
        · rw [if_pos h2, if_pos (by omega)]
          by_cases h3 : r.pos + 4 + padSize (n + 1) ≤ r.buf.length
          · have hpad := le_align4 (n + 1)
            rw [← padSize_eq] at hpad
            rw [← padSize_eq, if_pos (by omega), deref_num (by omega)]
            simp only [last_byte r.buf (r.pos + 4) n (by omega)]
            by_cases h4 : byte r.buf (r.pos + 4 + n) = 0
            · rw [if_pos h4, if_pos ⟨by omega, h3, h4⟩, List.take_take, Nat.min_eq_left (by omega)]
            · rw [if_neg h4, if_neg (fun c => h4 c.2.2)]
          · rw [← padSize_eq, if_neg (by omega), if_neg (fun c => h3 c.2.1)]
        · rw [if_neg h2, if_neg (fun c => h2 (by omega))]
  · right
    simp [h]

theorem readNullableUtf16_eq {r : Reader} (hf : r.fin = r.buf.length) :
    r.readNullableUtf16 = .ub .overflow ∧ 2 ^ 30 - 1 ≤ num r.buf r.pos 4 ∧ num r.buf r.pos 4 < 2 ^ 31 ∧
      r.pos + 4 ≤ r.buf.length ∨
    r.readNullableUtf16 =
      (if r.pos + 4 ≤ r.buf.length then
        let n := num r.buf r.pos 4
        if n = 2 ^ 32 - 1 then .ok none (r.advance 4)
        else if n < 2 ^ 31 - 1 ∧ r.pos + 4 + padSize (2 * (n + 1)) ≤ r.buf.length ∧
            num r.buf (r.pos + 4 + 2 * n) 2 = 0 then
          .ok (some (unitsAt r.buf (r.pos + 4) n)) (r.advance (padSize (2 * (n + 1)) + 4))
        else .fail r
      else .fail r) := by
  unfold Reader.readNullableUtf16
  rw [hf]
  by_cases h : r.pos + 4 ≤ r.buf.length
  · simp only [h, if_true, deref_num h, ← num_eq r.buf r.pos 4 h, and_true]
    have hn := num_lt r.buf r.pos 4
    generalize num r.buf r.pos 4 = n at *
    by_cases hm : 2 ^ 30 - 1 ≤ n ∧ n < 2 ^ 31
    · left
      refine ⟨?_, hm⟩
      rw [if_neg (by omega), if_pos (by omega), if_neg (by omega)]
    · right
      by_cases h1 : n = 2 ^ 32 - 1
      · subst h1; simp
      · rw [if_neg (by omega), if_neg h1]
        by_cases h2 : n < 2 ^ 31
        · rw [if_pos h2, if_pos (by omega), show (n + 1) * 2 = 2 * (n + 1) by omega]
          by_cases h3 : r.pos + 4 + padSize (2 * (n + 1)) ≤ r.buf.length
          · have hpad := le_align4 (2 * (n + 1))
            rw [← padSize_eq] at hpad
            rw [← padSize_eq, if_pos (by omega), deref_num (by omega),
              unitsOf_drop r.buf (n + 1) (r.pos + 4) (by omega), unitsAt_succ]
            have e1 : (unitsAt r.buf (r.pos + 4) n ++ [num r.buf (r.pos + 4 + 2 * n) 2]).drop n =
                [num r.buf (r.pos + 4 + 2 * n) 2] := by
              rw [List.drop_append_of_le_length (by rw [unitsAt_length]; omega),
                List.drop_of_length_le (by rw [unitsAt_length]; omega)]
              rfl
            have e2 : (unitsAt r.buf (r.pos + 4) n ++ [num r.buf (r.pos + 4 + 2 * n) 2]).take n =
                unitsAt r.buf (r.pos + 4) n := by
              rw [List.take_append_of_le_length (by rw [unitsAt_length]; omega),
                List.take_of_length_le (by rw [unitsAt_length]; omega)]
            simp only [e1, e2]
            by_cases h4 : num r.buf (r.pos + 4 + 2 * n) 2 = 0
            · rw [if_pos (by rw [h4]), if_pos ⟨by omega, h3, h4⟩]
            · rw [if_neg (fun c => h4 (by simpa using c)), if_neg (fun c => h4 c.2.2)]
          · rw [← padSize_eq, if_neg (by omega), if_neg (fun c => h3 c.2.1)]
        · rw [if_neg h2, if_neg (fun c => h2 (by omega))]
  · right
    simp [h]

theorem readByteArray_eq {r : Reader} (hf : r.fin = r.buf.length) (hp : r.pos ≤ r.fin) :
    r.readByteArray =
      (if r.pos + 4 ≤ r.buf.length then
        let n := num r.buf r.pos 4
        if n = 0 ∨ 2 ^ 31 ≤ n then .ok [] (r.advance 4)
        else if r.pos + 4 + n ≤ r.buf.length then
          .ok ((r.buf.drop (r.pos + 4)).take n) (r.advance (4 + padSize n))
        else .fail r
      else .fail r) := by
  unfold Reader.readByteArray
  simp only [remaining_eq hf hp]
  by_cases h : r.pos + 4 ≤ r.buf.length
  · simp only [h, decide_true, if_true, deref_num h, ← num_eq r.buf r.pos 4 h]
    generalize num r.buf r.pos 4 = n
    by_cases h1 : n = 0 ∨ 2 ^ 31 ≤ n
    · rw [if_pos h1, if_pos h1]
    · rw [if_neg h1, if_neg h1]
      by_cases h2 : r.pos + 4 + n ≤ r.buf.length
      · rw [if_pos (by simp; omega), if_pos h2, deref_num h2]
        rfl
      · rw [if_neg (by simp; omega), if_neg h2]
  · simp [h]

theorem readParcelable_eq {r : Reader} (hf : r.fin = r.buf.length) (hp : r.pos ≤ r.fin) :
    r.readParcelable =
      (if r.pos + 4 ≤ r.buf.length then
        if num r.buf r.pos 4 = 0 then .ok none (r.advance 4)
        else if r.pos + 8 ≤ r.buf.length then
          if 4 ≤ num r.buf (r.pos + 4) 4 ∧ r.pos + 4 + num r.buf (r.pos + 4) 4 ≤ r.buf.length then
            .ok (some ((r.buf.drop (r.pos + 8)).take (num r.buf (r.pos + 4) 4 - 4)))
              (r.advance (4 + num r.buf (r.pos + 4) 4))
          else .ok none (r.advance 8)
        else .ok none (r.advance 4)
      else .ok none r) := by
  unfold Reader.readParcelable Reader.readUInt32
  rw [readWord_eq hf hp]
  by_cases h : r.pos + 4 ≤ r.buf.length
  · simp only [h, if_true]
    by_cases h1 : num r.buf r.pos 4 = 0
    · rw [if_pos h1, if_pos h1]
    · rw [if_neg h1, if_neg h1]
      have hw := readWord_eq (r := r.advance 4) hf (by simp only [Reader.advance]; omega) 4
      have ea : (r.advance 4).pos = r.pos + 4 := rfl
      have eb : (r.advance 4).buf = r.buf := rfl
      have ec : (r.advance 4).advance 4 = r.advance 8 := by simp only [Reader.advance, Nat.add_assoc]
      rw [ea, eb, ec] at hw
      by_cases h2 : r.pos + 8 ≤ r.buf.length
      · rw [if_pos (show r.pos + 4 + 4 ≤ r.buf.length by omega)] at hw
        rw [hw, if_pos h2]
        simp only
        generalize num r.buf (r.pos + 4) 4 = n
        have e8 : (r.advance 8).pos = r.pos + 8 := rfl
        have f8 : (r.advance 8).fin = r.fin := rfl
        have b8 : (r.advance 8).buf = r.buf := rfl
        rw [e8, f8]
        by_cases h3 : 4 ≤ n
        · rw [if_pos h3]
          by_cases h4 : r.pos + 4 + n ≤ r.buf.length
          · rw [if_pos (by omega), if_pos ⟨h3, h4⟩, deref_num (by rw [b8]; omega), b8]
            simp only [Reader.advance, Nat.add_assoc]
            rw [show 8 + (n - 4) = 4 + n by omega]
          · rw [if_neg (by omega), if_neg (fun c => h4 c.2)]
        · rw [if_neg h3, if_neg (fun c => h3 c.1)]
      · rw [if_neg (show ¬ r.pos + 4 + 4 ≤ r.buf.length by omega)] at hw
        rw [hw, if_neg h2]
  · simp [h]

theorem read_of (r : Reader) (t : Ty) (v : Val) (p : Nat) (hf : r.fin = r.buf.length) (hr : r.pos ≤ r.fin)
    (hl : r.buf.length < 2 ^ 31) (h : readAt r.buf r.pos t = some (v, p)) (hp : p ≤ r.buf.length) :
    get r t = .ok (seen v) { r with pos := p } := by
  cases t with
  | bool =>
    simp only [readAt] at h
    split at h
    · rename_i h1
      cases h
      simp only [get, Reader.readBool, Reader.readUInt32, readWord_eq hf hr, if_pos h1, Res.map, Res.bind, seen]
      rfl
    · cases h
  | int8 =>
    simp only [readAt] at h
    split at h
    · rename_i h1
      cases h
      simp only [get, readUInt8_eq hf hr, if_pos h1, Res.map, Res.bind, seen]
      rfl
    · cases h
  | int16 =>
    simp only [readAt] at h
    split at h
    · rename_i h1
      cases h
      simp only [get, readUInt16_eq hf hr, if_pos h1, Res.map, Res.bind, seen]
      rfl
    · cases h
  | int32 =>
    simp only [readAt] at h
    split at h
    · rename_i h1
      cases h
      simp only [get, Reader.readUInt32, readWord_eq hf hr, if_pos h1, Res.map, Res.bind, seen]
      rfl
    · cases h
  | int64 =>
    simp only [readAt] at h
    split at h
    · rename_i h1
      cases h
      simp only [get, Reader.readUInt64, readWord_eq hf hr, if_pos h1, Res.map, Res.bind, seen]
      rfl
    · cases h
  | cString =>
    simp only [readAt] at h
    split at h
    · rename_i h1
      cases h
      simp only [get, readString8_eq hf]
      rw [if_pos ⟨h1, hp⟩]
      rfl
    · cases h
  | string8 =>
    simp only [readAt] at h
    split at h
    · rename_i h1
      simp only [get]
      rcases readNullableString8_eq hf with ⟨_, h3, _⟩ | h2
      · rw [h3] at h
        rw [if_neg (by decide), if_neg (fun c => by omega)] at h
        cases h
      · rw [h2, if_pos h1]
        simp only
        split at h
        · rename_i h4
          cases h
          rw [if_pos h4]
          rfl
        · rename_i h4
          rw [if_neg h4]
          split at h
          · rename_i h5
            cases h
            rw [if_pos h5]
            simp only [Res.map, Res.bind, seen, Reader.advance]
            congr 2
            omega
          · cases h
    · cases h
  | string16 =>
    simp only [readAt] at h
    split at h
    · rename_i h1
      simp only [get]
      rcases readNullableUtf16_eq hf with ⟨_, h3, h4, _⟩ | h2
      · rw [if_neg (by omega)] at h
        split at h
        · rename_i h5
          have := le_align4 (2 * (num r.buf r.pos 4 + 1))
          rw [← padSize_eq] at this
          omega
        · cases h
      · rw [h2, if_pos h1]
        simp only
        split at h
        · rename_i h4
          cases h
          rw [if_pos h4]
          rfl
        · rename_i h4
          rw [if_neg h4]
          split at h
          · rename_i h5
            cases h
            rw [if_pos h5]
            simp only [Res.map, Res.bind, seen, Reader.advance]
            congr 2
            omega
          · cases h
    · cases h
  | byteArray =>
    simp only [readAt] at h
    split at h
    · rename_i h1
      simp only [get, readByteArray_eq hf hr, if_pos h1]
      split at h
      · rename_i h2
        cases h
        rw [if_pos (Or.inr h2)]
        rfl
      · rename_i h2
        split at h
        · rename_i h3
          cases h
          by_cases h0 : num r.buf r.pos 4 = 0
          · rw [if_pos (Or.inl h0)]
            simp only [h0, List.take_zero, Res.map, Res.bind, seen]
            rfl
          · have := le_align4 (num r.buf r.pos 4)
            rw [← padSize_eq] at this
            rw [if_neg (by omega), if_pos (by omega)]
            simp only [Res.map, Res.bind, seen, Reader.advance, Nat.add_assoc]
        · cases h
    · cases h
  | parcelable =>
    simp only [readAt] at h
    split at h
    · rename_i h1
      simp only [get, readParcelable_eq hf hr, if_pos h1]
      split at h
      · rename_i h2
        cases h
        rw [if_pos h2]
        rfl
      · rename_i h2
        rw [if_neg h2]
        split at h
        · rename_i h3
          rw [if_pos h3]
          split at h
          · rename_i h4
            cases h
            rw [if_pos h4]
            simp only [Res.map, Res.bind, seen, Reader.advance, Nat.add_assoc]
          · cases h
        · cases h
    · cases h

theorem only_of (r r' : Reader) (t : Ty) (v : Val) (hf : r.fin = r.buf.length) (hr : r.pos ≤ r.fin)
    (h : get r t = .ok v r') (hp : r'.pos ≤ r.buf.length) (hn : v ≠ .parcel none) :
    ∃ u, readAt r.buf r.pos t = some (u, r'.pos) ∧ seen u = v := by
  cases t with
  | bool =>
    simp only [get, Reader.readBool, Reader.readUInt32, readWord_eq hf hr] at h
    split at h
    · rename_i h1
      cases h
      exact ⟨_, by simp only [readAt, if_pos h1]; rfl, rfl⟩
    · cases h
  | int8 =>
    simp only [get, readUInt8_eq hf hr] at h
    split at h
    · rename_i h1
      cases h
      exact ⟨_, by simp only [readAt, if_pos h1]; rfl, rfl⟩
    · cases h
  | int16 =>
    simp only [get, readUInt16_eq hf hr] at h
    split at h
    · rename_i h1
      cases h
      exact ⟨_, by simp only [readAt, if_pos h1]; rfl, rfl⟩
    · cases h
  | int32 =>
    simp only [get, Reader.readUInt32, readWord_eq hf hr] at h
    split at h
    · rename_i h1
      cases h
      exact ⟨_, by simp only [readAt, if_pos h1]; rfl, rfl⟩
    · cases h
  | int64 =>
    simp only [get, Reader.readUInt64, readWord_eq hf hr] at h
    split at h
    · rename_i h1
      cases h
      exact ⟨_, by simp only [readAt, if_pos h1]; rfl, rfl⟩
    · cases h
  | cString =>
    simp only [get, readString8_eq hf] at h
    split at h
    · rename_i h1
      cases h
      exact ⟨_, by simp only [readAt, if_pos h1.1]; rfl, rfl⟩
    · cases h
  | string8 =>
    simp only [get] at h
    rcases readNullableString8_eq hf with ⟨h2, _⟩ | h2
    · rw [h2] at h; cases h
    · rw [h2] at h
      simp only at h
      split at h
      · rename_i h1
        split at h
        · rename_i h3
          cases h
          exact ⟨_, by simp only [readAt, if_pos h1, if_pos h3]; rfl, rfl⟩
        · rename_i h3
          split at h
          · rename_i h4
            cases h
            refine ⟨.text (some ((r.buf.drop (r.pos + 4)).take (num r.buf r.pos 4))), ?_, rfl⟩
            simp only [readAt, if_pos h1, if_neg h3, if_pos h4, Reader.advance, Option.some.injEq, Prod.mk.injEq, true_and]
            omega
          · cases h
      · cases h
  | string16 =>
    simp only [get] at h
    rcases readNullableUtf16_eq hf with ⟨h2, _⟩ | h2
    · rw [h2] at h; cases h
    · rw [h2] at h
      simp only at h
      split at h
      · rename_i h1
        split at h
        · rename_i h3
          cases h
          exact ⟨_, by simp only [readAt, if_pos h1, if_pos h3]; rfl, rfl⟩
        · rename_i h3
          split at h
          · rename_i h4
            cases h
            refine ⟨.units (some (unitsAt r.buf (r.pos + 4) (num r.buf r.pos 4))), ?_, rfl⟩
            simp only [readAt, if_pos h1, if_neg h3, if_pos h4, Reader.advance, Option.some.injEq, Prod.mk.injEq, true_and]
            omega
          · cases h
      · cases h
  | byteArray =>
    simp only [get, readByteArray_eq hf hr] at h
    split at h
    · rename_i h1
      split at h
      · rename_i h2
        cases h
        rcases h2 with h2 | h2
        · refine ⟨.array (some []), ?_, rfl⟩
          simp only [readAt, if_pos h1, h2]
          rw [if_neg (by decide), if_pos (by simpa [padSize] using h1)]
          rfl
        · exact ⟨.array none, by simp only [readAt, if_pos h1, if_pos h2]; rfl, rfl⟩
      · rename_i h2
        split at h
        · cases h
          refine ⟨.array (some ((r.buf.drop (r.pos + 4)).take (num r.buf r.pos 4))), ?_, rfl⟩
          simp only [readAt, if_pos h1]
          simp only [Reader.advance] at hp
          rw [if_neg (by omega), if_pos (by omega)]
          simp only [Reader.advance, Nat.add_assoc]
        · cases h
    · cases h
  | parcelable =>
    simp only [get, readParcelable_eq hf hr] at h
    split at h
    · rename_i h1
      split at h
      · rename_i h2
        cases h
        exact ⟨_, by simp only [readAt, if_pos h1, if_pos h2]; rfl, rfl⟩
      · rename_i h2
        split at h
        · rename_i h3
          split at h
          · rename_i h4
            cases h
            refine ⟨.parcel (some ((r.buf.drop (r.pos + 8)).take (num r.buf (r.pos + 4) 4 - 4))), ?_, rfl⟩
            simp only [readAt, if_pos h1, if_neg h2, if_pos h3, if_pos h4, Reader.advance]
            simp only [Nat.add_assoc]
          · cases h
            exact absurd rfl hn
        · cases h
          exact absurd rfl hn
    · cases h
      exact absurd rfl hn


theorem utf16_eq (c : Char) : utf16 c = utf16Enc1 c.toNat := by
  rw [← C07.utf16Of_eq]
  unfold utf16 C07.utf16Of
  split
  · rfl
  · rw [Nat.shiftRight_eq_div_pow, show (0x3ff : Nat) = 2 ^ 10 - 1 from rfl, Nat.and_two_pow_sub_one_eq_mod]

theorem units_eq {s : List Char} (h : '\x00' ∉ s) : utf8ToUtf16 (utf8Text s) = s.flatMap utf16 := by
  rw [(utf8Text_spec h).2.1]
  induction s with
  | nil => rfl
  | cons c cs ih =>
    simp only [List.mem_cons, not_or] at h
    simp only [List.flatMap_cons, List.map_cons, utf16_eq]
    rw [ih h.2]

/-- The bytes which are added. -/
def Item.enc : Item → Bytes
  | .plain v => v.enc
  | .parcelable none => leBytes 4 0
  | .parcelable (some b) => leBytes 4 1 ++ (leBytes 4 (b.length + 4) ++ b)

theorem put_eq (e : Env) (w : Writer) (x : Item) (h : x.Ok) :
    x.put e w = .ok { w with bytes := w.bytes ++ x.enc } := by
  cases x with
  | plain v => exact C01.write_eq e w v h
  | parcelable d =>
    cases d with
    | none => simp only [Item.put, Item.enc, Writer.appendParcelable, Writer.withBytes, bufAppendParcelable, bufAppendWord_eq]; rfl
    | some b =>
      simp only [Item.put, Item.enc, Writer.appendParcelable, Writer.withBytes, bufAppendParcelable, bufAppendWord_eq,
        bind, Except.bind, Except.map, List.append_assoc]

theorem get_eq (r : Reader) (x : Item) (y : Bytes) (h : x.Ok) (hr : r.Rest (x.enc ++ y)) :
    get r x.ty = .ok (seen x.val) (r.advance x.enc.length) := by
  cases x with
  | plain v =>
    cases v with
    | bool v => simp only [Item.ty, get, Reader.readBool_rest hr]; rfl
    | int8 v => simp only [Item.ty, get, Reader.readUInt8_rest hr v.toNat_lt]; rfl
    | int16 v => simp only [Item.ty, get, Reader.readUInt16_rest hr v.toNat_lt]; rfl
    | int32 v => simp only [Item.ty, get, Reader.readUInt32_rest hr v.toNat_lt]; rfl
    | int64 v => simp only [Item.ty, get, Reader.readUInt64_rest hr v.toNat_lt]; rfl
    | float v => simp only [Item.ty, get, Reader.readUInt32_rest hr v.toNat_lt]; rfl
    | double v => simp only [Item.ty, get, Reader.readUInt64_rest hr v.toNat_lt]; rfl
    | string8 s =>
      have := C01.read_eq r (.string8 s) y h hr
      simp only [C01.Value.ty, C01.Ty.read] at this
      simp only [Item.ty, get]
      cases hq : r.readString8 with
      | ok a r1 =>
        rw [hq] at this
        simp only [Res.map, Res.bind, Res.ok.injEq, C01.Value.seen, C01.Seen.bytes.injEq] at this
        obtain ⟨rfl, rfl⟩ := this
        rfl
      | fail r1 => rw [hq] at this; simp [Res.map, Res.bind] at this
      | ub q => rw [hq] at this; simp [Res.map, Res.bind] at this
    | string16 s =>
      cases s with
      | none => simp only [Item.ty, get, Reader.readNullableUtf16_null hr]; rfl
      | some s =>
        have hs := h.1
        cases s with
        | nil => simp only [Item.ty, get, Reader.readNullableUtf16_empty hr]; rfl
        | cons c cs =>
          have h2 : 2 * (utf8Text (c :: cs)).length + 2 < 2 ^ 31 := h.2
          have hl := length_utf8ToUtf16_le (utf8Text (c :: cs))
          simp only [Item.ty, get,
            Reader.readNullableUtf16_rest (fun u hu => (utf8ToUtf16_lt _ u hu).2) (by omega) hr, units_eq hs]
          simp only [Res.map, Res.bind, Item.val, seen, Item.enc, C01.Value.enc, units_eq hs, Option.map_some]
    | utf16 s =>
      cases s with
      | none => simp only [Item.ty, get, Reader.readNullableUtf16_null hr]; rfl
      | some s =>
        cases s with
        | nil => simp only [Item.ty, get, Reader.readNullableUtf16_empty hr]; rfl
        | cons c cs =>
          have h2 : 2 * (c :: cs).length + 2 < 2 ^ 31 := h
          have hu : ∀ u ∈ (c :: cs).map (·.toNat), u < 65536 := by
            intro u hu
            simp only [List.mem_map] at hu
            obtain ⟨a, _, rfl⟩ := hu
            exact a.toNat_lt
          simp only [Item.ty, get, Reader.readNullableUtf16_rest hu (by rw [List.length_map]; omega) hr]
          rfl
    | byteArray d =>
      cases d with
      | nil => simp only [Item.ty, get, Reader.readByteArray_none hr]; rfl
      | cons a d =>
        have := C01.read_eq r (.byteArray (a :: d)) y h hr
        simp only [C01.Value.ty, C01.Ty.read] at this
        simp only [Item.ty, get]
        cases hq : r.readByteArray with
        | ok a r1 =>
          rw [hq] at this
          simp only [Res.map, Res.bind, Res.ok.injEq, C01.Value.seen, C01.Seen.bytes.injEq] at this
          obtain ⟨rfl, rfl⟩ := this
          rfl
        | fail r1 => rw [hq] at this; simp [Res.map, Res.bind] at this
        | ub q => rw [hq] at this; simp [Res.map, Res.bind] at this
  | parcelable d =>
    cases d with
    | none =>
      simp only [Item.ty, get, Reader.readParcelable, Reader.readUInt32_rest hr (by decide), if_true]
      rfl
    | some b =>
      have hlen := h b rfl
      simp only [Item.enc, List.append_assoc] at hr
      have hr1 := hr.advance (n := 4) (by simp)
      have hr2 := hr1.advance (n := 4) (by simp)
      have hfin := hr2.fin_pos
      simp only [List.length_append] at hfin
      simp only [Item.ty, get, Reader.readParcelable, Reader.readUInt32_rest hr (by decide),
        Reader.readUInt32_rest hr1 hlen]
      rw [if_neg (by decide), if_pos (by omega), if_pos (by omega), Reader.deref_rest hr2 (by omega)]
      simp only [Res.map, Res.bind, Item.val, seen, Reader.advance, Item.enc, List.length_append, length_leBytes]
      congr 2
      omega

/-- One call. -/
theorem readAt_eq (a y : Bytes) (x : Item) (h : x.Ok) :
    readAt (a ++ x.enc ++ y) a.length x.ty = some (x.val, (a ++ x.enc).length) := by
  let r : Reader := Reader.init .io64 .aidl (a ++ x.enc ++ y) [] true a.length ((a ++ x.enc ++ y).length - a.length)
  have hrest : r.Rest (x.enc ++ y) := ⟨by simp [r, Reader.init], by simp [r, Reader.init], by simp [r, Reader.init]⟩
  by_cases hn : seen x.val = .parcel none
  · cases x with
    | plain v =>
      exfalso
      cases v with
      | byteArray d => cases d <;> simp [Item.val, seen] at hn
      | _ => simp [Item.val, seen] at hn
    | parcelable d =>
      cases d with
      | some b => simp [Item.val, seen] at hn
      | none =>
        change readAt (a ++ leBytes 4 0 ++ y) a.length .parcelable = some (.parcel none, (a ++ leBytes 4 0).length)
        simp only [readAt]
        rw [if_pos (by simp), num_eq _ _ _ (by simp), if_pos]
        · simp
        · simp [leVal_leBytes]
  · have hg := get_eq r x y h hrest
    obtain ⟨u, h1, h2⟩ := only_of r _ x.ty _ hrest.fin_eq hrest.pos_le hg
      (by simp [r, Reader.init, Reader.advance]) hn
    have hp : (r.advance x.enc.length).pos = (a ++ x.enc).length := by simp [r, Reader.init, Reader.advance]
    rw [hp] at h1
    have hu : u = x.val ∨ ∃ d, x = .plain (.byteArray d) := by
      cases x with
      | plain v =>
        cases v with
        | byteArray d => exact Or.inr ⟨d, rfl⟩
        | _ =>
          left
          cases u with
          | array d => cases d <;> simp [Item.val, seen] at h2
          | _ => exact h2
      | parcelable d =>
        left
        cases u with
        | array d => cases d <;> simp [Item.val, seen] at h2
        | _ => exact h2
    rcases hu with rfl | ⟨d, rfl⟩
    · exact h1
    · cases d with
      | nil =>
        change readAt (a ++ leBytes 4 0xffffffff ++ y) a.length .byteArray =
          some (.array none, (a ++ leBytes 4 0xffffffff).length)
        simp only [readAt]
        rw [if_pos (by simp), num_eq _ _ _ (by simp), if_pos]
        · simp
        · simp [leVal_leBytes]
      | cons c d =>
        rw [show r.buf = a ++ (Item.plain (.byteArray (c :: d))).enc ++ y from rfl, show r.pos = a.length from rfl] at h1
        cases u with
        | array v =>
          cases v with
          | none => simp [Item.val, seen] at h2
          | some v =>
            rw [h1]
            simp only [Item.val, seen] at h2 ⊢
            rw [h2]
        | _ => simp [Item.val, seen] at h2

theorem putAll_eq (e : Env) (xs : List Item) : ∀ (w : Writer), (∀ x ∈ xs, x.Ok) →
    putAll e w xs = .ok { w with bytes := w.bytes ++ xs.flatMap Item.enc } := by
  induction xs with
  | nil => intro w _; simp [putAll]
  | cons x xs ih =>
    intro w h
    simp only [putAll, put_eq e w x (h x (by simp)), bind, Except.bind]
    rw [ih _ (fun u hu => h u (by simp [hu]))]
    simp

theorem text_of_units {s : List Char} (h : '\x00' ∉ s) : utf16ToUtf8 (s.flatMap utf16) = some (utf8Text s) := by
  have hrt := utf16ToUtf8_utf8ToUtf16 (utf8Text s)
  rw [(utf8Text_spec h).1, List.take_length, units_eq h] at hrt
  exact hrt

theorem skipInt_of {r : Reader} {v : Val} {p : Nat} (hf : r.fin = r.buf.length) (hr : r.pos ≤ r.fin)
    (h : readAt r.buf r.pos .int32 = some (v, p)) (k : Reader → Res (Option Bytes)) :
    skipInt r k = k { r with pos := p } ∧ p ≤ r.buf.length := by
  simp only [readAt] at h
  split at h
  · rename_i h1
    cases h
    refine ⟨?_, h1⟩
    simp only [skipInt, Reader.readUInt32, readWord_eq hf hr, if_pos h1]
    rfl
  · cases h

theorem readString16_of {r : Reader} {s : List Char} {p : Nat} (hn : '\x00' ∉ s) (hf : r.fin = r.buf.length)
    (hr : r.pos ≤ r.fin) (hl : r.buf.length < 2 ^ 31) (hp : p ≤ r.buf.length)
    (h : readAt r.buf r.pos .string16 = some (.units (some (s.flatMap utf16)), p)) :
    r.readString16 = .ok (some (utf8Text s)) { r with pos := p } := by
  have hg := read_of r .string16 _ p hf hr hl h hp
  simp only [get] at hg
  unfold Reader.readString16 Reader.readNullableString16
  cases hq : r.readNullableUtf16 with
  | ok a r1 =>
    rw [hq] at hg
    simp only [Res.map, Res.bind, Res.ok.injEq, seen, Val.units.injEq] at hg
    obtain ⟨rfl, rfl⟩ := hg
    simp only [Res.map, Res.bind, text_of_units hn]
  | fail r1 => rw [hq] at hg; simp [Res.map, Res.bind] at hg
  | ub q => rw [hq] at hg; simp [Res.map, Res.bind] at hg

/-- Reading one thing after another. -/
theorem readAll_cons {b : Bytes} {p n : Nat} {t : Ty} {ts : List Ty} {vs : List Val}
    (h : readAll b p (t :: ts) = some (vs, n)) :
    ∃ v us q, vs = v :: us ∧ readAt b p t = some (v, q) ∧ readAll b q ts = some (us, n) := by
  simp only [readAll] at h
  split at h
  · cases h
  · rename_i v q h1
    split at h
    · cases h
    · rename_i us n' h2
      cases h
      exact ⟨v, us, q, rfl, h1, h2⟩

theorem readAll_nil {b : Bytes} {p n : Nat} {vs : List Val} (h : readAll b p [] = some (vs, n)) : vs = [] ∧ n = p := by
  simp only [readAll] at h
  cases h
  exact ⟨rfl, rfl⟩

end Gb.C80
