import Verif.Lemmas.Writer
/-
C09. overwrite_int32 touches exactly one word.

Full statement: for every offset (a gsize, i.e. any number below 2^64).  It fails for the four
largest offsets, because `offset + 4` wraps around (`C09_fails`).
-/
set_option autoImplicit false

namespace Gb.C09

/-- C09 for all offsets that do not wrap around. -/
theorem C09_overwrite_partial (w : Writer) (offset : Nat) (v : UInt32) (ho : offset + 4 < 2 ^ 64) :
    ∃ w', w.overwriteInt32 offset v = .ok w' ∧
      w'.offsets = w.offsets ∧ w'.buffersSize = w.buffersSize ∧ w'.cleanup = w.cleanup ∧
      (if offset + 4 ≤ w.bytes.length then
        w'.bytes.length = w.bytes.length ∧
        (∀ i, i < 4 → w'.bytes[offset + i]? = some (UInt8.ofNat (v.toNat / 256 ^ i))) ∧
        (∀ i, i < offset ∨ offset + 4 ≤ i → w'.bytes[i]? = w.bytes[i]?)
       else w' = w) := by
  unfold Writer.overwriteInt32
  rw [Nat.mod_eq_of_lt ho]
  split
  · rename_i h
    rw [store_ok (by simp; omega)]
    refine ⟨{ w with bytes := poke w.bytes offset (leBytes 4 v.toNat) }, rfl, rfl, rfl, rfl, ?_⟩
    simp only []
    have hpre : (w.bytes.take offset).length = offset := by simp; omega
    refine ⟨?_, ?_, ?_⟩
    · simp [poke]; omega
    · intro i hi
      have hl : (leBytes 4 v.toNat).length = 4 := by simp
      have hlt : i < (leBytes 4 v.toNat).length := by omega
      simp only [poke]
      rw [List.append_assoc, List.getElem?_append_right (by omega), hpre, Nat.add_sub_cancel_left,
        List.getElem?_append_left hlt]
      have : i = 0 ∨ i = 1 ∨ i = 2 ∨ i = 3 := by omega
      rcases this with rfl | rfl | rfl | rfl <;>
        simp [leBytes, Nat.div_div_eq_div_mul]
    · intro i hi
      simp only [poke]
      rcases hi with hi | hi
      · rw [List.append_assoc, List.getElem?_append_left (by omega), List.getElem?_take, if_pos hi]
      · rw [List.getElem?_append_right (by simp; omega)]
        simp only [List.length_append, hpre, length_leBytes, List.getElem?_drop]
        congr 1; omega
  · exact ⟨w, rfl, rfl, rfl, rfl, rfl⟩

/-- The largest offset: the bound check passes and the store is outside of the parcel. -/
theorem C09_fails : ∃ (w : Writer) (offset : Nat), offset < 2 ^ 64 ∧ w.bytes.length = 4 ∧
    w.overwriteInt32 offset 0 = .error .oob :=
  ⟨{ io := .io64, protocol := .aidl, bytes := [1, 2, 3, 4] }, 2 ^ 64 - 1, by decide, rfl, by decide⟩

/-- Both branches are reachable. -/
example : ∃ w : Writer, (4 + 4 ≤ w.bytes.length ∧ ¬ 8 + 4 ≤ w.bytes.length) ∧
    w.overwriteInt32 4 0x01020304 = .ok { w with bytes := [0, 0, 0, 0, 4, 3, 2, 1, 0, 0] } ∧
    w.overwriteInt32 8 0x01020304 = .ok w :=
  ⟨{ io := .io64, protocol := .aidl, bytes := [0, 0, 0, 0, 0, 0, 0, 0, 0, 0] },
    by decide, by decide, by decide⟩

end Gb.C09
