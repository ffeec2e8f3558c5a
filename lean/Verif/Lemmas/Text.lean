import Verif.Lemmas.Utf
/-
Lean's own UTF-8 encoder agrees with the model of GLib's.
-/
set_option autoImplicit false

namespace Gb

/-- UTF-8 encoding of a text, by Lean's encoder. -/
def utf8Text (cs : List Char) : Bytes := cs.flatMap String.utf8EncodeChar

theorem enc_char (c : Char) : String.utf8EncodeChar c = utf8Enc1 c.toNat := by
  have hv : c.val.toNat < 0xd800 ∨ (0xdfff < c.val.toNat ∧ c.val.toNat < 0x110000) := c.valid
  unfold String.utf8EncodeChar utf8Enc1
  simp only [Char.toNat]
  split
  · rw [if_pos (by omega)]
  · split
    · rw [if_neg (by omega), if_pos (by omega)]
      congr 2
      · omega
      · congr 1; omega
    · split
      · rw [if_neg (by omega), if_neg (by omega), if_pos (by omega)]
        congr 2
        · omega
        · congr 1; omega
        · congr 2; omega
      · rw [if_neg (by omega), if_neg (by omega), if_neg (by omega)]
        congr 2
        · omega
        · congr 1; omega
        · congr 2
          · omega
          · congr 1; omega

theorem scalar_char {c : Char} (h : c ≠ '\x00') : Scalar c.toNat := by
  have hv : c.val.toNat < 0xd800 ∨ (0xdfff < c.val.toNat ∧ c.val.toNat < 0x110000) := c.valid
  have h0 : c.val.toNat ≠ 0 := by
    intro hh
    apply h
    apply Char.ext
    apply UInt32.toNat_inj.mp
    rw [hh]; rfl
  unfold Scalar
  simp only [Char.toNat]
  omega

theorem utf8Text_eq (cs : List Char) : utf8Text cs = (cs.map Char.toNat).flatMap utf8Enc1 := by
  induction cs with
  | nil => rfl
  | cons c cs ih =>
    simp only [utf8Text, List.flatMap_cons, List.map_cons, enc_char] at *
    rw [ih]

theorem utf8Text_spec {cs : List Char} (h : '\x00' ∉ cs) :
    utf8ValidLen (utf8Text cs) = (utf8Text cs).length ∧
    utf8ToUtf16 (utf8Text cs) = (cs.map Char.toNat).flatMap utf16Enc1 ∧
    (∀ c ∈ cs.map Char.toNat, Scalar c) := by
  have hs : ∀ c ∈ cs.map Char.toNat, Scalar c := by
    intro c hc
    simp only [List.mem_map] at hc
    obtain ⟨c', hc', rfl⟩ := hc
    exact scalar_char (fun hh => h (hh ▸ hc'))
  refine ⟨?_, ?_, hs⟩
  · have := (utf8Decode_enc (cs.map Char.toNat) hs [] rfl).2
    rw [List.append_nil, ← utf8Text_eq] at this
    exact this
  · rw [utf8Text_eq, utf8ToUtf16_enc _ hs]

theorem length_utf16Enc_le (cs : List Nat) :
    (cs.flatMap utf16Enc1).length ≤ (cs.flatMap utf8Enc1).length := by
  induction cs with
  | nil => simp
  | cons c cs ih =>
    simp only [List.flatMap_cons, List.length_append]
    have : (utf16Enc1 c).length ≤ (utf8Enc1 c).length := by
      unfold utf16Enc1 utf8Enc1
      split <;> split <;> try split
      all_goals try split
      all_goals simp
      all_goals omega
    omega

theorem length_utf8ToUtf16_le (s : Bytes) : (utf8ToUtf16 s).length ≤ s.length := by
  obtain ⟨_, h2, h3, _⟩ := utf8_spec s
  have := length_utf16Enc_le (utf8Decode s)
  rw [h2, List.length_take] at this
  unfold utf8ToUtf16
  omega

end Gb
