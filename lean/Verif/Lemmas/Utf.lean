import Verif.Model.Utf
/-
Decoding inverts encoding and vice versa, for UTF-8 and UTF-16.
-/
set_option autoImplicit false

namespace Gb

/-- Unicode scalar values other than U+0000. -/
def Scalar (c : Nat) : Prop := 0 < c ∧ (c < 0xd800 ∨ 0xdfff < c) ∧ c ≤ 0x10ffff

instance (c : Nat) : Decidable (Scalar c) := by unfold Scalar; infer_instance

theorem toNat_ofNat8 {n : Nat} (h : n < 256) : (UInt8.ofNat n).toNat = n := by
  rw [UInt8.toNat_ofNat']; omega

theorem isCont_ofNat {n : Nat} (h : n < 64) : isCont (UInt8.ofNat (0x80 + n)) = true := by
  unfold isCont
  rw [toNat_ofNat8 (by omega)]
  simp; omega

theorem utf8Step_enc {c : Nat} (hc : Scalar c) (x : Bytes) :
    utf8Step (utf8Enc1 c ++ x) = some (c, x) := by
  obtain ⟨h0, h1, h2⟩ := hc
  unfold utf8Enc1
  split
  · rename_i h
    simp only [List.cons_append, List.nil_append, utf8Step]
    rw [toNat_ofNat8 (by omega), if_neg (by omega), if_pos (by omega)]
  · split
    · simp only [List.cons_append, List.nil_append, utf8Step]
      rw [toNat_ofNat8 (by omega), if_neg (by omega), if_neg (by omega), if_neg (by omega),
        if_pos (by omega)]
      simp only [utf8Tail2]
      rw [if_pos (isCont_ofNat (by omega)), toNat_ofNat8 (by omega)]
      simp only [Option.some.injEq, Prod.mk.injEq, and_true]; omega
    · split
      · simp only [List.cons_append, List.nil_append, utf8Step]
        rw [toNat_ofNat8 (by omega), if_neg (by omega), if_neg (by omega), if_neg (by omega),
          if_neg (by omega), if_pos (by omega)]
        simp only [utf8Tail3, isCont_ofNat (n := c / 64 % 64) (by omega),
          isCont_ofNat (n := c % 64) (by omega)]
        rw [toNat_ofNat8 (by omega), toNat_ofNat8 (by omega), if_pos ⟨trivial, trivial, by omega, by omega⟩]
        simp only [Option.some.injEq, Prod.mk.injEq, and_true]; omega
      · simp only [List.cons_append, List.nil_append, utf8Step]
        rw [toNat_ofNat8 (by omega), if_neg (by omega), if_neg (by omega), if_neg (by omega),
          if_neg (by omega), if_neg (by omega), if_pos (by omega)]
        simp only [utf8Tail4, isCont_ofNat (n := c / 4096 % 64) (by omega),
          isCont_ofNat (n := c / 64 % 64) (by omega), isCont_ofNat (n := c % 64) (by omega)]
        rw [toNat_ofNat8 (by omega), toNat_ofNat8 (by omega), toNat_ofNat8 (by omega),
          if_pos ⟨trivial, trivial, trivial, by omega, by omega⟩]
        simp only [Option.some.injEq, Prod.mk.injEq, and_true]; omega

theorem ofNat8_eq {b : Byte} {n : Nat} (h : n = b.toNat) : UInt8.ofNat n = b := by
  subst h; simp

theorem utf8Step_some {s r : Bytes} {c : Nat} (h : utf8Step s = some (c, r)) :
    Scalar c ∧ s = utf8Enc1 c ++ r := by
  unfold utf8Step at h
  split at h
  · cases h
  · rename_i b0 rest
    have hb0 := b0.toNat_lt
    split at h
    · cases h
    · split at h
      · injection h with h
        injection h with h1 h2
        subst h1 h2
        refine ⟨⟨by omega, by omega, by omega⟩, ?_⟩
        simp only [utf8Enc1]
        rw [if_pos (by omega)]
        simp
      · split at h
        · cases h
        · split at h
          · unfold utf8Tail2 at h
            split at h
            · rename_i b1 r'
              have hb1 := b1.toNat_lt
              split at h
              · rename_i hc
                simp only [isCont, Bool.and_eq_true, decide_eq_true_eq] at hc
                injection h with h
                injection h with h1 h2
                subst h2
                refine ⟨⟨by omega, by omega, by omega⟩, ?_⟩
                simp only [utf8Enc1]
                rw [if_neg (by omega), if_pos (by omega), ofNat8_eq (b := b0) (by omega),
                  ofNat8_eq (b := b1) (by omega)]
                rfl
              · cases h
            · cases h
          · split at h
            · unfold utf8Tail3 at h
              split at h
              · rename_i b1 b2 r'
                have hb1 := b1.toNat_lt
                have hb2 := b2.toNat_lt
                simp only [] at h
                split at h
                · rename_i hc
                  simp only [isCont, Bool.and_eq_true, decide_eq_true_eq] at hc
                  injection h with h
                  injection h with h1 h2
                  subst h2
                  refine ⟨⟨by omega, by omega, by omega⟩, ?_⟩
                  simp only [utf8Enc1]
                  rw [if_neg (by omega), if_neg (by omega), if_pos (by omega),
                    ofNat8_eq (b := b0) (by omega), ofNat8_eq (b := b1) (by omega),
                    ofNat8_eq (b := b2) (by omega)]
                  rfl
                · cases h
              · cases h
            · split at h
              · unfold utf8Tail4 at h
                split at h
                · rename_i b1 b2 b3 r'
                  have hb1 := b1.toNat_lt
                  have hb2 := b2.toNat_lt
                  have hb3 := b3.toNat_lt
                  simp only [] at h
                  split at h
                  · rename_i hc
                    simp only [isCont, Bool.and_eq_true, decide_eq_true_eq] at hc
                    injection h with h
                    injection h with h1 h2
                    subst h2
                    refine ⟨⟨by omega, by omega, by omega⟩, ?_⟩
                    simp only [utf8Enc1]
                    rw [if_neg (by omega), if_neg (by omega), if_neg (by omega),
                      ofNat8_eq (b := b0) (by omega), ofNat8_eq (b := b1) (by omega),
                      ofNat8_eq (b := b2) (by omega), ofNat8_eq (b := b3) (by omega)]
                    rfl
                  · cases h
                · cases h
              · cases h

theorem utf8Decode_none {s : Bytes} (h : utf8Step s = none) : utf8Decode s = [] := by
  rw [utf8Decode]; split
  · rfl
  · rename_i hh; rw [h] at hh; cases hh

theorem utf8Decode_some {s r : Bytes} {c : Nat} (h : utf8Step s = some (c, r)) :
    utf8Decode s = c :: utf8Decode r := by
  rw [utf8Decode]; split
  · rename_i hh; rw [h] at hh; cases hh
  · rename_i c' r' hh; rw [h] at hh; injection hh with hh; injection hh with h1 h2; subst h1 h2; rfl

theorem utf8ValidLen_none {s : Bytes} (h : utf8Step s = none) : utf8ValidLen s = 0 := by
  rw [utf8ValidLen]; split
  · rfl
  · rename_i hh; rw [h] at hh; cases hh

theorem utf8ValidLen_some {s r : Bytes} {c : Nat} (h : utf8Step s = some (c, r)) :
    utf8ValidLen s = (s.length - r.length) + utf8ValidLen r := by
  rw [utf8ValidLen]; split
  · rename_i hh; rw [h] at hh; cases hh
  · rename_i c' r' hh; rw [h] at hh; injection hh with hh; injection hh with h1 h2; subst h1 h2; rfl

/-- The decoded prefix, and what stopped the decoder. -/
theorem utf8_spec (s : Bytes) : (∀ c ∈ utf8Decode s, Scalar c) ∧
    (utf8Decode s).flatMap utf8Enc1 = s.take (utf8ValidLen s) ∧ utf8ValidLen s ≤ s.length ∧
    utf8Step (s.drop (utf8ValidLen s)) = none := by
  generalize hn : s.length = n
  induction n using Nat.strongRecOn generalizing s with
  | ind n ih =>
    cases h : utf8Step s with
    | none =>
      rw [utf8Decode_none h, utf8ValidLen_none h]
      simp [h]
    | some p =>
      obtain ⟨c, r⟩ := p
      have hl := utf8Step_length h
      obtain ⟨hc, hs⟩ := utf8Step_some h
      obtain ⟨i1, i2, i3, i4⟩ := ih r.length (by omega) r rfl
      rw [utf8Decode_some h, utf8ValidLen_some h]
      have he : s.length - r.length = (utf8Enc1 c).length := by rw [hs]; simp
      refine ⟨?_, ?_, by omega, ?_⟩
      · simp only [List.mem_cons]
        rintro c' (rfl | h')
        · exact hc
        · exact i1 _ h'
      · simp only [List.flatMap_cons, i2]
        rw [he]
        conv => rhs; rw [hs]
        rw [List.take_length_add_append]
      · rw [he]
        conv => lhs; rw [hs]
        rw [List.drop_length_add_append]
        exact i4

/-- Decoding the encoding of a text followed by something undecodable. -/
theorem utf8Decode_enc (cs : List Nat) (hcs : ∀ c ∈ cs, Scalar c) (x : Bytes)
    (hx : utf8Step x = none) : utf8Decode (cs.flatMap utf8Enc1 ++ x) = cs ∧
      utf8ValidLen (cs.flatMap utf8Enc1 ++ x) = (cs.flatMap utf8Enc1).length := by
  induction cs with
  | nil => simp [utf8Decode_none hx, utf8ValidLen_none hx]
  | cons c cs ih =>
    have hc := hcs c (by simp)
    obtain ⟨i1, i2⟩ := ih (fun d hd => hcs d (by simp [hd]))
    have hstep := utf8Step_enc hc (cs.flatMap utf8Enc1 ++ x)
    simp only [List.flatMap_cons, List.append_assoc]
    rw [utf8Decode_some hstep, utf8ValidLen_some hstep, i1, i2]
    simp

theorem utf16Decode_enc (cs : List Nat) (hcs : ∀ c ∈ cs, Scalar c) :
    utf16Decode (cs.flatMap utf16Enc1) = some cs := by
  induction cs with
  | nil => rfl
  | cons c cs ih =>
    obtain ⟨h0, h1, h2⟩ := hcs c (by simp)
    have ih' := ih (fun d hd => hcs d (by simp [hd]))
    simp only [List.flatMap_cons, utf16Enc1]
    split
    · simp only [List.cons_append, List.nil_append]
      rw [utf16Decode.eq_def]
      simp only []
      rw [if_neg (by omega), if_neg (by omega), if_neg (by omega), ih']
      rfl
    · simp only [List.cons_append, List.nil_append]
      rw [utf16Decode.eq_def]
      simp only []
      rw [if_neg (by omega), if_neg (by omega), if_pos (by omega)]
      rw [if_pos (by omega), ih']
      simp only [Option.map_some]
      simp only [Option.some.injEq, List.cons.injEq, and_true]; omega

theorem utf16Enc1_lt {c : Nat} (hc : Scalar c) : ∀ u ∈ utf16Enc1 c, 0 < u ∧ u < 65536 := by
  obtain ⟨h0, h1, h2⟩ := hc
  intro u hu
  unfold utf16Enc1 at hu
  split at hu
  · simp only [List.mem_singleton] at hu; subst hu; omega
  · simp only [List.mem_cons, List.not_mem_nil, or_false] at hu
    omega

theorem utf8ToUtf16_lt (s : Bytes) : ∀ u ∈ utf8ToUtf16 s, 0 < u ∧ u < 65536 := by
  intro u hu
  simp only [utf8ToUtf16, List.mem_flatMap] at hu
  obtain ⟨c, hc, hu⟩ := hu
  exact utf16Enc1_lt ((utf8_spec s).1 c hc) u hu

/-- Reading back what has been written gives the longest valid prefix. -/
theorem utf16ToUtf8_utf8ToUtf16 (s : Bytes) :
    utf16ToUtf8 (utf8ToUtf16 (s.take (utf8ValidLen s))) = some (s.take (utf8ValidLen s)) := by
  have hs := utf8_spec s
  have h1 : utf8Decode (s.take (utf8ValidLen s)) = utf8Decode s := by
    rw [← hs.2.1]
    have := (utf8Decode_enc (utf8Decode s) hs.1 [] rfl).1
    simpa using this
  unfold utf16ToUtf8 utf8ToUtf16
  rw [h1, utf16Decode_enc _ hs.1, Option.map_some, hs.2.1]

theorem utf8ToUtf16_enc (cs : List Nat) (hcs : ∀ c ∈ cs, Scalar c) :
    utf8ToUtf16 (cs.flatMap utf8Enc1) = cs.flatMap utf16Enc1 := by
  have := (utf8Decode_enc cs hcs [] rfl).1
  rw [List.append_nil] at this
  rw [utf8ToUtf16, this]

end Gb
