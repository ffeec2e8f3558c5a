import Verif.Lemmas.Plain
/-
C07. UTF-8/UTF-16 text is preserved.
-/
set_option autoImplicit false

namespace Gb.C07

/-- `p` is the longest prefix of the bytes `s` which is well-formed UTF-8 without NUL. -/
structure LongestText (p s : Bytes) : Prop where
  text : ∃ cs : List Char, '\x00' ∉ cs ∧ utf8Text cs = p
  pre : p <+: s
  longest : ∀ cs : List Char, '\x00' ∉ cs → utf8Text cs <+: s → utf8Text cs <+: p

/-- UTF-16 code units of a character (Unicode, D91). -/
def utf16Of (c : Char) : List Nat :=
  if c.toNat < 0x10000 then [c.toNat]
  else [0xd800 + (c.toNat - 0x10000) >>> 10, 0xdc00 + ((c.toNat - 0x10000) &&& 0x3ff)]

theorem utf16Of_eq (c : Char) : utf16Of c = utf16Enc1 c.toNat := by
  unfold utf16Of utf16Enc1
  split
  · rfl
  · rw [Nat.shiftRight_eq_div_pow, show (0x3ff : Nat) = 2 ^ 10 - 1 from rfl,
      Nat.and_two_pow_sub_one_eq_mod]

/-- The decoded characters. -/
def charsOf (s : Bytes) : List Char := (utf8Decode s).map Char.ofNat

theorem toNat_ofNat {c : Nat} (h : Scalar c) : (Char.ofNat c).toNat = c := by
  have hv : c.isValidChar := by
    obtain ⟨_, h1, h2⟩ := h
    rcases h1 with h1 | h1
    · exact Or.inl h1
    · exact Or.inr ⟨h1, by omega⟩
  unfold Char.ofNat
  rw [dif_pos hv]
  simp only [Char.ofNatAux, Char.toNat, UInt32.toNat]
  rfl

theorem charsOf_toNat (s : Bytes) : (charsOf s).map Char.toNat = utf8Decode s := by
  have h := (utf8_spec s).1
  unfold charsOf
  rw [List.map_map]
  conv => rhs; rw [← List.map_id (utf8Decode s)]
  apply List.map_congr_left
  intro c hc
  exact toNat_ofNat (h c hc)

theorem charsOf_noNul (s : Bytes) : '\x00' ∉ charsOf s := by
  intro h
  have h1 : (0 : Nat) ∈ (charsOf s).map Char.toNat := List.mem_map.mpr ⟨_, h, rfl⟩
  rw [charsOf_toNat] at h1
  exact absurd ((utf8_spec s).1 0 h1).1 (by omega)

theorem charsOf_text (s : Bytes) : utf8Text (charsOf s) = s.take (utf8ValidLen s) := by
  rw [utf8Text_eq, charsOf_toNat, (utf8_spec s).2.1]

/-- Prefix comparison of an encoded text with the decoder's output. -/
theorem enc_prefix (cs : List Nat) (hcs : ∀ c ∈ cs, Scalar c) (s : Bytes)
    (h : cs.flatMap utf8Enc1 <+: s) : cs.flatMap utf8Enc1 <+: s.take (utf8ValidLen s) := by
  induction cs generalizing s with
  | nil => simp
  | cons c cs ih =>
    obtain ⟨t, ht⟩ := h
    simp only [List.flatMap_cons, List.append_assoc] at ht
    have hstep := utf8Step_enc (hcs c (by simp)) (cs.flatMap utf8Enc1 ++ t)
    rw [ht] at hstep
    have ih' := ih (fun d hd => hcs d (by simp [hd])) (cs.flatMap utf8Enc1 ++ t) ⟨t, rfl⟩
    have he : s.length - (cs.flatMap utf8Enc1 ++ t).length = (utf8Enc1 c).length := by
      rw [← ht]; simp
    rw [utf8ValidLen_some hstep, he]
    conv => rhs; rw [← ht]
    rw [List.take_length_add_append, List.flatMap_cons]
    exact List.prefix_append_right_inj _ |>.mpr ih'

theorem longest_valid (s : Bytes) : LongestText (s.take (utf8ValidLen s)) s := by
  refine ⟨⟨charsOf s, charsOf_noNul s, charsOf_text s⟩, List.take_prefix _ _, ?_⟩
  intro cs hcs hp
  rw [utf8Text_eq] at hp ⊢
  exact enc_prefix _ (utf8Text_spec hcs).2.2 s hp

/-- The longest text is unique. -/
theorem longest_unique {p q s : Bytes} (hp : LongestText p s) (hq : LongestText q s) : p = q := by
  obtain ⟨cp, hcp, rfl⟩ := hp.text
  obtain ⟨cq, hcq, rfl⟩ := hq.text
  have h1 := hq.longest cp hcp hp.pre
  have h2 := hp.longest cq hcq hq.pre
  exact List.IsPrefix.eq_of_length h1 (Nat.le_antisymm h1.length_le h2.length_le)

/-- C07: appending any byte string `s` transmits the well-formed UTF-16 of the longest valid text
`cs` at the beginning of `s` (length, units, terminator), and reading gives the UTF-8 of exactly
that text. In particular valid text is returned unchanged (`C07_valid_text`). -/
theorem C07_text_preserved (e : Env) (w : Writer) (s : Bytes) (hl : 2 * s.length + 2 < 2 ^ 31)
    (post : Bytes) (objects : List Nat) (hasReg : Bool) :
    ∃ (cs : List Char) (w' : Writer), '\x00' ∉ cs ∧ LongestText (utf8Text cs) s ∧
      w.appendString16 e (some s) = .ok w' ∧
      (∃ pad, w'.bytes = w.bytes ++ leBytes 4 (cs.flatMap utf16Of).length ++
        (cs.flatMap utf16Of).flatMap (leBytes 2) ++ [0, 0] ++ pad ∧ pad.length < 4) ∧
      ∃ r', (Reader.init w.io w.protocol (w'.bytes ++ post) objects hasReg w.bytes.length
          ((w'.bytes ++ post).length - w.bytes.length)).readString16 =
            .ok (some (utf8Text cs)) r' ∧ r'.pos = w'.bytes.length := by
  have hlong := longest_valid s
  have hct := charsOf_text s
  have hu16 : (charsOf s).flatMap utf16Of = utf8ToUtf16 (s.take (utf8ValidLen s)) := by
    rw [← hct, (utf8Text_spec (charsOf_noNul s)).2.1]
    induction charsOf s with
    | nil => rfl
    | cons c cs ih => simp only [List.flatMap_cons, List.map_cons, utf16Of_eq, ih]
  refine ⟨charsOf s, ?_⟩
  rw [hct, hu16]
  by_cases hv : 0 < utf8ValidLen s
  · refine ⟨{ w with
        bytes := w.bytes ++ Reader.encUnits (utf8ToUtf16 (s.take (utf8ValidLen s))) }, charsOf_noNul s, hlong, ?_, ?_, ?_⟩
    · simp only [Writer.appendString16, Writer.withBytes, bufAppendString16, if_pos hv,
        bufAppendUnits_eq]
      rfl
    · generalize utf8ToUtf16 (s.take (utf8ValidLen s)) = us
      have hb := le_align4 ((us.length + 1) * 2)
      have hc := align4_lt ((us.length + 1) * 2)
      refine ⟨List.replicate (align4 ((us.length + 1) * 2) - 2 * us.length - 2) 0, ?_, ?_⟩
      · have e1 : List.replicate (align4 ((us.length + 1) * 2) - 2 * us.length) (0 : Byte) =
            [0, 0] ++ List.replicate (align4 ((us.length + 1) * 2) - 2 * us.length - 2) 0 := by
          conv => lhs; rw [show align4 ((us.length + 1) * 2) - 2 * us.length =
            align4 ((us.length + 1) * 2) - 2 * us.length - 2 + 1 + 1 by omega]
          simp [List.replicate_succ]
        simp only [Reader.encUnits, e1, List.append_assoc, utf16Bytes]
      · simp only [List.length_replicate]; omega
    · have hlen : (utf8ToUtf16 (s.take (utf8ValidLen s))).length ≤ s.length :=
        Nat.le_trans (length_utf8ToUtf16_le _) (by simp; omega)
      have hrest : (Reader.init w.io w.protocol (w.bytes ++ Reader.encUnits
          (utf8ToUtf16 (s.take (utf8ValidLen s))) ++ post) objects
          hasReg w.bytes.length ((w.bytes ++ Reader.encUnits
          (utf8ToUtf16 (s.take (utf8ValidLen s))) ++ post).length -
            w.bytes.length)).Rest (Reader.encUnits
          (utf8ToUtf16 (s.take (utf8ValidLen s))) ++ post) :=
        ⟨by simp [Reader.init], by simp [Reader.init], by simp [Reader.init]⟩
      have hr := Reader.readNullableUtf16_rest (fun u hu => (utf8ToUtf16_lt _ u hu).2)
        (by omega) hrest
      simp only [Reader.readString16, Reader.readNullableString16, hr, Res.map, Res.bind,
        utf16ToUtf8_utf8ToUtf16]
      refine ⟨_, rfl, ?_⟩
      simp [Reader.advance, Reader.init]
  · have h0 : utf8ValidLen s = 0 := by omega
    rw [h0] at hlong hct ⊢
    refine ⟨{ w with bytes := w.bytes ++ [0, 0, 0, 0, 0, 0, 0xff, 0xff] }, charsOf_noNul s,
      hlong, ?_, ⟨[0xff, 0xff], ?_, by decide⟩, ?_⟩
    · simp only [Writer.appendString16, Writer.withBytes, bufAppendString16, if_neg hv,
        bufAppendString16Empty_eq]
      rfl
    · have : utf8ToUtf16 (s.take 0) = [] := by
        rw [List.take_zero, utf8ToUtf16, utf8Decode_none rfl]; rfl
      rw [this]
      simp [leBytes]
    · have hrest : (Reader.init w.io w.protocol (w.bytes ++ [0, 0, 0, 0, 0, 0, 0xff, 0xff] ++ post)
          objects hasReg w.bytes.length ((w.bytes ++ [0, 0, 0, 0, 0, 0, 0xff, 0xff] ++ post).length -
            w.bytes.length)).Rest ([0, 0, 0, 0, 0, 0, 0xff, 0xff] ++ post) :=
        ⟨by simp [Reader.init], by simp [Reader.init], by simp [Reader.init]⟩
      have hr := Reader.readNullableUtf16_empty hrest
      simp only [Reader.readString16, Reader.readNullableString16, hr, Res.map, Res.bind]
      refine ⟨_, rfl, ?_⟩
      simp [Reader.advance, Reader.init]

/-- Valid text without NUL is its own longest valid prefix. -/
theorem C07_valid_text (cs : List Char) (h : '\x00' ∉ cs) : LongestText (utf8Text cs) (utf8Text cs) :=
  ⟨⟨cs, h, rfl⟩, List.prefix_refl _, fun _ _ h => h⟩

theorem flatMap_unitsOf : ∀ {n : Nat} {s : Bytes}, s.length = n * 2 →
    (Reader.unitsOf s).flatMap (leBytes 2) = s ∧ (Reader.unitsOf s).length = n
  | 0, s, h => by
    have : s = [] := List.length_eq_zero_iff.1 (by omega)
    subst this; exact ⟨rfl, rfl⟩
  | n + 1, [], h => by simp at h
  | n + 1, [a], h => by simp at h; omega
  | n + 1, a :: b :: s, h => by
    have h' : s.length = n * 2 := by simp only [List.length_cons] at h; omega
    obtain ⟨h1, h2⟩ := flatMap_unitsOf h'
    have h3 : leBytes 2 (leVal [a, b]) = [a, b] := leBytes_leVal [a, b]
    constructor
    · simp only [Reader.unitsOf, List.flatMap_cons, h1, h3]; rfl
    · simp only [Reader.unitsOf, List.length_cons, h2]

/-- Received text is only accepted if it's there as a whole: the length, as many units and the
terminating zero. -/
theorem C07_received (r r' : Reader) (us : List Nat) (h : r.readNullableUtf16 = .ok (some us) r') :
    ((r.buf.drop r.pos).take (4 + 2 * us.length + 2) =
      leBytes 4 us.length ++ us.flatMap (leBytes 2) ++ [0, 0]) ∧
    r.pos + 4 + 2 * us.length + 2 ≤ r'.pos ∧ r'.pos ≤ r.fin := by
  unfold Reader.readNullableUtf16 Reader.deref at h
  split at h
  · split at h
    · rename_i bs hbs
      simp only at h
      split at h
      · cases h
      · split at h
        · split at h
          · split at h
            · split at h
              · rename_i hfit s hs
                split at h
                · rename_i hz
                  cases h
                  have hl4 := length_of_slice hbs
                  have hls := length_of_slice hs
                  obtain ⟨hu, hul⟩ := flatMap_unitsOf hls
                  have hlen : ((Reader.unitsOf s).take (leVal bs)).length = leVal bs := by
                    rw [List.length_take, hul]; omega
                  have hsplit : Reader.unitsOf s = (Reader.unitsOf s).take (leVal bs) ++ [0] := by
                    rw [← hz, List.take_append_drop]
                  have hb : leBytes 4 (leVal bs) = bs := by
                    rw [← hl4]; exact leBytes_leVal bs
                  have hs' : s = ((Reader.unitsOf s).take (leVal bs)).flatMap (leBytes 2) ++ [0, 0] := by
                    conv => lhs; rw [← hu, hsplit]
                    rw [List.flatMap_append]
                    rfl
                  rw [hlen, hb]
                  obtain ⟨_, e1⟩ := slice_eq_some_iff.1 hbs
                  obtain ⟨_, e2⟩ := slice_eq_some_iff.1 hs
                  have ha := le_align4 ((leVal bs + 1) * 2)
                  refine ⟨?_, by simp only [Reader.advance]; omega, by simp only [Reader.advance]; omega⟩
                  rw [List.append_assoc, ← hs', show 4 + 2 * leVal bs + 2 = 4 + (leVal bs + 1) * 2 by omega,
                    List.take_add, e1, List.drop_drop, e2]
                · cases h
              · cases h
            · cases h
          · cases h
        · cases h
    · cases h
  · cases h

/-- Two letters are accepted, without the terminator they aren't. -/
example : (∃ r', (Reader.init .io64 .aidl [2, 0, 0, 0, 0x41, 0, 0x42, 0, 0, 0, 0, 0] [] true 0 12).readNullableUtf16 =
      .ok (some [0x41, 0x42]) r') ∧
    ∃ r', (Reader.init .io64 .aidl [2, 0, 0, 0, 0x41, 0, 0x42, 0, 0x43, 0, 0, 0] [] true 0 12).readNullableUtf16 =
      .fail r' := ⟨⟨_, rfl⟩, ⟨_, rfl⟩⟩

/-- Mixed text with an invalid byte in the middle: the part before it is kept. -/
example : 2 * ([0x68, 0xc3, 0xa9, 0xff, 0x68] : Bytes).length + 2 < 2 ^ 31 ∧
    LongestText [0x68, 0xc3, 0xa9] [0x68, 0xc3, 0xa9, 0xff, 0x68] := by
  refine ⟨by decide, ?_⟩
  have := longest_valid [0x68, 0xc3, 0xa9, 0xff, 0x68]
  have h : utf8ValidLen [0x68, 0xc3, 0xa9, 0xff, 0x68] = 3 := by
    simp [utf8ValidLen, utf8Step, utf8Tail2, isCont]
  rw [h] at this
  exact this

/-- Text outside of the BMP takes two units. -/
example : utf16Of '😀' = [0xd83d, 0xde00] := by decide

end Gb.C07
