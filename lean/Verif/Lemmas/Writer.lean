import Verif.Model.Writer
/-
Closed forms of the byte array operations: whatever the uninitialised memory contained,
the bytes appended are a function of the arguments.
-/
set_option autoImplicit false

namespace Gb

theorem setSize_add (j : Nat → Byte) (b : Bytes) (n : Nat) :
    ∃ g : Bytes, g.length = n ∧ setSize j b (b.length + n) = b ++ g := by
  by_cases h : n = 0
  · subst h
    exact ⟨[], rfl, by simp [setSize]⟩
  · refine ⟨(List.range n).map (fun i => j (b.length + i)), by simp, ?_⟩
    unfold setSize
    rw [if_neg (by omega)]
    simp

theorem setSize_le (j : Nat → Byte) (b c : Bytes) : setSize j (b ++ c) b.length = b := by
  simp [setSize]

theorem poke_zero {g x : Bytes} : poke g 0 x = x ++ g.drop x.length := by
  simp [poke]

theorem poke_append_zero (b g x : Bytes) : poke (b ++ g) b.length x = b ++ (x ++ g.drop x.length) := by
  have := @poke_append_right b g 0 x
  simpa [poke_zero] using this

theorem poke_end (b g x : Bytes) (h : g.length = x.length) : poke (b ++ g) b.length x = b ++ x := by
  rw [poke_append_zero, List.drop_of_length_le (by omega), List.append_nil]

theorem store_ok {b : Bytes} {off : Nat} {x : Bytes} (h : off + x.length ≤ b.length) :
    store b off x = .ok (poke b off x) := by
  simp [store, h]

theorem bufAppendWord_eq (j : Nat → Byte) (b : Bytes) (n v : Nat) :
    bufAppendWord j b n v = .ok (b ++ leBytes n v) := by
  obtain ⟨g, hg, h⟩ := setSize_add j b n
  simp only [bufAppendWord, h, List.length_append, hg, Nat.add_sub_cancel]
  rw [store_ok (by simp [hg]), poke_end b g _ (by simp [hg])]

theorem bufAppendPadded_eq (j : Nat → Byte) (b d : Bytes) (hd : d.length ≤ 4) :
    bufAppendPadded j b d = .ok (b ++ (d ++ List.replicate (4 - d.length) 0)) := by
  obtain ⟨g, hg, h⟩ := setSize_add j b 4
  simp only [bufAppendPadded, h, List.length_append, hg, Nat.add_sub_cancel]
  rw [store_ok (by simp [hg, hd]), poke_append_zero]
  simp only [bind, Except.bind]
  rw [← List.append_assoc, ← List.length_append, store_ok (by simp [hg]; omega), poke_end,
    List.append_assoc]
  simp [hg]

theorem bufAppendString8_eq (j : Nat → Byte) (b s : Bytes) :
    bufAppendString8 j b s =
      .ok (b ++ (s ++ List.replicate (align4 (s.length + 1) - s.length) 0)) := by
  obtain ⟨g, hg, h⟩ := setSize_add j b (align4 (s.length + 1))
  have ha := align4_mod (s.length + 1)
  have hb := le_align4 (s.length + 1)
  have hc := align4_lt (s.length + 1)
  simp only [bufAppendString8, h]
  have h4 : 4 * (align4 (s.length + 1) / 4 - 1) = align4 (s.length + 1) - 4 := by omega
  rw [h4, store_ok (by simp [hg]; omega), poke_append_right]
  simp only [bind, Except.bind]
  rw [store_ok (by simp [poke, hg]; omega), poke_append_zero]
  congr 2
  congr 1
  -- the tail of the zeroed last word
  have hz : leBytes 4 0 = List.replicate 4 0 := by decide
  rw [hz, poke]
  simp only [List.length_replicate]
  rw [show align4 (s.length + 1) - 4 + 4 = g.length by omega, List.drop_length, List.append_nil]
  rw [List.drop_append, List.drop_of_length_le (by simp; omega), List.nil_append,
    List.drop_replicate]
  congr 1
  simp only [List.length_take]
  omega

theorem bufAppendString16Empty_eq (j : Nat → Byte) (b : Bytes) :
    bufAppendString16Empty j b = .ok (b ++ [0, 0, 0, 0, 0, 0, 0xff, 0xff]) := by
  obtain ⟨g, hg, h⟩ := setSize_add j b 8
  simp only [bufAppendString16Empty, h]
  rw [store_ok (by simp [hg]), poke_end b g _ (by simp [hg])]
  congr 1

theorem length_utf16Bytes (us : List Nat) : (utf16Bytes us).length = 2 * us.length := by
  induction us with
  | nil => rfl
  | cons u us ih => simp only [utf16Bytes, List.flatMap_cons, List.length_append, length_leBytes,
      List.length_cons] at *; omega

theorem bufAppendUnits_eq (j : Nat → Byte) (b : Bytes) (us : List Nat) :
    bufAppendUnits j b us = .ok (b ++ (leBytes 4 us.length ++ (utf16Bytes us ++
      List.replicate (align4 ((us.length + 1) * 2) - 2 * us.length) 0))) := by
  obtain ⟨g, hg, h⟩ := setSize_add j b (align4 ((us.length + 1) * 2) + 4)
  have hb := le_align4 ((us.length + 1) * 2)
  have hl := length_utf16Bytes us
  simp only [bufAppendUnits, Nat.add_assoc, h]
  rw [store_ok (by simp [hg]), poke_append_zero]
  simp only [bind, Except.bind]
  have e1 : poke (leBytes 4 us.length ++ g.drop (leBytes 4 us.length).length) 4 (utf16Bytes us) =
      leBytes 4 us.length ++ (utf16Bytes us ++ (g.drop 4).drop (2 * us.length)) := by
    have := poke_append_zero (leBytes 4 us.length) (g.drop 4) (utf16Bytes us)
    simpa [hl] using this
  rw [store_ok (by simp [hg, hl]; omega), poke_append_right, e1]
  simp only []
  rw [store_ok (by simp [hg, hl]; omega), poke_append_right]
  congr 2
  have e2 := @poke_append_right (leBytes 4 us.length) (utf16Bytes us ++ (g.drop 4).drop (2 * us.length))
    (2 * us.length) (List.replicate (align4 ((us.length + 1) * 2) - 2 * us.length) 0)
  rw [length_leBytes] at e2
  rw [e2]
  congr 1
  have e3 := poke_end (utf16Bytes us) ((g.drop 4).drop (2 * us.length))
    (List.replicate (align4 ((us.length + 1) * 2) - 2 * us.length) 0) (by simp [hg]; omega)
  rw [hl] at e3
  exact e3

theorem bufAppendByteArray_eq (j : Nat → Byte) (b : Bytes) (arr : Option Bytes) :
    bufAppendByteArray j b arr = .ok (b ++ (match arr with
      | some (x :: xs) => leBytes 4 (xs.length + 1) ++ ((x :: xs) ++
          List.replicate (align4 (xs.length + 1) - (xs.length + 1)) 0xff)
      | _ => leBytes 4 0xffffffff)) := by
  have key : ∀ d : Bytes, bufAppendByteArray j b (some d) = .ok (b ++ (match d with
      | x :: xs => leBytes 4 (xs.length + 1) ++ ((x :: xs) ++
          List.replicate (align4 (xs.length + 1) - (xs.length + 1)) 0xff)
      | [] => leBytes 4 0xffffffff)) := by
    intro d
    obtain ⟨g, hg, h⟩ := setSize_add j b (4 + align4 d.length)
    have hb := le_align4 d.length
    have hlen : (b ++ g).length - 4 - align4 d.length = b.length := by
      simp [hg]; omega
    simp only [bufAppendByteArray, Option.getD_some, Nat.add_assoc, h, hlen]
    cases d with
    | nil =>
      simp only [List.length_nil, Nat.lt_irrefl, if_false]
      rw [store_ok (by simp [hg]), poke_end b g _ (by simp [hg, align4])]
    | cons x xs =>
      simp only [List.length_cons, Nat.zero_lt_succ, if_true] at *
      rw [store_ok (by simp [hg]), poke_append_zero]
      simp only [bind, Except.bind]
      rw [store_ok (by simp [hg]; omega), poke_append_right]
      have e1 : poke (leBytes 4 (xs.length + 1) ++ g.drop (leBytes 4 (xs.length + 1)).length) 4
          (x :: xs) = leBytes 4 (xs.length + 1) ++ ((x :: xs) ++ (g.drop 4).drop (xs.length + 1)) := by
        have := poke_append_zero (leBytes 4 (xs.length + 1)) (g.drop 4) (x :: xs)
        simpa using this
      rw [e1]
      simp only []
      split
      · rename_i hlt
        rw [store_ok (by simp [hg]; omega), poke_append_right]
        congr 2
        have e2 := @poke_append_right (leBytes 4 (xs.length + 1))
          ((x :: xs) ++ (g.drop 4).drop (xs.length + 1)) (xs.length + 1)
          (List.replicate (align4 (xs.length + 1) - (xs.length + 1)) 0xff)
        rw [length_leBytes] at e2
        rw [e2]
        congr 1
        have e3 := poke_end (x :: xs) ((g.drop 4).drop (xs.length + 1))
          (List.replicate (align4 (xs.length + 1) - (xs.length + 1)) 0xff)
          (by simp [hg]; omega)
        exact e3
      · rename_i hlt
        have h0 : align4 (xs.length + 1) - (xs.length + 1) = 0 := by omega
        rw [h0, List.replicate_zero, List.drop_drop, List.drop_of_length_le (by omega)]
  cases arr with
  | none =>
    have := key []
    simp only at this
    rw [← this]
    rfl
  | some d => rw [key d]; cases d <;> rfl

theorem bufAppendParcelable_eq (j : Nat → Byte) (b : Bytes) (data : Option Bytes) :
    bufAppendParcelable j b data = .ok (b ++ (match data with
      | some d => leBytes 4 1 ++ (leBytes 4 (d.length + 4) ++ d)
      | none => leBytes 4 0)) := by
  cases data with
  | none => simp only [bufAppendParcelable, bufAppendWord_eq]
  | some d =>
    simp only [bufAppendParcelable, bufAppendWord_eq, bind, Except.bind, List.append_assoc]

theorem putObject_eq (e : Env) (w : Writer) (n : Nat) (enc : Bytes)
    (h : enc.length ≤ n + e.slack (w.bytes.length + n)) :
    Writer.putObject e w n enc = .ok { w with bytes := w.bytes ++ enc } := by
  obtain ⟨g, hg, hs⟩ := setSize_add e.junk w.bytes n
  simp only [Writer.putObject, hs, if_pos h]
  rw [poke_append_zero, ← List.append_assoc, ← List.length_append, setSize_le]

theorem length_encodeLocalObject (io : Io) (p : Protocol) (o : Option LocalRef) :
    (encodeLocalObject io p o).length = io.flatSize + p.extra := by
  cases io <;> cases p <;> cases o <;> simp [encodeLocalObject, Io.flatSize, Io.ptrSize,
    Protocol.finishFlatten, Protocol.extra]

theorem length_encodeRemoteObject (io : Io) (h : Option Nat) :
    (encodeRemoteObject io h).length = io.flatSize := by
  cases io <;> cases h <;> simp [encodeRemoteObject, Io.flatSize, Io.ptrSize]

theorem length_encodeFdObject (io : Io) (fd : Nat) : (encodeFdObject io fd).length = io.flatSize := by
  cases io <;> simp [encodeFdObject, Io.flatSize, Io.ptrSize]

theorem length_encodeFdaObject (io : Io) (n : Nat) (p : Parent) :
    (encodeFdaObject io n p).length = io.fdaSize := by
  cases io <;> simp [encodeFdaObject, Io.fdaSize, Io.ptrSize]

theorem length_encodeBufferObject (io : Io) (d s : Nat) (p : Option Parent) :
    (encodeBufferObject io d s p).length = io.bufferObjSize := by
  cases io <;> cases p <;> simp [encodeBufferObject, Io.bufferObjSize, Io.ptrSize]

theorem flatSize_le (io : Io) (p : Protocol) : io.flatSize + p.extra ≤ Writer.maxBinderObjectSize := by
  cases io <;> cases p <;> decide

theorem bufferObjSize_le (io : Io) : io.bufferObjSize ≤ Writer.maxBufferObjectSize := by
  cases io <;> decide

theorem flatSize_pos (io : Io) : 16 ≤ io.flatSize := by cases io <;> decide
theorem flatSize_mod (io : Io) : io.flatSize % 4 = 0 := by cases io <;> decide
theorem fdaSize_mod (io : Io) : io.fdaSize % 4 = 0 := by cases io <;> decide
theorem bufferObjSize_mod (io : Io) : io.bufferObjSize % 4 = 0 := by cases io <;> decide
theorem extra_mod (p : Protocol) : p.extra % 4 = 0 := by cases p <;> decide

end Gb
