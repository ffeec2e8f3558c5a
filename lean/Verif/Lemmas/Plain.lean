import Verif.Lemmas.Reader
import Verif.Spec.Plain
/- Proof of C01. -/
set_option autoImplicit false

namespace Gb.C01

/-- The bytes an append call adds. -/
def Value.enc : Value → Bytes
  | .bool v => (if v then 1 else 0) :: [0, 0, 0]
  | .int8 v => leBytes 1 v.toNat ++ [0, 0, 0]
  | .int16 v => leBytes 2 v.toNat ++ [0, 0]
  | .int32 v => leBytes 4 v.toNat
  | .int64 v => leBytes 8 v.toNat
  | .float v => leBytes 4 v.toNat
  | .double v => leBytes 8 v.toNat
  | .string8 s => s ++ List.replicate (align4 (s.length + 1) - s.length) 0
  | .string16 none => leBytes 4 0xffffffff
  | .string16 (some []) => [0, 0, 0, 0, 0, 0, 0xff, 0xff]
  | .string16 (some s) => Reader.encUnits (utf8ToUtf16 (utf8Text s))
  | .utf16 none => leBytes 4 0xffffffff
  | .utf16 (some []) => [0, 0, 0, 0, 0, 0, 0xff, 0xff]
  | .utf16 (some us) => Reader.encUnits (us.map (·.toNat))
  | .byteArray [] => leBytes 4 0xffffffff
  | .byteArray d => leBytes 4 d.length ++ (d ++ List.replicate (align4 d.length - d.length) 0xff)

theorem utf8Text_pos (c : Char) (cs : List Char) : 0 < (utf8Text (c :: cs)).length := by
  have := String.utf8EncodeChar_ne_nil (c := c)
  have := List.length_pos_iff.mpr this
  simp only [utf8Text, List.flatMap_cons, List.length_append]
  omega

theorem write_eq (e : Env) (w : Writer) (v : Value) (h : v.Ok) :
    v.write e w = .ok { w with bytes := w.bytes ++ v.enc } := by
  cases v with
  | bool v => simp only [Value.write, Writer.appendBool, Writer.withBytes,
      bufAppendPadded_eq _ _ [if v then 1 else 0] (by simp)]; rfl
  | int8 v => simp only [Value.write, Writer.appendInt8, Writer.withBytes,
      bufAppendPadded_eq _ _ (leBytes 1 v.toNat) (by simp)]; rfl
  | int16 v => simp only [Value.write, Writer.appendInt16, Writer.withBytes,
      bufAppendPadded_eq _ _ (leBytes 2 v.toNat) (by simp)]; rfl
  | int32 v => simp only [Value.write, Writer.appendInt32, Writer.withBytes, bufAppendWord_eq]; rfl
  | int64 v => simp only [Value.write, Writer.appendInt64, Writer.withBytes, bufAppendWord_eq]; rfl
  | float v => simp only [Value.write, Writer.appendInt32, Writer.withBytes, bufAppendWord_eq]; rfl
  | double v => simp only [Value.write, Writer.appendInt64, Writer.withBytes, bufAppendWord_eq]; rfl
  | string8 s => simp only [Value.write, Writer.appendString8, Writer.withBytes,
      bufAppendString8_eq]; rfl
  | string16 s =>
    cases s with
    | none => simp only [Value.write, Writer.appendString16, Writer.withBytes, Option.map_none,
        bufAppendString16, bufAppendWord_eq]; rfl
    | some s =>
      obtain ⟨h1, _, _⟩ := utf8Text_spec h.1
      simp only [Value.write, Writer.appendString16, Writer.withBytes, Option.map_some,
        bufAppendString16, h1, List.take_length]
      cases s with
      | nil =>
        rw [if_neg (by simp [utf8Text]), bufAppendString16Empty_eq]; rfl
      | cons c cs =>
        rw [if_pos (utf8Text_pos c cs), bufAppendUnits_eq]; rfl
  | utf16 s =>
    cases s with
    | none => simp only [Value.write, Writer.appendUtf16, Writer.withBytes, Option.map_none,
        bufAppendUtf16, bufAppendWord_eq]; rfl
    | some s =>
      simp only [Value.write, Writer.appendUtf16, Writer.withBytes, Option.map_some,
        bufAppendUtf16, List.length_map]
      cases s with
      | nil => rw [if_neg (by simp), bufAppendString16Empty_eq]; rfl
      | cons c cs => rw [if_pos (by simp), bufAppendUnits_eq]; rfl
  | byteArray d =>
    simp only [Value.write, Writer.appendByteArray, Writer.withBytes, bufAppendByteArray_eq]
    cases d <;> rfl

theorem read_eq (r : Reader) (v : Value) (x : Bytes) (h : v.Ok) (hr : r.Rest (v.enc ++ x)) :
    v.ty.read r = .ok v.seen (r.advance v.enc.length) := by
  cases v with
  | bool v => simp only [Value.ty, Ty.read, Reader.readBool_rest hr]; rfl
  | int8 v => simp only [Value.ty, Ty.read, Reader.readUInt8_rest hr v.toNat_lt]; rfl
  | int16 v => simp only [Value.ty, Ty.read, Reader.readUInt16_rest hr v.toNat_lt]; rfl
  | int32 v => simp only [Value.ty, Ty.read, Reader.readUInt32_rest hr v.toNat_lt]; rfl
  | int64 v => simp only [Value.ty, Ty.read, Reader.readUInt64_rest hr v.toNat_lt]; rfl
  | float v => simp only [Value.ty, Ty.read, Reader.readUInt32_rest hr v.toNat_lt]; rfl
  | double v => simp only [Value.ty, Ty.read, Reader.readUInt64_rest hr v.toNat_lt]; rfl
  | string8 s =>
    have hb := le_align4 (s.length + 1)
    simp only [Value.ty, Ty.read, Reader.readString8_rest h hr, Value.enc, List.length_append,
      List.length_replicate, Res.map, Res.bind]
    rw [show s.length + (align4 (s.length + 1) - s.length) = align4 (s.length + 1) by omega]
    rfl
  | string16 s =>
    cases s with
    | none =>
      simp only [Value.ty, Ty.read, Reader.readNullableString16,
        Reader.readNullableUtf16_null hr]; rfl
    | some s =>
      cases s with
      | nil =>
        simp only [Value.ty, Ty.read, Reader.readNullableString16,
          Reader.readNullableUtf16_empty hr]; rfl
      | cons c cs =>
        obtain ⟨h1, _, _⟩ := utf8Text_spec h.1
        have h2 : 2 * (utf8Text (c :: cs)).length + 2 < 2 ^ 31 := h.2
        have hl := length_utf8ToUtf16_le (utf8Text (c :: cs))
        have hrt := utf16ToUtf8_utf8ToUtf16 (utf8Text (c :: cs))
        rw [h1, List.take_length] at hrt
        simp only [Value.ty, Ty.read, Reader.readNullableString16,
          Reader.readNullableUtf16_rest (fun u hu => (utf8ToUtf16_lt _ u hu).2) (by omega) hr]
        simp only [Res.map, Res.bind, hrt]
        rfl
  | utf16 s =>
    cases s with
    | none => simp only [Value.ty, Ty.read, Reader.readNullableUtf16_null hr]; rfl
    | some s =>
      cases s with
      | nil => simp only [Value.ty, Ty.read, Reader.readNullableUtf16_empty hr]; rfl
      | cons c cs =>
        have h2 : 2 * (c :: cs).length + 2 < 2 ^ 31 := h
        have hu : ∀ u ∈ (c :: cs).map (·.toNat), u < 65536 := by
          intro u hu
          simp only [List.mem_map] at hu
          obtain ⟨a, _, rfl⟩ := hu
          exact a.toNat_lt
        simp only [Value.ty, Ty.read, Reader.readNullableUtf16_rest hu
          (by rw [List.length_map]; omega) hr]
        rfl
  | byteArray d =>
    cases d with
    | nil => simp only [Value.ty, Ty.read, Reader.readByteArray_none hr]; rfl
    | cons a d =>
      have hb := le_align4 (a :: d).length
      simp only [Value.ty, Ty.read, Reader.readByteArray_rest (d := a :: d) (by simp) h hr,
        Value.enc, List.length_append, List.length_replicate, Res.map, Res.bind, length_leBytes]
      rw [show (a :: d).length + (align4 (a :: d).length - (a :: d).length) =
        align4 (a :: d).length by omega]
      rfl

theorem writeAll_eq (e : Env) (w : Writer) (vs : List Value) (h : ∀ v ∈ vs, v.Ok) :
    writeAll e w vs = .ok { w with bytes := w.bytes ++ vs.flatMap Value.enc } := by
  induction vs generalizing w with
  | nil => simp [writeAll]
  | cons v vs ih =>
    simp only [writeAll, write_eq e w v (h v (by simp)), bind, Except.bind]
    rw [ih _ (fun u hu => h u (by simp [hu]))]
    simp

theorem readAll_eq (r : Reader) (vs : List Value) (x : Bytes) (h : ∀ v ∈ vs, v.Ok)
    (hr : r.Rest (vs.flatMap Value.enc ++ x)) :
    ∃ r', readAll r (vs.map Value.ty) = .ok (vs.map Value.seen) r' ∧ r'.Rest x := by
  induction vs generalizing r with
  | nil => exact ⟨r, rfl, by simpa using hr⟩
  | cons v vs ih =>
    rw [List.flatMap_cons, List.append_assoc] at hr
    obtain ⟨r', h1, h2⟩ := ih (r.advance v.enc.length) (fun u hu => h u (by simp [hu]))
      (hr.advance rfl)
    refine ⟨r', ?_, h2⟩
    simp only [List.map_cons, readAll, read_eq r v _ (h v (by simp)) hr, Res.bind, h1, Res.map]

end Gb.C01
