import Verif.Lemmas.Plain
/-
C06. NULL, empty and non-empty string16 stay distinguishable; skip_string16.
-/
set_option autoImplicit false

namespace Gb.C06

/-- C06: a string16 (NULL, empty or not) appended to any parcel and followed by anything is read
back as it was, and the reader ends up right after it. -/
theorem C06_string16_distinguishable (e : Env) (w : Writer) (s : Option (List Char))
    (hs : ∀ t, s = some t → '\x00' ∉ t ∧ 2 * (utf8Text t).length + 2 < 2 ^ 31) (post : Bytes)
    (objects : List Nat) (hasReg : Bool) :
    ∃ w', w.appendString16 e (s.map utf8Text) = .ok w' ∧
      ∃ r', (Reader.init w.io w.protocol (w'.bytes ++ post) objects hasReg w.bytes.length
          ((w'.bytes ++ post).length - w.bytes.length)).readNullableString16 =
            .ok (s.map utf8Text) r' ∧ r'.pos = w'.bytes.length ∧ r'.objects = objects := by
  have hok : (C01.Value.string16 s).Ok := by
    cases s with
    | none => trivial
    | some t => exact hs t rfl
  have hw := C01.write_eq e w (.string16 s) hok
  refine ⟨_, hw, ?_⟩
  have hrest : (Reader.init w.io w.protocol (w.bytes ++ (C01.Value.string16 s).enc ++ post) objects
      hasReg w.bytes.length ((w.bytes ++ (C01.Value.string16 s).enc ++ post).length -
        w.bytes.length)).Rest ((C01.Value.string16 s).enc ++ post) :=
    ⟨by simp [Reader.init], by simp [Reader.init], by simp [Reader.init]⟩
  have hr := C01.read_eq _ (.string16 s) post hok hrest
  simp only [C01.Value.ty, C01.Ty.read, C01.Value.seen] at hr
  cases hx : (Reader.init w.io w.protocol (w.bytes ++ (C01.Value.string16 s).enc ++ post) objects
      hasReg w.bytes.length ((w.bytes ++ (C01.Value.string16 s).enc ++ post).length -
        w.bytes.length)).readNullableString16 with
  | ok a r' =>
    rw [hx] at hr
    simp only [Res.map, Res.bind, Res.ok.injEq, C01.Seen.obytes.injEq] at hr
    refine ⟨r', by rw [hr.1], ?_, ?_⟩
    · rw [hr.2]; simp [Reader.advance, Reader.init]
    · rw [hr.2]; rfl
  | fail r' => rw [hx] at hr; simp [Res.map, Res.bind] at hr
  | ub k => rw [hx] at hr; simp [Res.map, Res.bind] at hr

/-- The three kinds of strings are read back as different values. -/
example : (none : Option Bytes) ≠ (some []).map utf8Text ∧
    (some ([] : List Char)).map utf8Text ≠ (some ['x']).map utf8Text := by decide

/-- The hypothesis holds for NULL, "" and some text. -/
example : ∀ s ∈ [none, some [], some ['h', 'é', '😀']], ∀ t, s = some t →
    '\x00' ∉ t ∧ 2 * (utf8Text t).length + 2 < 2 ^ 31 := by
  intro s hs t ht
  simp only [List.mem_cons, List.not_mem_nil, or_false] at hs
  rcases hs with rfl | rfl | rfl <;> cases ht <;> decide

/-- C06: skipping a string16 has the same effect on the reader as reading it, for any contents of
the parcel: both succeed and end up at the same position, or both fail. -/
theorem C06_skip_same (r : Reader) :
    (∀ r', (∃ s, r.readNullableString16 = .ok s r') ↔ r.skipString16 = .ok () r') ∧
    (∀ r', r.readNullableString16 = .fail r' ↔ r.skipString16 = .fail r') ∧
    (∀ r' s, r.readString16 = .ok s r' → r.skipString16 = .ok () r' ∨
      (r.skipString16 = .fail r' ∧ s = none)) := by
  unfold Reader.readString16 Reader.readNullableString16 Reader.skipString16
  cases r.readNullableUtf16 <;> simp [Res.map, Res.bind, eq_comm]

/-- A string is skipped; a truncated one is not. -/
example : ∃ r1 r2 : Reader, r1.skipString16 = .ok () (r1.advance 8) ∧ r2.skipString16 = .fail r2 :=
  ⟨Reader.init .io64 .aidl [1, 0, 0, 0, 104, 0, 0, 0] [] true 0 8,
   Reader.init .io64 .aidl [2, 0, 0, 0, 104, 0, 0, 0] [] true 0 8, by decide, by decide⟩

end Gb.C06
