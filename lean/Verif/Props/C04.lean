import Verif.Spec.ReaderOps
/-
C04. A failed read does not move the reader.
-/
set_option autoImplicit false

namespace Gb.C04

theorem deref_fail {α : Type} {r r' : Reader} {off n : Nat} {k : Bytes → Res α}
    (hk : ∀ bs, k bs = .fail r' → r' = r) (h : r.deref off n k = .fail r') : r' = r := by
  unfold Reader.deref at h
  split at h
  · exact hk _ h
  · cases h

theorem done_fail {α : Type} {x : Res α} {r : Reader} (h : x.done = .fail r) : x = .fail r := by
  cases x <;> simp_all [Res.done, Res.map, Res.bind]

theorem map_fail {α β : Type} {f : α → β} {x : Res α} {r : Reader} (h : x.map f = .fail r) :
    x = .fail r := by
  cases x <;> simp_all [Res.map, Res.bind]

theorem readWord_fail {r r' : Reader} {n : Nat} (h : r.readWord n = .fail r') : r' = r := by
  unfold Reader.readWord at h
  split at h
  · exact deref_fail (fun bs h => by cases h) h
  · cases h; rfl

/-- C04: if a fixed-size read fails, the reader (position and pending objects) is unchanged. -/
theorem C04_failed_read_unchanged (m : Mem) (r r' : Reader) (op : ROp) (hop : op.fixed = true)
    (h : op.run m r = .fail r') : r' = r := by
  cases op <;> first | (cases hop; done) | skip
  all_goals simp only [ROp.run] at h
  all_goals replace h := done_fail h
  case byte =>
    unfold Reader.readByte at h
    split at h
    · exact deref_fail (fun bs h => by cases h) h
    · cases h; rfl
  case bool => exact readWord_fail (map_fail h)
  case int8 =>
    unfold Reader.readUInt8 at h
    split at h
    · exact deref_fail (fun bs h => by cases h) h
    · cases h; rfl
  case int16 =>
    unfold Reader.readUInt16 at h
    split at h
    · exact deref_fail (fun bs h => by cases h) h
    · cases h; rfl
  case int32 => exact readWord_fail h
  case int64 => exact readWord_fail h
  case float => exact readWord_fail h
  case double => exact readWord_fail h
  case fd =>
    unfold Reader.readFd at h
    split at h
    · split at h
      · refine deref_fail (fun bs h => ?_) h
        split at h
        · exact deref_fail (fun bs h => by cases h) h
        · cases h; rfl
      · cases h; rfl
    · cases h; rfl
  case nullableObject =>
    unfold Reader.readNullableObject at h
    split at h
    · split at h
      · refine deref_fail (fun bs h => ?_) h
        split at h
        · exact deref_fail (fun bs h => by cases h) h
        · split at h
          · refine deref_fail (fun bs h => ?_) h
            split at h
            · cases h
            · cases h; rfl
          · cases h; rfl
      · cases h; rfl
    · cases h; rfl
  case buffer =>
    unfold Reader.readBufferObject at h
    split at h
    · split at h
      · cases h
      · cases h; rfl
    · cases h; rfl

/-- The same is true for byte arrays and strings, other than the contents of NULL-able ones (which is
not a failure). -/
theorem C04_failed_string_unchanged (r r' : Reader) :
    (r.readByteArray = .fail r' → r' = r) ∧ (r.readNullableUtf16 = .fail r' → r' = r) ∧
    (r.readString8 = .fail r' → r' = r) ∧ (r.readNullableString8 = .fail r' → r' = r) := by
  have h8 : r.readString8 = .fail r' → r' = r := by
    intro h
    unfold Reader.readString8 at h
    simp only at h
    repeat' split at h
    all_goals first
      | exact deref_fail (fun bs h => by cases h) h
      | (cases h; done)
      | (cases h; rfl)
  refine ⟨?_, ?_, h8, ?_⟩
  · intro h
    unfold Reader.readByteArray at h
    split at h
    · refine deref_fail (fun bs h => ?_) h
      simp only at h
      split at h
      · cases h
      · split at h
        · exact deref_fail (fun bs h => by cases h) h
        · cases h; rfl
    · cases h; rfl
  · intro h
    unfold Reader.readNullableUtf16 at h
    split at h
    · refine deref_fail (fun bs h => ?_) h
      simp only at h
      split at h
      · cases h
      · split at h
        · split at h
          · split at h
            · refine deref_fail (fun bs h => ?_) h
              split at h
              · cases h
              · cases h; rfl
            · cases h; rfl
          · cases h
        · cases h; rfl
    · cases h; rfl
  · intro h
    unfold Reader.readNullableString8 at h
    split at h
    · refine deref_fail (fun bs h => ?_) h
      simp only at h
      split at h
      · cases h
      · split at h
        · split at h
          · split at h
            · refine deref_fail (fun bs h => ?_) h
              split at h
              · cases h
              · cases h; rfl
            · cases h; rfl
          · cases h
        · cases h; rfl
    · cases h; rfl

/-- A string which is longer than what has been received. -/
example : ∃ r : Reader, r.readNullableUtf16 = .fail r ∧ r.readByteArray = .fail r ∧ r.pos < r.fin :=
  ⟨Reader.init .io64 .aidl [9, 0, 0, 0, 5, 0, 0, 0] [] true 0 8, by decide, by decide, by decide⟩

/-- A truncated int64: the read fails, and the int32 which is there can still be read. -/
example : ∃ r : Reader, ROp.int64.run [] r = .fail r ∧ r.pos < r.fin ∧
    (ROp.int32.run [] r = .ok () (r.advance 4)) :=
  ⟨Reader.init .io64 .aidl [1, 2, 3, 4, 5] [] true 0 5, by decide, by decide, by decide⟩

/-- An object of a wrong type: reading an fd where a buffer object is fails, and the buffer object
can still be read. -/
example : ∃ r r' : Reader, ROp.fd.run [] r = .fail r ∧ ROp.buffer.run [] r = .ok () r' ∧
    r'.pos = 40 :=
  ⟨Reader.init .io64 .hidl (encodeBufferObject .io64 4096 8 none) [0] true 0 40,
   _, by decide, rfl, by decide⟩

end Gb.C04
