import Verif.Lemmas.Safe
/-
C03. Reader stays inside the received buffer.

The full statement would be: for every memory `m`, every reader over a received buffer and every
sequence `ops` of calls, `runROps m r ops` is not `.error _`.  It does not hold, see
`C03_fails_*`; what does hold is `C03_reader_in_bounds_partial`.
-/
set_option autoImplicit false

namespace Gb.C03

/-- Reading calls which may leave the position unaligned. -/
def unaligned : ROp → Bool
  | .byte | .parcelable => true
  | _ => false

/-- Calls which convert a length word of the parcel to a size in gint32 arithmetic. -/
def lengthPrefixed : ROp → Bool
  | .nullableString8 | .nullableString16 | .string16 | .utf16 | .nullableUtf16
  | .skipString16 => true
  | _ => false

/-- Calls which read HIDL strings. -/
def hidlStrings : ROp → Bool
  | .hidlString | .hidlStringVec => true
  | _ => false

/-- What has to be excluded for the code to be safe:
* padded byte arrays in parcels which are not a whole number of words or are read with byte or
  parcelable reads in between (known defect);
* objects in protocols with extra bytes after the object, i.e. aidl3 (known defect);
* HIDL strings in parcels with an empty buffer object (known defect). -/
structure Covered (r : Reader) (ops : List ROp) : Prop where
  arrays : ROp.byteArray ∈ ops → (r.fin - r.pos) % 4 = 0 ∧ ∀ op ∈ ops, unaligned op = false
  objects : ROp.nullableObject ∈ ops → r.proto ≠ .aidl3
  strings : (∃ op ∈ ops, hidlStrings op = true) → Reader.NoEmptyBuffers r

theorem step_safe {m : Mem} (hm : m.Apart) {r : Reader} (h : r.Inside)
    (hd : Reader.Delivered m r) {op : ROp} {ops : List ROp} (hc : Covered r (op :: ops))
    {al : Bool} (hal : al = true → unaligned op = false) :
    Reader.Safe al (lengthPrefixed op) r (op.run m r) := by
  cases op
  case byte =>
    cases al
    · exact (Reader.safe_readByte h false rfl).done
    · exact absurd (hal rfl) (by simp [unaligned])
  case bool => exact (Reader.safe_readWord h 4 rfl).map.done.mono
  case int8 => exact (Reader.safe_readUInt8 h).done.mono
  case int16 => exact (Reader.safe_readUInt16 h).done.mono
  case int32 => exact (Reader.safe_readWord h 4 rfl).done.mono
  case int64 => exact (Reader.safe_readWord h 8 rfl).done.mono
  case float => exact (Reader.safe_readWord h 4 rfl).done.mono
  case double => exact (Reader.safe_readWord h 8 rfl).done.mono
  case string8 => exact (Reader.safe_readString8 h).done.mono
  case nullableString8 =>
    have := (Reader.safe_readNullableString8 h).done
    simp only [ROp.run]
    revert this
    generalize (r.readNullableString8.done) = x
    intro this
    cases x
    · exact Reader.Keeps.mono this
    · exact Reader.Keeps.mono this
    · exact this
  case nullableString16 =>
    have := (Reader.safe_readNullableString16 h).done
    simp only [ROp.run]
    revert this
    generalize (r.readNullableString16.done) = x
    intro this
    cases x
    · exact Reader.Keeps.mono this
    · exact Reader.Keeps.mono this
    · exact this
  case string16 =>
    have := (Reader.safe_readString16 h).done
    simp only [ROp.run]
    revert this
    generalize (r.readString16.done) = x
    intro this
    cases x
    · exact Reader.Keeps.mono this
    · exact Reader.Keeps.mono this
    · exact this
  case utf16 =>
    have := (Reader.safe_readUtf16 h).done
    simp only [ROp.run]
    revert this
    generalize (r.readUtf16.done) = x
    intro this
    cases x
    · exact Reader.Keeps.mono this
    · exact Reader.Keeps.mono this
    · exact this
  case nullableUtf16 =>
    have := (Reader.safe_readNullableUtf16 h).done
    simp only [ROp.run]
    revert this
    generalize (r.readNullableUtf16.done) = x
    intro this
    cases x
    · exact Reader.Keeps.mono this
    · exact Reader.Keeps.mono this
    · exact this
  case skipString16 =>
    have : Reader.Safe true true r r.skipString16.done :=
      ((Reader.safe_readNullableUtf16 h).map (f := fun _ => ())).done
    simp only [ROp.run]
    revert this
    generalize (r.skipString16.done) = x
    intro this
    cases x
    · exact Reader.Keeps.mono this
    · exact Reader.Keeps.mono this
    · exact this
  case byteArray =>
    exact (Reader.safe_readByteArray h (hc.arrays (by simp)).1).done.mono
  case parcelable =>
    cases al
    · exact (Reader.safe_readParcelable h false rfl).done
    · exact absurd (hal rfl) (by simp [unaligned])
  case fd => exact (Reader.safe_readFd h).done.mono
  case nullableObject =>
    have hx : r.proto.extra = 0 := by
      have := hc.objects (by simp)
      revert this
      cases r.proto <;> simp [Protocol.extra]
    exact (Reader.safe_readNullableObject h hx).done.mono
  case buffer => exact (Reader.safe_readBufferObject h).done.mono
  case hidlStruct n => exact (Reader.safe_readHidlStruct h n).done.mono
  case hidlVec => exact (Reader.safe_readHidlVec h hd).done.mono
  case hidlVec1 n => exact (Reader.safe_readHidlVec1 h hd n).done.mono
  case hidlString =>
    exact (Reader.safe_readHidlString hm h hd (hc.strings ⟨_, List.mem_cons_self, rfl⟩)).done.mono
  case hidlStringVec =>
    exact (Reader.safe_readHidlStringVec hm h hd (hc.strings ⟨_, List.mem_cons_self, rfl⟩)).done.mono

theorem run_safe {m : Mem} (hm : m.Apart) (ops : List ROp) (al : Bool) {r : Reader}
    (h : r.Inside) (hd : Reader.Delivered m r) (hc : Covered r ops)
    (hal : al = true → ∀ op ∈ ops, unaligned op = false)
    (harr : al = false → ROp.byteArray ∉ ops) :
    match runROps m r ops with
    | .ok r' => Reader.Keeps al r r'
    | .error k => k = .overflow ∧ ∃ op ∈ ops, lengthPrefixed op = true := by
  induction ops generalizing r with
  | nil => exact Reader.Keeps.refl h
  | cons op ops ih =>
    have hs := step_safe (al := al) hm h hd hc (fun ha => hal ha op (by simp))
    have next : ∀ r1, Reader.Keeps al r r1 →
        match runROps m r1 ops with
        | .ok r' => Reader.Keeps al r r'
        | .error k => k = .overflow ∧ ∃ o ∈ op :: ops, lengthPrefixed o = true := by
      intro r1 hk
      have hc1 : Covered r1 ops := by
        refine ⟨?_, ?_, ?_⟩
        · intro hb
          have ha := hc.arrays (by simp [hb])
          have hal' : al = true := by
            cases al
            · exact absurd (by simp [hb]) (harr rfl)
            · rfl
          have := hk.aligned hal'
          have := hk.le
          have := hk.inside
          have := hk.fin
          refine ⟨by omega, fun o ho => ha.2 o (by simp [ho])⟩
        · intro hb
          rw [hk.proto]
          exact hc.objects (by simp [hb])
        · rintro ⟨o, ho, hs⟩
          exact (hc.strings ⟨o, by simp [ho], hs⟩).keeps hk
      have := ih (hk.insideOf h) (hd.keeps hk) hc1
        (fun ha o ho => hal ha o (by simp [ho])) (fun ha hb => harr ha (by simp [hb]))
      revert this
      cases runROps m r1 ops with
      | ok r' => exact fun h => hk.trans h
      | error k =>
        rintro ⟨hk, o, ho, hl⟩
        exact ⟨hk, o, by simp [ho], hl⟩
    unfold runROps
    cases hx : op.run m r with
    | ok a r1 => rw [hx] at hs; exact next r1 hs
    | fail r1 => rw [hx] at hs; exact next r1 hs
    | ub k =>
      rw [hx] at hs
      exact ⟨hs.1, op, by simp, hs.2⟩

/-- C03, the part which holds. For any contents of the received buffer, any object offsets and any
sequence of calls in the covered fragment: no access outside of the buffer or of the delivered
buffers happens, the position never exceeds the size. The only undefined behaviour left is signed
overflow of a length prefix, and only if a length-prefixed string is read. -/
theorem C03_reader_in_bounds_partial (m : Mem) (hm : m.Apart) (r : Reader) (ops : List ROp)
    (h : r.Inside) (hd : Reader.Delivered m r) (hc : Covered r ops) :
    match runROps m r ops with
    | .ok r' => r'.start ≤ r'.pos ∧ r'.pos ≤ r.buf.length ∧ r'.buf = r.buf
    | .error k => k = .overflow ∧ ∃ op ∈ ops, lengthPrefixed op = true := by
  have key : ∀ al, Reader.Keeps al r = Reader.Keeps al r := fun _ => rfl
  by_cases hb : ROp.byteArray ∈ ops
  · have := run_safe hm ops true h hd hc (fun _ => (hc.arrays hb).2) (by simp)
    revert this
    cases runROps m r ops with
    | ok r' =>
      intro hk
      have h' := hk.insideOf h
      exact ⟨h'.start_le, by have := hk.inside; have := hk.fin; have := h.fin_eq; omega, hk.buf⟩
    | error k => exact fun h => h
  · have := run_safe hm ops false h hd hc (by simp) (fun _ => hb)
    revert this
    cases runROps m r ops with
    | ok r' =>
      intro hk
      have h' := hk.insideOf h
      exact ⟨h'.start_le, by have := hk.inside; have := hk.fin; have := h.fin_eq; omega, hk.buf⟩
    | error k => exact fun h => h

/-- The length words for which reading a nullable string16 overflows: exactly those between
0x3fffffff and 0x7fffffff. -/
theorem C03_string16_overflow_partial (r : Reader) (h : r.Inside) :
    (∃ k, r.readNullableUtf16 = .ub k) ↔
      ∃ bs, slice r.buf r.pos 4 = some bs ∧ 0x3fffffff ≤ leVal bs ∧ leVal bs < 2 ^ 31 := by
  have hs := Reader.safe_readNullableUtf16 h
  have hf := h.fin_eq
  constructor
  · rintro ⟨k, hk⟩
    unfold Reader.readNullableUtf16 at hk
    split at hk
    · rename_i hlt
      have hsl := slice_isSome (b := r.buf) (off := r.pos) (n := 4) (by omega)
      unfold Reader.deref at hk
      rw [hsl] at hk
      refine ⟨_, hsl, ?_⟩
      simp only [] at hk
      split at hk
      · cases hk
      · split at hk
        · split at hk
          · split at hk
            · rename_i h1 h2 h3 h4
              have := le_align4 ((leVal ((r.buf.drop r.pos).take 4) + 1) * 2)
              rw [slice_isSome (by omega)] at hk
              simp only [] at hk
              split at hk <;> cases hk
            · cases hk
          · omega
        · cases hk
    · cases hk
  · rintro ⟨bs, hb, h1, h2⟩
    have hle := (slice_eq_some_iff.mp hb).1
    refine ⟨.overflow, ?_⟩
    unfold Reader.readNullableUtf16 Reader.deref
    rw [if_pos (by omega), hb]
    simp only []
    rw [if_neg (by omega), if_pos (by omega), if_neg (by omega)]

/-! ### Counterexamples to the full statement -/

/-- read_byte_array moves behind the end of a 5-byte payload holding a 1-byte array, and the
read after that is out of bounds. -/
theorem C03_fails_byte_array : ∃ r : Reader, r.Inside ∧ r.objects = [] ∧
    (∃ r', runROps [] r [.byteArray] = .ok r' ∧ r.buf.length < r'.pos) ∧
    runROps [] r [.byteArray, .int32] = .error .oob :=
  ⟨Reader.init .io64 .aidl [1, 0, 0, 0, 0xaa] [] true 0 5, ⟨by decide, by decide, by decide⟩,
    rfl, ⟨_, rfl, by decide⟩, by decide⟩

/-- aidl3: an object without the four extra bytes moves the reader behind the end, the next read
is out of bounds. -/
theorem C03_fails_aidl3_object : ∃ r : Reader, r.Inside ∧ r.proto = .aidl3 ∧
    runROps [] r [.nullableObject] ≠ .error .oob ∧
    runROps [] r [.nullableObject, .int32] = .error .oob :=
  ⟨Reader.init .io64 .aidl3 (encodeRemoteObject .io64 (some 1)) [0] true 0 24,
    ⟨by decide, by decide, by decide⟩, rfl, by decide, by decide⟩

/-- A string16 with the length word 0x3fffffff: signed overflow. -/
theorem C03_fails_string16 : ∃ r : Reader, r.Inside ∧ r.objects = [] ∧
    runROps [] r [.skipString16] = .error .overflow :=
  ⟨Reader.init .io64 .aidl [0xff, 0xff, 0xff, 0x3f] [] true 0 4,
    ⟨by decide, by decide, by decide⟩, rfl, by decide⟩

/-- A string8 with the length word 0x7fffffff: signed overflow. -/
theorem C03_fails_string8 : ∃ r : Reader, r.Inside ∧ r.objects = [] ∧
    runROps [] r [.nullableString8] = .error .overflow :=
  ⟨Reader.init .io64 .aidl [0xff, 0xff, 0xff, 0x7f] [] true 0 4,
    ⟨by decide, by decide, by decide⟩, rfl, by decide⟩

/-- A HIDL string with len 0xffffffff whose text buffer is empty: `str[len]` is out of bounds,
although all the buffers are where the kernel has put them. -/
theorem C03_fails_hidl_string : ∃ (m : Mem) (r : Reader), m.Apart ∧ r.Inside ∧
    Reader.Delivered m r ∧ runROps m r [.hidlString] = .error .oob := by
  refine ⟨[(0x1000, leBytes 8 0x1010 ++ leBytes 4 0xffffffff ++ leBytes 4 0)],
    Reader.init .io64 .hidl (encodeBufferObject .io64 0x1000 16 none ++
      encodeBufferObject .io64 0x1010 0 (some ⟨0, 0⟩)) [0, 40] true 0 80,
    by decide, ⟨by decide, by decide, by decide⟩, by decide, by decide⟩

/-! ### The hypotheses can be met -/

/-- A delivered HIDL string followed by a byte array, read with a long sequence of calls. -/
example : ∃ (m : Mem) (r : Reader) (ops : List ROp), m.Apart ∧ r.Inside ∧ Reader.Delivered m r ∧
    Covered r ops ∧ ROp.byteArray ∈ ops ∧ ROp.hidlString ∈ ops ∧ 5 < ops.length ∧
    (∃ r', runROps m r ops = .ok r' ∧ r'.pos = 88) := by
  refine ⟨[(0x1000, leBytes 8 0x2000 ++ leBytes 4 2 ++ leBytes 4 0), (0x2000, [104, 105, 0])],
    Reader.init .io64 .hidl (encodeBufferObject .io64 0x1000 16 none ++
      encodeBufferObject .io64 0x2000 3 (some ⟨0, 0⟩) ++ [2, 0, 0, 0, 7, 8, 0, 0])
      [0, 40] true 0 88,
    [.fd, .hidlString, .nullableObject, .byteArray, .string16, .int64], by decide,
    ⟨by decide, by decide, by decide⟩, by decide, ⟨fun _ => ⟨by decide, by decide⟩,
    fun _ => by decide, fun _ => by decide⟩, by decide, by decide, by decide, ⟨_, rfl, by decide⟩⟩

end Gb.C03
