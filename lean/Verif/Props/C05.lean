import Verif.Props.C03
import Verif.Model.Rpc
/-
C05. bytes_read and bytes_remaining are complementary.
-/
set_option autoImplicit false

namespace Gb.C05

/-- C05 for the calls covered by C03: after any sequence of calls the two counters add up to the
payload size. (Missing: calls affected by the defects listed in C03, see `C05_fails`.) -/
theorem C05_counters_partial (m : Mem) (hm : m.Apart) (r r' : Reader) (ops : List ROp)
    (h : r.Inside) (hd : Reader.Delivered m r) (hc : C03.Covered r ops)
    (hr : runROps m r ops = .ok r') :
    r'.bytesRead + r'.bytesRemaining = r.fin - r.start := by
  have key : r'.start = r.start ∧ r'.fin = r.fin ∧ r'.start ≤ r'.pos ∧ r'.pos ≤ r'.fin := by
    by_cases hb : ROp.byteArray ∈ ops
    · have := C03.run_safe hm ops true h hd hc (fun _ => (hc.arrays hb).2) (by simp)
      rw [hr] at this
      exact ⟨this.start, this.fin, (this.insideOf h).start_le, this.inside⟩
    · have := C03.run_safe hm ops false h hd hc (by simp) (fun _ => hb)
      rw [hr] at this
      exact ⟨this.start, this.fin, (this.insideOf h).start_le, this.inside⟩
  simp only [Reader.bytesRead, Reader.bytesRemaining, Reader.remaining, if_pos key.2.2.2]
  omega

/-- C05, raw data: reading doesn't change what gbinder_reader_get_data returns. (Missing: the same as above.) -/
theorem C05_data_partial (m : Mem) (hm : m.Apart) (r r' : Reader) (ops : List ROp)
    (h : r.Inside) (hd : Reader.Delivered m r) (hc : C03.Covered r ops)
    (hr : runROps m r ops = .ok r') : r'.getData = r.getData := by
  by_cases hb : ROp.byteArray ∈ ops
  · have := C03.run_safe hm ops true h hd hc (fun _ => (hc.arrays hb).2) (by simp)
    rw [hr] at this
    exact this.buf
  · have := C03.run_safe hm ops false h hd hc (by simp) (fun _ => hb)
    rw [hr] at this
    exact this.buf

/-- C05, raw data: it's everything that has been received, even if the header isn't something that the reader reads. -/
theorem C05_whole {io : Io} {p : Protocol} {code : Nat} {data : Bytes} {objects : List Nat} {q : RemoteReq}
    (h : RemoteReq.setData io p code data objects = .ok q) : q.initReader.getData = data := by
  unfold RemoteReq.setData at h
  split at h <;> cases h <;> rfl

/-- A request with "x" for the interface, and a number. -/
example : ∃ q, RemoteReq.setData .io64 .hidl 1 [0x78, 0, 0, 0, 7, 0, 0, 0] [] = .ok q ∧ q.initReader.start = 4 ∧
    q.initReader.getData = [0x78, 0, 0, 0, 7, 0, 0, 0] := ⟨_, rfl, by decide, by decide⟩

/-- After a byte array whose padding is missing the remaining size is a huge number. -/
theorem C05_fails : ∃ r r' : Reader, r.Inside ∧ runROps [] r [.byteArray] = .ok r' ∧
    r'.bytesRemaining = 2 ^ 64 - 3 :=
  ⟨Reader.init .io64 .aidl [1, 0, 0, 0, 0xaa] [] true 0 5, _, ⟨by decide, by decide, by decide⟩,
    rfl, by decide⟩

theorem deref_ok {α : Type} {r r' : Reader} {off n : Nat} {k : Bytes → Res α} {a : α}
    (h : r.deref off n k = .ok a r') : ∃ bs, k bs = .ok a r' := by
  unfold Reader.deref at h
  split at h
  · exact ⟨_, h⟩
  · cases h

theorem done_ok {α : Type} {x : Res α} {r : Reader} {u : Unit} (h : x.done = .ok u r) :
    ∃ a, x = .ok a r := by
  cases x <;> simp_all [Res.done, Res.map, Res.bind]

theorem map_ok {α β : Type} {f : α → β} {x : Res α} {r : Reader} {b : β} (h : x.map f = .ok b r) :
    ∃ a, x = .ok a r := by
  cases x <;> simp_all [Res.map, Res.bind]

theorem readWord_ok {r r' : Reader} {n v : Nat} (h : r.readWord n = .ok v r') :
    r' = r.advance n := by
  unfold Reader.readWord at h
  split at h
  · obtain ⟨bs, h⟩ := deref_ok h
    cases h; rfl
  · cases h

/-- C05, second half: a successful fixed-size read moves the position by exactly the size of the
item in the parcel (for all readers and all contents). -/
theorem C05_fixed_advance (m : Mem) (r r' : Reader) (op : ROp) (hop : op.fixed = true)
    (h : op.run m r = .ok () r') :
    r'.pos = r.pos + op.itemSize r.io r.proto ∧ r'.start = r.start ∧ r'.fin = r.fin := by
  cases op <;> first | (cases hop; done) | skip
  all_goals simp only [ROp.run] at h
  all_goals obtain ⟨v, h⟩ := done_ok h
  case byte =>
    unfold Reader.readByte at h
    split at h
    · obtain ⟨bs, h⟩ := deref_ok h
      cases h; exact ⟨rfl, rfl, rfl⟩
    · cases h
  case bool =>
    obtain ⟨v, h⟩ := map_ok h
    rw [readWord_ok h]; exact ⟨rfl, rfl, rfl⟩
  case int8 =>
    unfold Reader.readUInt8 at h
    split at h
    · obtain ⟨bs, h⟩ := deref_ok h
      cases h; exact ⟨rfl, rfl, rfl⟩
    · cases h
  case int16 =>
    unfold Reader.readUInt16 at h
    split at h
    · obtain ⟨bs, h⟩ := deref_ok h
      cases h; exact ⟨rfl, rfl, rfl⟩
    · cases h
  case int32 => rw [readWord_ok h]; exact ⟨rfl, rfl, rfl⟩
  case int64 => rw [readWord_ok h]; exact ⟨rfl, rfl, rfl⟩
  case float => rw [readWord_ok h]; exact ⟨rfl, rfl, rfl⟩
  case double => rw [readWord_ok h]; exact ⟨rfl, rfl, rfl⟩
  case fd =>
    unfold Reader.readFd at h
    split at h
    · split at h
      · obtain ⟨ty, h⟩ := deref_ok h
        split at h
        · obtain ⟨bs, h⟩ := deref_ok h
          cases h
          refine ⟨?_, rfl, rfl⟩
          simp only [Reader.eatObject, ROp.itemSize]
          cases r.io <;> rfl
        · cases h
      · cases h
    · cases h
  case nullableObject =>
    have hsz : r.io.flatSize + r.proto.extra = ROp.itemSize r.io r.proto .nullableObject := by
      cases r.io <;> cases r.proto <;> rfl
    unfold Reader.readNullableObject at h
    split at h
    · split at h
      · obtain ⟨ty, h⟩ := deref_ok h
        split at h
        · obtain ⟨bs, h⟩ := deref_ok h
          cases h
          refine ⟨?_, rfl, rfl⟩
          simp only [Reader.eatObject, hsz]
        · split at h
          · obtain ⟨bs, h⟩ := deref_ok h
            split at h
            · cases h
              refine ⟨?_, rfl, rfl⟩
              simp only [Reader.eatObject, hsz]
            · cases h
          · cases h
      · cases h
    · cases h
  case buffer =>
    unfold Reader.readBufferObject at h
    split at h
    · split at h
      · cases h
        refine ⟨?_, rfl, rfl⟩
        simp only [Reader.eatObject, ROp.itemSize]
        cases r.io <;> rfl
      · cases h
    · cases h

/-- A parcel with an int8, an int64 and an object. -/
example : ∃ r r1 r2 r3 : Reader, r.Inside ∧ ROp.int8.run [] r = .ok () r1 ∧
    ROp.int64.run [] r1 = .ok () r2 ∧ ROp.nullableObject.run [] r2 = .ok () r3 ∧
    r3.bytesRead = 36 ∧ r3.bytesRemaining = 0 :=
  ⟨Reader.init .io64 .aidl ([1, 0, 0, 0] ++ leBytes 8 7 ++ encodeRemoteObject .io64 (some 3))
    [12] true 0 36, _, _, _, ⟨by decide, by decide, by decide⟩, rfl, rfl, rfl, by decide, by decide⟩

/-- The hypotheses of `C05_counters_partial` are those of C03; here is a reader starting in the
middle of the buffer (after an RPC header). -/
example : ∃ (r r' : Reader), r.Inside ∧ 0 < r.start ∧ Reader.Delivered [] r ∧
    C03.Covered r [.int32, .byteArray, .string8] ∧
    runROps [] r [.int32, .byteArray, .string8] = .ok r' ∧ r'.bytesRead = 16 :=
  ⟨Reader.init .io64 .aidl [9, 9, 9, 9, 1, 2, 3, 4, 3, 0, 0, 0, 7, 7, 7, 0, 104, 105, 106, 0]
    [] true 4 16, _, ⟨by decide, by decide, by decide⟩, by decide, by decide,
    ⟨fun _ => ⟨by decide, by decide⟩, fun h => by simp at h, fun h => by simp [C03.hidlStrings] at h⟩,
    rfl, by decide⟩

end Gb.C05
