import Verif.Lemmas.Plain
import Verif.Lemmas.Grows
import Verif.Model.Rpc
import Verif.Spec.Demo
/-
C18. RPC headers: the receiver of a request sees the interface the client was created for, and
reads the payload from its first byte.
-/
set_option autoImplicit false

namespace Gb.C18
open C01

/-- The header as a sequence of plain values. -/
def headerValues : Protocol → List Char → List Value
  | .aidl, s => [.int32 rpcFlags, .string16 (some s)]
  | .aidl2, s => [.int32 rpcFlags, .int32 unsetWorkSource, .string16 (some s)]
  | .aidl3, s => [.int32 rpcFlags, .int32 unsetWorkSource, .int32 sysHeader, .string16 (some s)]
  | .hidl, s => [.string8 (utf8Text s)]

/-- Names which can be written: no NUL, the UTF-16 form has a 32-bit size. -/
def NameOk (s : List Char) : Prop := '\x00' ∉ s ∧ 2 * (utf8Text s).length + 2 < 2 ^ 31

theorem utf8Text_nonul {s : List Char} (h : '\x00' ∉ s) : (0 : Byte) ∉ utf8Text s := by
  have h1 : ∀ c, Scalar c → (0 : Byte) ∉ utf8Enc1 c := by
    intro c hc hm
    have hz : ∀ n, 0 < n → n < 256 → (0 : Byte) ≠ UInt8.ofNat n := by
      intro n h0 h1 hh
      have := congrArg UInt8.toNat hh
      simp only [UInt8.toNat_ofNat'] at this
      rw [Nat.mod_eq_of_lt h1] at this
      change 0 = n at this
      omega
    unfold Scalar at hc
    unfold utf8Enc1 at hm
    split at hm
    · simp only [List.mem_cons, List.not_mem_nil, or_false] at hm
      exact hz _ (by omega) (by omega) hm
    · split at hm
      · simp only [List.mem_cons, List.not_mem_nil, or_false] at hm
        rcases hm with hm | hm <;> exact hz _ (by omega) (by omega) hm
      · split at hm
        · simp only [List.mem_cons, List.not_mem_nil, or_false] at hm
          rcases hm with hm | hm | hm <;> exact hz _ (by omega) (by omega) hm
        · simp only [List.mem_cons, List.not_mem_nil, or_false] at hm
          rcases hm with hm | hm | hm | hm <;> exact hz _ (by omega) (by omega) hm
  intro hm
  rw [utf8Text_eq, List.mem_flatMap] at hm
  obtain ⟨c, hc, hm⟩ := hm
  exact h1 c ((utf8Text_spec h).2.2 c hc) hm

theorem headerValues_ok {p : Protocol} {s : List Char} (h : NameOk s) :
    ∀ v ∈ headerValues p s, v.Ok := by
  have h0 : (0 : Byte) ∉ utf8Text s := utf8Text_nonul h.1
  intro v hv
  cases p <;> simp only [headerValues, List.mem_cons, List.not_mem_nil, or_false] at hv
  · rcases hv with rfl | rfl
    · trivial
    · exact h
  · rcases hv with rfl | rfl | rfl
    · trivial
    · trivial
    · exact h
  · rcases hv with rfl | rfl | rfl | rfl
    · trivial
    · trivial
    · trivial
    · exact h
  · subst hv; exact h0

theorem write_header {e : Env} {w : Writer} {p : Protocol} {s : List Char} (h : NameOk s) :
    writeRpcHeader e w p (utf8Text s) =
      .ok { w with bytes := w.bytes ++ (headerValues p s).flatMap Value.enc } := by
  rw [← writeAll_eq e w _ (headerValues_ok h)]
  have hm : ∀ x : Except UB Writer, (x >>= fun v => Except.ok v) = x := by
    intro x; cases x <;> rfl
  cases p <;> simp only [writeRpcHeader, headerValues, writeAll, Value.write, hm, Option.map_some]

theorem skipInt_eq {r : Reader} {v : UInt32} {x : Bytes} (k : Reader → Res (Option Bytes))
    (h : r.Rest ((Value.int32 v).enc ++ x)) :
    skipInt r k = k (r.advance (Value.int32 v).enc.length) := by
  have := read_eq r (.int32 v) x trivial h
  simp only [Value.ty, Ty.read] at this
  unfold skipInt
  cases hr : r.readUInt32 with
  | ok a r1 =>
    rw [hr] at this
    simp only [Res.map, Res.bind, Res.ok.injEq] at this
    simp only [this.2]
  | fail r1 => rw [hr] at this; simp [Res.map, Res.bind] at this
  | ub q => rw [hr] at this; simp [Res.map, Res.bind] at this

theorem readString16_eq {r : Reader} {s : List Char} {x : Bytes} (hs : NameOk s)
    (h : r.Rest ((Value.string16 (some s)).enc ++ x)) :
    r.readString16 = .ok (some (utf8Text s)) (r.advance (Value.string16 (some s)).enc.length) := by
  have := read_eq r (.string16 (some s)) x hs h
  simp only [Value.ty, Ty.read] at this
  unfold Reader.readString16
  cases hr : r.readNullableString16 with
  | ok a r1 =>
    rw [hr] at this
    simp only [Res.map, Res.bind, Res.ok.injEq, Value.seen, Seen.obytes.injEq, Option.map_some] at this
    simp only [this.2, this.1]
  | fail r1 => rw [hr] at this; simp [Res.map, Res.bind] at this
  | ub q => rw [hr] at this; simp [Res.map, Res.bind] at this

theorem advance_advance (r : Reader) (a b : Nat) : (r.advance a).advance b = r.advance (a + b) := by
  simp [Reader.advance, Nat.add_assoc]

theorem read_header {r : Reader} {p : Protocol} {s : List Char} {x : Bytes} {code : Nat} (hs : NameOk s)
    (hc : p = .hidl ∨ code ≤ 0x5f000000)
    (h : r.Rest ((headerValues p s).flatMap Value.enc ++ x)) :
    readRpcHeader p code r =
      .ok (some (utf8Text s)) (r.advance ((headerValues p s).flatMap Value.enc).length) := by
  have hi : internalTx = 0x5f000000 := by decide
  cases p with
  | hidl =>
    simp only [headerValues, List.flatMap_cons, List.flatMap_nil, List.append_nil] at h ⊢
    have := read_eq r (.string8 (utf8Text s)) x (headerValues_ok (p := .hidl) hs _ (by simp [headerValues])) h
    simp only [Value.ty, Ty.read] at this
    unfold readRpcHeader
    cases hr : r.readString8 with
    | ok a r1 =>
      rw [hr] at this
      simp only [Res.map, Res.bind, Res.ok.injEq, Value.seen, Seen.bytes.injEq] at this
      simp only [this.2, this.1]
    | fail r1 => rw [hr] at this; simp [Res.map, Res.bind] at this
    | ub q => rw [hr] at this; simp [Res.map, Res.bind] at this
  | aidl =>
    have hcode : ¬ internalTx < code := by
      rcases hc with hc | hc
      · cases hc
      · omega
    simp only [headerValues, List.flatMap_cons, List.flatMap_nil, List.append_nil, List.append_assoc] at h ⊢
    simp only [readRpcHeader]
    rw [if_neg hcode, skipInt_eq _ h, readString16_eq hs (h.advance rfl), advance_advance]
    simp only [List.length_append]
  | aidl2 =>
    have hcode : ¬ internalTx < code := by
      rcases hc with hc | hc
      · cases hc
      · omega
    simp only [headerValues, List.flatMap_cons, List.flatMap_nil, List.append_nil, List.append_assoc] at h ⊢
    simp only [readRpcHeader]
    rw [if_neg hcode, skipInt_eq _ h, skipInt_eq _ (h.advance rfl),
      readString16_eq hs ((h.advance rfl).advance rfl), advance_advance, advance_advance]
    simp only [List.length_append, Nat.add_assoc]
  | aidl3 =>
    have hcode : ¬ internalTx < code := by
      rcases hc with hc | hc
      · cases hc
      · omega
    simp only [headerValues, List.flatMap_cons, List.flatMap_nil, List.append_nil, List.append_assoc] at h ⊢
    simp only [readRpcHeader]
    rw [if_neg hcode, skipInt_eq _ h, skipInt_eq _ (h.advance rfl), skipInt_eq _ ((h.advance rfl).advance rfl),
      readString16_eq hs (((h.advance rfl).advance rfl).advance rfl), advance_advance, advance_advance,
      advance_advance]
    simp only [List.length_append, Nat.add_assoc]

theorem setData_eq {io : Io} {p : Protocol} {s : List Char} {code : Nat} {post : Bytes} {objects : List Nat}
    (hs : NameOk s) (hc : p = .hidl ∨ code ≤ 0x5f000000) :
    RemoteReq.setData io p code ((headerValues p s).flatMap Value.enc ++ post) objects =
      .ok { io, protocol := p, data := (headerValues p s).flatMap Value.enc ++ post, objects,
            iface := some (utf8Text s),
            headerSize := ((headerValues p s).flatMap Value.enc).length } := by
  unfold RemoteReq.setData
  rw [read_header hs hc (x := post) (r := RemoteReq.reader io p _ objects 0)
    ⟨by simp [RemoteReq.reader, Reader.init], by simp [RemoteReq.reader, Reader.init],
     by simp [RemoteReq.reader, Reader.init]⟩]
  simp [Reader.bytesRead, Reader.advance, RemoteReq.reader, Reader.init]

/-- C18: a request made by gbinder_client_new_request with any payload behind it (`post`, which
in particular is whatever the kernel made of the objects in the payload): the receiver sees the
interface of the client, and its reader starts at the payload and ends at the end of the data.
Internal transactions of the aidl protocols (codes above 0x5f000000) have no header. -/
theorem C18_header (e : Env) (io : Io) (p : Protocol) (m : Mem) (s : List Char) (hs : NameOk s) :
    ∃ w, clientNewRequest e io p m (some (utf8Text s)) = .ok w ∧ 0 < w.bytes.length ∧
      w.bytes.length % 4 = 0 ∧
      ∀ (code : Nat), (p = .hidl ∨ code ≤ 0x5f000000) → ∀ (post : Bytes) (objects : List Nat),
      ∃ q, RemoteReq.setData io p code (w.bytes ++ post) objects = .ok q ∧
        q.iface = some (utf8Text s) ∧ q.initReader.pos = w.bytes.length ∧
        q.initReader.bytesRead = 0 ∧ q.initReader.bytesRemaining = post.length ∧
        q.initReader.objects = objects ∧ q.initReader.buf = w.bytes ++ post := by
  have hw : clientNewRequest e io p m (some (utf8Text s)) =
      .ok (newRequest io p m (some ((headerValues p s).flatMap Value.enc))) := by
    simp only [clientNewRequest, rangeHeader, newRequestIface, write_header hs, bind, Except.bind,
      Except.map]
    rfl
  have hlen : 0 < ((headerValues p s).flatMap Value.enc).length ∧
      ((headerValues p s).flatMap Value.enc).length % 4 = 0 := by
    have h16 : (Value.string16 (some s)).enc.length % 4 = 0 := by
      cases s with
      | nil => rfl
      | cons c cs =>
        simp only [Value.enc, Reader.encUnits, List.length_append, length_leBytes, List.length_replicate,
          length_utf16Bytes, align4]
        simp
        omega
    have h8 : (Value.string8 (utf8Text s)).enc.length = align4 ((utf8Text s).length + 1) := by
      have := le_align4 ((utf8Text s).length + 1)
      simp only [Value.enc, List.length_append, List.length_replicate]
      omega
    have hi : ∀ v, (Value.int32 v).enc.length = 4 := fun v => by simp [Value.enc]
    cases p <;> simp only [headerValues, List.flatMap_cons, List.flatMap_nil, List.append_nil,
      List.length_append, hi]
    · omega
    · omega
    · omega
    · rw [h8]
      unfold align4
      omega
  refine ⟨_, hw, by simpa [newRequest] using hlen.1, by simpa [newRequest] using hlen.2, ?_⟩
  intro code hc post objects
  simp only [newRequest, Option.getD_some]
  refine ⟨_, setData_eq hs hc, rfl, rfl, ?_, ?_, rfl, rfl⟩
  · simp [RemoteReq.initReader, RemoteReq.reader, Reader.bytesRead, Reader.init]
  · simp [RemoteReq.initReader, RemoteReq.reader, Reader.bytesRemaining, Reader.remaining, Reader.init]

/-- C18 with a payload appended by any calls. -/
theorem C18_payload (e : Env) (io : Io) (p : Protocol) (m : Mem) (s : List Char) (hs : NameOk s)
    (ops : List WOp) (ha : ∀ off v, WOp.overwriteInt32 off v ∉ ops) (w w' : Writer)
    (hw : clientNewRequest e io p m (some (utf8Text s)) = .ok w) (h : WOp.runAll e w ops = .ok w')
    (code : Nat) (hc : p = .hidl ∨ code ≤ 0x5f000000) :
    ∃ q, RemoteReq.setData io p code w'.bytes w'.offsets = .ok q ∧
      q.iface = some (utf8Text s) ∧ q.initReader.pos = w.bytes.length ∧
      w'.bytes = w.bytes ++ w'.bytes.drop w.bytes.length ∧
      q.initReader.bytesRemaining = w'.bytes.length - w.bytes.length := by
  obtain ⟨w0, h0, _, _, hq⟩ := C18_header e io p m s hs
  rw [hw] at h0
  cases h0
  obtain ⟨new, g⟩ := runAll_grows (al := false) h (by
    intro op hop
    cases op <;> first | rfl | exact absurd hop (ha _ _)) (by simp)
  obtain ⟨b, hb, _⟩ := g.tail
  obtain ⟨q, h1, h2, h3, _, h5, _⟩ := hq code hc b w'.offsets
  rw [← hb] at h1
  refine ⟨q, h1, h2, h3, by rw [hb]; simp, by rw [h5, hb]; simp⟩

/-- C18 for internal transactions: there is no interface, everything is payload. -/
theorem C18_internal (io : Io) (p : Protocol) (hp : p ≠ .hidl) (code : Nat) (hc : 0x5f000000 < code)
    (data : Bytes) (objects : List Nat) :
    ∃ q, RemoteReq.setData io p code data objects = .ok q ∧ q.iface = none ∧ q.initReader.pos = 0 ∧
      q.initReader.bytesRemaining = data.length := by
  have hi : internalTx < code := by
    have : internalTx = 0x5f000000 := by decide
    omega
  refine ⟨{ io, protocol := p, data, objects, iface := none, headerSize := 0 }, ?_, rfl, rfl, ?_⟩
  · unfold RemoteReq.setData
    cases p <;> simp only [readRpcHeader] <;> first | rw [if_pos hi]; rfl | exact absurd rfl hp
  · simp [RemoteReq.initReader, RemoteReq.reader, Reader.bytesRemaining, Reader.remaining, Reader.init]

/-- An interface name, also with non-ASCII characters, a request with payload. -/
example : NameOk ['a', '.', 'I', 'é', '😀'] ∧ NameOk [] ∧
    (clientNewRequest Demo.env .io64 .hidl Demo.mem (some (utf8Text ['a', '.', 'I'])) >>= fun w =>
      (WOp.runAll Demo.env w Demo.ops).map (fun w' => w'.offsets.length)) = .ok 13 := by
  unfold NameOk
  decide +kernel

end Gb.C18
