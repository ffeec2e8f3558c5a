import Verif.Lemmas.Android
import Verif.Lemmas.AndroidHidl
import Verif.Lemmas.TransferCheck
/-
C80. Parcels are those of Android.
-/
set_option autoImplicit false

namespace Gb.C80
open Android

/-- C80: whatever has been received, if Android's class reads something then so does libgbinder, and it's the same
thing. And then both of them are at the same place. (readCString doesn't check that the padding is there, that's
what `hp` is for.) -/
theorem C80_read (r : Reader) (t : Ty) (v : Val) (p : Nat) (hf : r.fin = r.buf.length) (hr : r.pos ≤ r.fin)
    (hl : r.buf.length < 2 ^ 31) (h : readAt r.buf r.pos t = some (v, p)) (hp : p ≤ r.buf.length) :
    get r t = .ok (seen v) { r with pos := p } :=
  read_of r t v p hf hr hl h hp

/-- C80, the other way around: libgbinder reads nothing that Android's class doesn't, provided that the padding has
been received too (it may be missing after a byte array, see C03), and that NULL isn't returned in place of a
parcelable which can't be read. -/
theorem C80_only (r r' : Reader) (t : Ty) (v : Val) (hf : r.fin = r.buf.length) (hr : r.pos ≤ r.fin)
    (h : get r t = .ok v r') (hp : r'.pos ≤ r.buf.length) (hn : v ≠ .parcel none) :
    ∃ u, readAt r.buf r.pos t = some (u, r'.pos) ∧ seen u = v :=
  only_of r r' t v hf hr h hp hn

/-- A number, a string, an array and a parcelable, as Android and libgbinder see them. -/
example : ∃ r : Reader, r.fin = r.buf.length ∧ r.pos ≤ r.fin ∧ r.buf.length < 2 ^ 31 ∧
    readAll r.buf r.pos [.int32, .string16, .byteArray, .parcelable] =
      some ([.num 7, .units (some [0x61]), .array (some [1, 2, 3]), .parcel (some [4, 5, 6, 7])], 32) ∧
    get { r with pos := 4 } .string16 = .ok (.units (some [0x61])) { r with pos := 12 } :=
  ⟨Reader.init .io64 .aidl [7, 0, 0, 0, 1, 0, 0, 0, 0x61, 0, 0, 0, 3, 0, 0, 0, 1, 2, 3, 0xff, 1, 0, 0, 0, 8, 0, 0, 0, 4, 5, 6, 7,
    0, 0, 0, 0] [] true 0 36, by decide +kernel⟩

/-- C80: whatever is written with libgbinder, Android's class reads what has been written, no matter what is before
it and after it. -/
theorem C80_written (e : Env) (w : Writer) (xs : List Item) (h : ∀ x ∈ xs, x.Ok) :
    ∃ w', putAll e w xs = .ok w' ∧ ∀ post, readAll (w'.bytes ++ post) w.bytes.length (xs.map Item.ty) =
      some (xs.map Item.val, w'.bytes.length) := by
  refine ⟨_, putAll_eq e xs w h, ?_⟩
  intro post
  simp only
  generalize w.bytes = a
  induction xs generalizing a with
  | nil => simp [readAll]
  | cons x xs ih =>
    have h1 := readAt_eq a (xs.flatMap Item.enc ++ post) x (h x (by simp))
    have h2 := ih (fun u hu => h u (by simp [hu])) (a ++ x.enc)
    simp only [List.append_assoc] at h1 h2
    simp only [List.map_cons, readAll, List.flatMap_cons, List.append_assoc, h1, h2]

/-- All kinds of things. -/
example : ∀ x ∈ [Item.plain (.bool true), .plain (.int8 255), .plain (.int64 (-1)), .plain (.string8 [104, 105]),
    .plain (.string16 none), .plain (.string16 (some ['a', '€', '😀'])), .plain (.utf16 (some [1, 0, 0xd800])),
    .plain (.byteArray []), .plain (.byteArray [1, 2, 3, 4, 5]), .parcelable none, .parcelable (some [1, 2, 3])],
    x.Ok := by
  simp [Item.Ok, C01.Value.Ok]
  decide

/-- C80: a request created with gbinder_client_new_request is accepted by Android's class if the interface is the one
that it's expecting, and the arguments are where it's looking for them. -/
theorem C80_header_sent (e : Env) (io : Io) (p : Protocol) (m : Mem) (s : List Char) (hs : C18.NameOk s) :
    ∃ w, clientNewRequest e io p m (some (utf8Text s)) = .ok w ∧
      ∀ post, enforce syst (w.bytes ++ post) p = some (nameOf s p, w.bytes.length) := by
  refine ⟨newRequest io p m (some ((C18.headerValues p s).flatMap C01.Value.enc)), ?_, ?_⟩
  · simp only [clientNewRequest, rangeHeader, newRequestIface, C18.write_header hs, bind, Except.bind, Except.map]
    rfl
  · intro post
    simp only [newRequest, Option.getD_some]
    have key := C80_written e { io := io, protocol := p, mem := m }
      ((C18.headerValues p s).map Item.plain) (by
        intro x hx
        obtain ⟨v, hv, rfl⟩ := List.mem_map.mp hx
        exact C18.headerValues_ok hs v hv)
    obtain ⟨w', h1, h2⟩ := key
    rw [putAll_eq] at h1
    · cases h1
      have h3 := h2 post
      have e1 : ((C18.headerValues p s).map Item.plain).flatMap Item.enc =
          (C18.headerValues p s).flatMap C01.Value.enc := by
        generalize C18.headerValues p s = vs
        induction vs with
        | nil => rfl
        | cons v vs ih => simp only [List.map_cons, List.flatMap_cons, ih]; rfl
      simp only [e1, List.nil_append, List.length_nil] at h3
      cases p <;>
        simp only [C18.headerValues, List.map_cons, List.map_nil, Item.ty, Item.val, Option.map_some] at h3 <;>
        simp only [C18.headerValues, enforce, h3, nameOf]
      rw [if_pos (by decide)]
    · intro x hx
      obtain ⟨v, hv, rfl⟩ := List.mem_map.mp hx
      exact C18.headerValues_ok hs v hv

/-- C80: if Android's class would accept the request then the handler gets it with that interface, and the reader
starts where the arguments are. (`hp` is there because readCString doesn't check that the padding is there.) -/
theorem C80_header_received (io : Io) (p : Protocol) (magic code : Nat) (s : List Char) (hs : '\x00' ∉ s)
    (hc : p = .hidl ∨ code ≤ 0x5f000000) (b : Bytes) (objects : List Nat) (n : Nat) (hl : b.length < 2 ^ 31)
    (h : enforce magic b p = some (nameOf s p, n)) (hp : n ≤ b.length) :
    ∃ q, RemoteReq.setData io p code b objects = .ok q ∧ q.iface = some (utf8Text s) ∧ q.initReader.pos = n ∧
      q.initReader.bytesRemaining = b.length - n := by
  have hread : readRpcHeader p code (RemoteReq.reader io p b objects 0) =
      .ok (some (utf8Text s)) { RemoteReq.reader io p b objects 0 with pos := n } := by
    generalize hr : RemoteReq.reader io p b objects 0 = r
    have hb : r.buf = b := by subst hr; rfl
    have hf : r.fin = r.buf.length := by subst hr; simp [RemoteReq.reader, Reader.init]
    have h0 : r.pos = 0 := by subst hr; rfl
    have hpos : r.pos ≤ r.fin := by omega
    clear hr
    subst hb
    have hcode : p ≠ .hidl → ¬ internalTx < code := by
      intro hne
      have hi : internalTx = 0x5f000000 := by decide
      rcases hc with hc | hc
      · exact absurd hc hne
      · omega
    cases p with
    | hidl =>
      simp only [enforce, nameOf] at h
      split at h
      · rename_i s' p' h1
        cases h
        obtain ⟨v, us, q, h2, h3, h4⟩ := readAll_cons h1
        obtain ⟨rfl, rfl⟩ := readAll_nil h4
        cases h2
        rw [← h0] at h3
        have hg := C80_read r .cString _ _ hf hpos hl h3 hp
        simp only [get] at hg
        simp only [readRpcHeader]
        cases hq : r.readString8 with
        | ok a r1 =>
          rw [hq] at hg
          simp only [Res.map, Res.bind, Res.ok.injEq, seen, Val.text.injEq, Option.some.injEq] at hg
          obtain ⟨rfl, rfl⟩ := hg
          rfl
        | fail r1 => rw [hq] at hg; simp [Res.map, Res.bind] at hg
        | ub q => rw [hq] at hg; simp [Res.map, Res.bind] at hg
      · cases h
    | aidl =>
      simp only [enforce, nameOf] at h
      split at h
      · rename_i v1 us p' h1
        cases h
        obtain ⟨w1, us1, q1, e1, a1, h1⟩ := readAll_cons h1
        obtain ⟨w2, us2, q2, e2, a2, h1⟩ := readAll_cons h1
        obtain ⟨rfl, rfl⟩ := readAll_nil h1
        subst e2
        cases e1
        rw [← h0] at a1
        obtain ⟨k1, b1⟩ := skipInt_of hf hpos a1 Reader.readString16
        simp only [readRpcHeader]
        rw [if_neg (hcode (by decide)), k1]
        exact readString16_of hs hf (by simp only; omega) hl hp a2
      · cases h
    | aidl2 =>
      simp only [enforce, nameOf] at h
      split at h
      · rename_i v1 v2 us p' h1
        cases h
        obtain ⟨w1, us1, q1, e1, a1, h1⟩ := readAll_cons h1
        obtain ⟨w2, us2, q2, e2, a2, h1⟩ := readAll_cons h1
        obtain ⟨w3, us3, q3, e3, a3, h1⟩ := readAll_cons h1
        obtain ⟨rfl, rfl⟩ := readAll_nil h1
        subst e3 e2
        cases e1
        rw [← h0] at a1
        simp only [readRpcHeader]
        rw [if_neg (hcode (by decide))]
        obtain ⟨k1, b1⟩ := skipInt_of hf hpos a1 (fun r1 => skipInt r1 Reader.readString16)
        rw [k1]
        obtain ⟨k2, b2⟩ := skipInt_of (r := { r with pos := q1 }) hf (by simp only; omega) a2 Reader.readString16
        replace b2 : q2 ≤ r.buf.length := b2
        rw [k2]
        exact readString16_of hs hf (by simp only; omega) hl hp a3
      · cases h
    | aidl3 =>
      simp only [enforce, nameOf] at h
      split at h
      · rename_i v1 v2 v3 us p' h1
        split at h
        · cases h
          obtain ⟨w1, us1, q1, e1, a1, h1⟩ := readAll_cons h1
          obtain ⟨w2, us2, q2, e2, a2, h1⟩ := readAll_cons h1
          obtain ⟨w3, us3, q3, e3, a3, h1⟩ := readAll_cons h1
          obtain ⟨w4, us4, q4, e4, a4, h1⟩ := readAll_cons h1
          obtain ⟨rfl, rfl⟩ := readAll_nil h1
          subst e4 e3 e2
          cases e1
          rw [← h0] at a1
          simp only [readRpcHeader]
          rw [if_neg (hcode (by decide))]
          obtain ⟨k1, b1⟩ := skipInt_of hf hpos a1 (fun r1 => skipInt r1 fun r2 => skipInt r2 Reader.readString16)
          rw [k1]
          obtain ⟨k2, b2⟩ := skipInt_of (r := { r with pos := q1 }) hf (by simp only; omega) a2
            (fun r2 => skipInt r2 Reader.readString16)
          replace b2 : q2 ≤ r.buf.length := b2
          rw [k2]
          obtain ⟨k3, b3⟩ := skipInt_of (r := { r with pos := q2 }) hf (by simp only; omega) a3 Reader.readString16
          replace b3 : q3 ≤ r.buf.length := b3
          rw [k3]
          exact readString16_of hs hf (by simp only; omega) hl hp a4
        · cases h
      · cases h
  unfold RemoteReq.setData
  rw [hread]
  refine ⟨_, rfl, rfl, ?_, ?_⟩
  · simp [RemoteReq.initReader, RemoteReq.reader, Reader.init, Reader.bytesRead]
  · simp [RemoteReq.initReader, RemoteReq.reader, Reader.init, Reader.bytesRead, Reader.bytesRemaining, Reader.remaining]

/-- A request from Android 11. -/
example : enforce syst
    [0, 0, 0x40, 0, 0xff, 0xff, 0xff, 0xff, 0x54, 0x53, 0x59, 0x53, 1, 0, 0, 0, 0x49, 0, 0, 0, 5, 0, 0, 0] .aidl3 =
    some (nameOf ['I'] .aidl3, 20) := by decide +kernel

/-! ### HIDL strings and vectors -/

section Hidl
open Writer Reader Kernel

/-- C80: a HIDL string, wherever it is in a parcel, is read by Android as that string, and the next argument is
where Android expects it. -/
theorem C80_hidl_string {e : Env} {io : Io} {p : Protocol} {m : Mem} {pre post : List WOp}
    {w0 w1 w' : Writer} {addr : Nat → Nat} {dst : Mem} {b' : Bytes} {a : Nat} {s : Bytes}
    (h : Sent e io p m pre (.hidlString a) post w0 w1 w' addr dst b') (ha : a ≠ 0)
    (hs : w0.mem.cstr a = some s) (hl : s.length + 1 < 2 ^ 32) :
    Parcel.readString ⟨io, b', w'.offsets, dst⟩ w0.bytes.length = some (s, w1.bytes.length) := by
  obtain ⟨a', d, h1, h2, h3, h4, h5⟩ := C13.sent_string h ha hs
  exact string_of h hl h3 h4 h5

/-- C80 for gbinder_writer_append_hidl_string_copy. -/
theorem C80_hidl_copy {e : Env} {io : Io} {p : Protocol} {m : Mem} {pre post : List WOp}
    {w0 w1 w' : Writer} {addr : Nat → Nat} {dst : Mem} {b' : Bytes} {a em : Nat} {s : Bytes}
    (h : Sent e io p m pre (.hidlStringCopy a em) post w0 w1 w' addr dst b') (ha : a ≠ 0)
    (hs : w0.mem.cstr a = some s) (hem : em ≠ 0 ∧ w0.mem.cstr em = some []) (hl : s.length + 1 < 2 ^ 32) :
    Parcel.readString ⟨io, b', w'.offsets, dst⟩ w0.bytes.length = some (s, w1.bytes.length) := by
  obtain ⟨a', d, h1, h2, h3, h4, h5⟩ := C13.sent_copy h ha hs hem
  exact string_of h hl h3 h4 h5

/-- There are no NULL strings in HIDL: Android doesn't accept those which are sent by libgbinder (whose own reader
does, see C13). -/
theorem C80_hidl_null {e : Env} {io : Io} {p : Protocol} {m : Mem} {pre post : List WOp}
    {w0 w1 w' : Writer} {addr : Nat → Nat} {dst : Mem} {b' : Bytes}
    (h : Sent e io p m pre (.hidlString 0) post w0 w1 w' addr dst b') :
    Parcel.readString ⟨io, b', w'.offsets, dst⟩ w0.bytes.length = none :=
  null_of h

/-- C80: a vector, too. The size of an element is known to Android. -/
theorem C80_hidl_vec {e : Env} {io : Io} {p : Protocol} {m : Mem} {pre post : List WOp}
    {w0 w1 w' : Writer} {addr : Nat → Nat} {dst : Mem} {b' : Bytes} {base count elemsize : Nat}
    {bs : Bytes}
    (h : Sent e io p m pre (.hidlVec base count elemsize) post w0 w1 w' addr dst b')
    (hb : base ≠ 0) (h1 : 0 < elemsize) (hsz : count * elemsize < 2 ^ 32)
    (hl : w0.mem.load base (count * elemsize) = some bs) :
    Parcel.readVec ⟨io, b', w'.offsets, dst⟩ elemsize w0.bytes.length = some (count, bs, w1.bytes.length) := by
  have hpow := pow_ge io
  by_cases h0 : count = 0
  · subst h0
    obtain ⟨vec, hp, hm⟩ := C15.appendHidlVec_empty h.call (by rw [Nat.zero_mul])
    rw [Nat.zero_mul, load_zero_mem] at hl
    cases hl
    exact vec_of h (by rw [Nat.zero_mul]; exact hp)
      (by rw [hm]; exact load_block (C15.length_hidlVecBytes _ _ _) (by omega)) (by omega) (by omega)
      (by omega) (by rw [Nat.zero_mul, load_zero_mem])
  · obtain ⟨vec, buf, hp, hv, _, hlb⟩ := C15.sent_vec h hb (by omega) h1 hsz hl
    have hne : 0 < count * elemsize := Nat.mul_pos (by omega) h1
    obtain ⟨hlb', _, hbm⟩ := h.load hne hlb
    have hcl : count < 2 ^ 32 := by
      have := Nat.le_mul_of_pos_right count h1
      omega
    exact vec_of h hp hv hcl (by omega) (by omega) hlb'

/-- C80: and a vector of strings. -/
theorem C80_hidl_strings {e : Env} {io : Io} {p : Protocol} {m : Mem} {pre post : List WOp}
    {w0 w1 w' : Writer} {addr : Nat → Nat} {dst : Mem} {b' : Bytes} {strv : List Nat}
    {strs : List Bytes}
    (h : Sent e io p m pre (.hidlStringVec strv) post w0 w1 w' addr dst b')
    (h0 : 0 ∉ strv) (hs : strv.map w0.mem.cstr = strs.map some)
    (hn : 16 * strs.length < 2 ^ 32) (hl : ∀ s ∈ strs, s.length + 1 < 2 ^ 32) :
    Parcel.readStringVec ⟨io, b', w'.offsets, dst⟩ w0.bytes.length = some (strs, w1.bytes.length) :=
  stringVec_of h h0 hs hn hl

/-- Parcels with a string, a vector and a vector of strings in the middle, see also C13, C14 and C15. -/
example : (∃ w0 w1 w' dst b', Sent Demo.env .io64 .hidl Demo.mem
      [.int32 7, .hidlString 16] (.hidlString 16) [.hidlVec 16 3 1, .bool true]
      w0 w1 w' demoAddr dst b') ∧
    (∃ w0 w1 w' dst b', Sent Demo.env .io32 .hidl Demo.mem
      [.int32 7, .hidlString 16] (.hidlVec 64 5 4) [.hidlString 0] w0 w1 w' demoAddr dst b') ∧
    (∃ w0 w1 w' dst b', Sent Demo.env .io64 .hidl Demo.mem
      [.int32 7, .hidlString 16] (.hidlStringVec [16, 18, 16]) [.hidlVec 16 3 1, .bool true]
      w0 w1 w' demoAddr dst b') ∧
    (∃ w0 w1 w' dst b', Sent Demo.env .io64 .hidl Demo.mem
      [.int32 7] (.hidlString 0) [.hidlString 16] w0 w1 w' demoAddr dst b') ∧
    (∃ w0 w1 w' dst b', Sent Demo.env .io32 .hidl Demo.mem
      [] (.hidlStringCopy 16 18) [.hidlStringVec [16]] w0 w1 w' demoAddr dst b') :=
  ⟨demoSent_sound (by decide +kernel), demoSent_sound (by decide +kernel), demoSent_sound (by decide +kernel),
    demoSent_sound (by decide +kernel), demoSent_sound (by decide +kernel)⟩

/-- C80: a string which Android would read from what has been received is read by libgbinder too, unless there are
NULs in it. -/
theorem C80_hidl_string_received {c : Parcel} (hc : c.Delivered) {p q i : Nat} {s : Bytes}
    (h : c.readString p = some (s, q)) (hi : c.offs[i]? = some p) (h0 : (0 : Byte) ∉ s)
    (hl : s.length + 1 < 2 ^ 32) (pr : Protocol) :
    readHidlString c.mem (Reader.since c.io pr c.data c.offs p i) =
      .ok (some s) (Reader.since c.io pr c.data c.offs q (i + 2)) :=
  readString_inv hc h hi h0 hl pr

/-- C80: a vector, too. -/
theorem C80_hidl_vec_received {c : Parcel} (hc : c.Delivered) {p q i n size : Nat} {s : Bytes}
    (h : c.readVec size p = some (n, s, q)) (hi : c.offs[i]? = some p) (hz : 0 < size) (pr : Protocol) :
    ∃ ptr, readHidlVec c.mem (Reader.since c.io pr c.data c.offs p i) =
        .ok (some { ptr := ptr, count := n, elemsize := if n = 0 then 0 else size })
          (Reader.since c.io pr c.data c.offs q (i + 2)) ∧
      ptr ≠ 0 ∧ c.mem.load ptr (n * size) = some s :=
  readVec_inv hc h hi hz pr

/-- C80: and a vector of strings. -/
theorem C80_hidl_strings_received {c : Parcel} (hc : c.Delivered) {p q i : Nat} {l : List Bytes}
    (h : c.readStringVec p = some (l, q)) (hi : c.offs[i]? = some p)
    (hl : ∀ s ∈ l, (0 : Byte) ∉ s ∧ s.length + 1 < 2 ^ 32) (pr : Protocol) :
    ∃ j, readHidlStringVec c.mem (Reader.since c.io pr c.data c.offs p i) =
      .ok (some l) (Reader.since c.io pr c.data c.offs q j) :=
  readStringVec_inv hc h hi hl pr

/-- A vector with the string "hi" in it, followed by that string. -/
def demoParcel : Parcel where
  io := .io64
  data := [0x85, 0x2a, 0x74, 0x70, 0, 0, 0, 0] ++ leBytes 8 0x1000 ++ leBytes 8 16 ++ leBytes 8 0 ++ leBytes 8 0 ++
    [0x85, 0x2a, 0x74, 0x70, 1, 0, 0, 0] ++ leBytes 8 0x2000 ++ leBytes 8 16 ++ leBytes 8 0 ++ leBytes 8 0 ++
    [0x85, 0x2a, 0x74, 0x70, 1, 0, 0, 0] ++ leBytes 8 0x3000 ++ leBytes 8 3 ++ leBytes 8 1 ++ leBytes 8 0 ++
    [0x85, 0x2a, 0x74, 0x70, 0, 0, 0, 0] ++ leBytes 8 0x4000 ++ leBytes 8 16 ++ leBytes 8 0 ++ leBytes 8 0 ++
    [0x85, 0x2a, 0x74, 0x70, 1, 0, 0, 0] ++ leBytes 8 0x5000 ++ leBytes 8 3 ++ leBytes 8 3 ++ leBytes 8 0
  offs := [0, 40, 80, 120, 160]
  mem := [(0x1000, leBytes 8 0x2000 ++ [1, 0, 0, 0, 0, 0, 0, 0]), (0x2000, leBytes 8 0x3000 ++ [2, 0, 0, 0, 0, 0, 0, 0]),
    (0x3000, [0x68, 0x69, 0]), (0x4000, leBytes 8 0x5000 ++ [2, 0, 0, 0, 0, 0, 0, 0]), (0x5000, [0x68, 0x69, 0])]

theorem demoParcel_delivered : demoParcel.Delivered := by
  refine ⟨?_, by decide +kernel, ?_⟩
  · exact Option.isSome_iff_exists.mp (by decide +kernel)
  · have : ∀ o ∈ demoParcel.offs, ∃ a len par n, getObject demoParcel.io demoParcel.data o =
        some (.buffer a len par, n) ∧ a ≠ 0 := by
      intro o ho
      simp only [demoParcel, List.mem_cons, List.not_mem_nil, or_false] at ho
      rcases ho with rfl | rfl | rfl | rfl | rfl
      · exact ⟨0x1000, 16, none, 40, by decide +kernel⟩
      · exact ⟨0x2000, 16, some (0, 0), 40, by decide +kernel⟩
      · exact ⟨0x3000, 3, some (1, 0), 40, by decide +kernel⟩
      · exact ⟨0x4000, 16, none, 40, by decide +kernel⟩
      · exact ⟨0x5000, 3, some (3, 0), 40, by decide +kernel⟩
    intro o ho a len par n hg
    obtain ⟨a', len', par', n', hg', h⟩ := this o ho
    rw [hg] at hg'
    cases hg'
    exact h

example : demoParcel.Delivered ∧ demoParcel.readStringVec 0 = some ([[0x68, 0x69]], 120) ∧
    demoParcel.readString 120 = some ([0x68, 0x69], 200) ∧ demoParcel.offs[3]? = some 120 ∧
    demoParcel.readVec 16 0 = some (1, leBytes 8 0x3000 ++ [2, 0, 0, 0, 0, 0, 0, 0], 80) :=
  ⟨demoParcel_delivered, by decide +kernel, by decide +kernel, by decide +kernel, by decide +kernel⟩

end Hidl

end Gb.C80
