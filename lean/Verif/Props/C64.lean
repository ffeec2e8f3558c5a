import Verif.Lemmas.Call
import Verif.Lemmas.CallCheck
/-
C64: a call, end to end.
-/
set_option autoImplicit false

namespace Gb.C64

open Client Kernel Call

theorem items_run {e : Env} {w w' : Writer} {l : List Item} (h : WOp.runAll e w (l.map Item.call) = .ok w') :
    w'.io = w.io ∧ w.bytes.length ≤ w'.bytes.length := by
  obtain ⟨new, g⟩ := runAll_grows (al := false) h (C59.overwrite_free (calls_append l)) (by simp)
  obtain ⟨r, hr, _⟩ := g.tail
  exact ⟨g.io, by rw [hr, List.length_append]; omega⟩

/-- The table of offsets isn't too big. -/
theorem table_ok {e : Env} {io : Io} {p : Protocol} {m : Mem} {ops : List WOp} {w' : Writer}
    (h : WOp.runAll e { io := io, protocol := p, mem := m } ops = .ok w')
    (ha : ∀ off v, WOp.overwriteInt32 off v ∉ ops) (small : w'.bytes.length < 2 ^ 32) :
    (∀ o ∈ w'.offsets, o ≤ w'.bytes.length) ∧ w'.offsets.length * io.ptrSize < 256 ^ io.ptrSize := by
  have hpow : 2 ^ 32 ≤ 256 ^ io.ptrSize := by cases io <;> decide
  have hw8 : io.ptrSize ≤ 8 := by cases io <;> decide
  obtain ⟨hio, sl, hsl⟩ := runAll_built (al := false) h (C59.overwrite_free ha) (by simp)
  obtain ⟨b1, b2⟩ := getObjects_bound (hsl.placed.getObjects 0 (Nat.le_refl _))
  refine ⟨b1, ?_⟩
  cases hof : w'.offsets with
  | nil => simp only [List.length_nil, Nat.zero_mul]; omega
  | cons a l =>
    have h1 := b2 (by rw [hof]; simp)
    rw [hof] at h1
    have h2 : (a :: l).length * io.ptrSize ≤ (a :: l).length * 8 := Nat.mul_le_mul_left _ hw8
    omega

/-- What the kernel has made of a parcel, for the offsets of the writer. -/
theorem handed {io : Io} {tx : Tx} {table b : Bytes} {src : Mem} {d : Delivery} {raw : Bytes} {offs : List Nat}
    (h : Handed io tx table b src d raw) (hp : parseOffsets io table (tx.offsetsSize / word io) = offs) :
    Transfer io src b offs d.objs d.addr d.dst d.data ∧ References io b offs d.objs d.node d.other d.data ∧
    Installed io b offs d.objs d.fd d.data := by
  subst hp
  exact ⟨h.transfer, h.references, h.installed⟩

/-- C64, the request: whatever a client puts into a request arrives. The process which has the object behind the
handle is told its code, whether it's one-way and who has sent it; it's for that very object; the interface is
that of the client; reading gives the items one after another, after which there's nothing left. -/
theorem C64_request {e : Env} {q : Qsort} {io : Io} {p : Protocol} {m : Mem} {s : List Char} (hs : C18.NameOk s)
    {rs : List Range} (hn : Client.new e q io p m (some (utf8Text s)) = .ok rs) {w w' : Writer}
    (hw : firstRequest io p m rs = .ok w)
    {items : List Item} {d : Delivery} (hi : ∀ x ∈ items, x.Ok io p m d.other)
    (hr : WOp.runAll e w (items.map Item.call) = .ok w')
    (small : w'.bytes.length < 2 ^ 32) (sane : w'.mem.Sane (256 ^ word io))
    {handle code bufPtr offPtr : Nat} {oneway : Bool} (hh : handle < 2 ^ 32)
    (hc : code < 2 ^ 32 ∧ (p = .hidl ∨ code ≤ 0x5f000000)) (hb : bufPtr < 256 ^ io.ptrSize) (ho : offPtr < 256 ^ io.ptrSize)
    {raw : Bytes}
    (k : Carried io (transactionCommand io w' handle code oneway bufPtr offPtr).1
      (transactionCommand io w' handle code oneway bufPtr offPtr).2 w'.bytes w'.mem d raw) :
    ∃ tx rq r, decodeTransactionData io d.dst raw = .ok tx ∧ tx.status = 0 ∧ tx.code = code ∧ tx.oneway = oneway ∧
      tx.pid = d.pid ∧ tx.euid = d.euid ∧ tx.target = d.owner handle ∧ tx.data ≠ 0 ∧ tx.size ≠ 0 ∧
      d.dst.load tx.data tx.size = some d.data ∧
      RemoteReq.setData io p tx.code d.data tx.objects = .ok rq ∧ rq.iface = some (utf8Text s) ∧
      GotAll d rq.initReader items r ∧ C33.AtEnd r := by
  obtain ⟨g1, g2, g3, g4⟩ := C59.request hs hn hw
  obtain ⟨tx, k1, k2⟩ := k
  have hpow : 2 ^ 32 ≤ 256 ^ io.ptrSize := by cases io <;> decide
  have htab := table_ok (C59.runAll_append g1 hr) (by
    intro off v hm
    rcases List.mem_append.1 hm with hm | hm
    · exact C59.headerOps_append off v hm
    · exact calls_append items off v hm) small
  obtain ⟨tx', c1, c2, c3, c4, c5, c6, c7, c8, c9, _, c10⟩ :=
    C55.C55_transaction io w' handle code bufPtr offPtr oneway hh hc.1 hb ho (by omega) htab.2 htab.1
  rw [k1] at c1
  cases c1
  obtain ⟨t, t1, t2⟩ := handed k2 c10
  have hfl : tx.flags / 8 % 2 = 0 ∧ (decide (tx.flags % 2 = 1)) = oneway := by
    have hone : oneway = true → tx.flags = 1 := by
      intro h1
      have := k1
      subst h1
      unfold transactionCommand fillTransactionData at this
      simp only [if_true] at this
      split at this <;> split at this
      all_goals
        first
        | rw [parseTx_sg io _ .transactionSg _ (.inl rfl)] at this
        | rw [parseTx_plain io _ .transaction (.inl rfl)] at this
        cases this
        rfl
    cases oneway with
    | true => rw [hone rfl]; decide
    | false => rw [c6 rfl]; decide
  have hd := decoded k2 hfl.1 c9 c10 small
  obtain ⟨rq, q1, q2, q3⟩ := C59.incoming hs g2 g1 (calls_append items) hr t hc.2
  have hg := gotAll small sane t t1 t2 items g1 C59.headerOps_append (by
    intro m'; cases p <;> simp [C59.headerOps]) hr hi
  have hg' := GotAll.startAt w.bytes.length hg
  rw [g3, List.length_nil, ← q3] at hg'
  have hne : w'.bytes.length ≠ 0 := by
    have h1 := (items_run hr).2
    have h2 : w.bytes.length ≠ 0 := by
      intro h0
      obtain ⟨w1, hw1, hlen, _⟩ := C18.C18_header e io p m s hs
      rw [g2] at hw1
      cases hw1
      omega
    omega
  refine ⟨_, rq, _, hd, rfl, c4, hfl.2, rfl, rfl, ?_, k2.mapped.1, hne, k2.mapped.2, ?_, q2, hg', ?_⟩
  · simp only []
    rw [k2.target c2, c3]
  · simp only []
    rw [c4]; exact q1
  · have := C33.since_end io p (w := w') t.size
    exact this

/-- C64, the reply: what the object puts into a reply is what the client reads from it. -/
theorem C64_reply {e : Env} {o : Dispatch.Target} {m : Mem} {w' : Writer}
    {items : List Item} {d : Delivery} (hi : ∀ x ∈ items, x.Ok o.io o.proto m d.other)
    (hr : WOp.runAll e (Dispatch.createReply m o) (items.map Item.call) = .ok w')
    (small : w'.bytes.length < 2 ^ 32) (sane : w'.mem.Sane (256 ^ word o.io))
    {bufPtr offPtr : Nat} (hb : bufPtr < 256 ^ o.io.ptrSize) (ho : offPtr < 256 ^ o.io.ptrSize)
    {raw : Bytes}
    (k : Carried o.io (replyCommand o.io w' bufPtr offPtr).1 (replyCommand o.io w' bufPtr offPtr).2 w'.bytes w'.mem d raw) :
    ∃ tx r, decodeTransactionData o.io d.dst raw = .ok tx ∧ tx.status = 0 ∧ tx.data ≠ 0 ∧
      d.dst.load tx.data tx.size = some d.data ∧
      GotAll d (Reader.init o.io o.proto d.data tx.objects true 0 tx.size) items r ∧ C33.AtEnd r := by
  obtain ⟨tx, k1, k2⟩ := k
  have hpow : 2 ^ 32 ≤ 256 ^ o.io.ptrSize := by cases o.io <;> decide
  have htab := table_ok hr (calls_append items) small
  obtain ⟨tx', c1, c2, c3, c4, c5, c6, _, c7⟩ := C55.C55_reply o.io w' bufPtr offPtr hb ho (by omega) htab.2 htab.1
  rw [k1] at c1
  cases c1
  obtain ⟨t, t1, t2⟩ := handed k2 c7
  have hd := decoded k2 (by rw [c3]) c6 c7 small
  have hg := gotAll (pre := []) small sane t t1 t2 items rfl (by simp) (by simp) hr hi
  refine ⟨_, _, hd, rfl, k2.mapped.1, k2.mapped.2, ?_, C33.since_end o.io o.proto (w := w') t.size⟩
  have he : (Reader.init o.io o.proto d.data w'.offsets true 0 w'.bytes.length) =
      Reader.since o.io o.proto d.data w'.offsets 0 0 := by
    simp [Reader.since, Reader.init, t.size]
  simp only []
  rw [he]
  exact hg

/-- C64, errors: a status which is sent instead of a reply is what the client is told. -/
theorem C64_status {io : Io} {ptr status : Nat} (hp : ptr < 256 ^ io.ptrSize) (hs : status < 2 ^ 32) {src : Mem}
    {d : Delivery} {raw : Bytes} (k : Carried io (statusReplyCommand io ptr) [] (leBytes 4 status) src d raw) :
    ∃ tx, decodeTransactionData io d.dst raw = .ok tx ∧ tx.status = status ∧ tx.size = 0 ∧ tx.objects = [] := by
  obtain ⟨tx, k1, k2⟩ := k
  obtain ⟨tx', c1, _, _, c4, c5, _, c7⟩ := C55.C55_status io ptr hp
  rw [k1] at c1
  cases c1
  have hz : parseOffsets io [] (tx.offsetsSize / word io) = [] := by rw [c7, Nat.zero_div]; rfl
  obtain ⟨t, _, _⟩ := handed k2 hz
  have hdata : d.data = leBytes 4 status := by
    apply List.ext_getElem?
    intro i
    by_cases h : i < (leBytes 4 status).length
    · exact t.data i h (by intro j o x n hj; simp at hj)
    · rw [List.getElem?_eq_none (by rw [t.size]; omega), List.getElem?_eq_none (by omega)]
  have hd := decode_header k2.length
  rw [k2.buffer, k2.flags, c4] at hd
  unfold decodeTransactionData
  rw [hd]
  have hl : d.dst.load d.buffer 4 = some (leBytes 4 status) := by
    have := k2.mapped.2
    rwa [length_leBytes, hdata] at this
  simp only [Writer.loadU32, Writer.loadBytes, hl]
  exact ⟨_, rfl, leVal_leBytes_of_lt (by simpa using hs), rfl, rfl⟩

/-- C64, calling back: if an object is passed to another process, and that makes a call with the handle which it has
read, then the call is for that object. -/
theorem C64_callback {e : Env} {q : Qsort} {io : Io} {p : Protocol} {m : Mem} {s : List Char} (hs : C18.NameOk s)
    {rs : List Range} (hn : Client.new e q io p m (some (utf8Text s)) = .ok rs) {w w' : Writer}
    (hw : firstRequest io p m rs = .ok w)
    {items : List Item} {d d' : Delivery} (hi : ∀ x ∈ items, x.Ok io p m d'.other)
    (hr : WOp.runAll e w (items.map Item.call) = .ok w')
    (small : w'.bytes.length < 2 ^ 32) (sane : w'.mem.Sane (256 ^ word io))
    {o : LocalRef} {r r' : Reader} {handle : Nat} (hg : (Item.object o).Got d r r')
    (hread : r.readNullableObject = .ok (some handle) r')
    {code bufPtr offPtr : Nat} {oneway : Bool} (hh : handle < 2 ^ 32)
    (hc : code < 2 ^ 32 ∧ (p = .hidl ∨ code ≤ 0x5f000000)) (hb : bufPtr < 256 ^ io.ptrSize) (ho : offPtr < 256 ^ io.ptrSize)
    {raw : Bytes}
    (k : Carried io (transactionCommand io w' handle code oneway bufPtr offPtr).1
      (transactionCommand io w' handle code oneway bufPtr offPtr).2 w'.bytes w'.mem d' raw)
    (same : d'.owner (d.node o.addr) = o.addr) :
    ∃ tx, decodeTransactionData io d'.dst raw = .ok tx ∧ tx.target = o.addr ∧ tx.code = code := by
  obtain ⟨tx, rq, r1, h1, _, h2, _, _, _, h3, _⟩ := C64_request hs hn hw hi hr small sane hh hc hb ho k
  simp only [Item.Got] at hg
  rw [hg] at hread
  cases hread
  exact ⟨tx, h1, by rw [h3, same], h2⟩

/-! ### Examples -/

/-- Some of everything. -/
def demoItems : List Item :=
  [.plain (.int32 7), .hidlString 16 [0x61, 0x62], .object { addr := 0x1100, stability := 12 }, .remote 3,
   .file 5 (some 9), .hidlStringVec [16, 16] [[0x61, 0x62], [0x61, 0x62]], .hidlVec 16 3 1 [0x61, 0x62, 0],
   .hidlNull, .plain (.string8 [0x61]), .hidlVecEmpty 0 4, .plain (.bool true)]

def checkRequest (io : Io) (oneway : Bool) : Bool :=
  match Client.new Demo.env C45.qsort io .hidl Demo.mem (some (utf8Text ['x', '@', '1'])) with
  | .error _ => false
  | .ok rs => match firstRequest io .hidl Demo.mem rs with
    | .error _ => false
    | .ok w => match WOp.runAll Demo.env w (demoItems.map Item.call) with
      | .error _ => false
      | .ok w' => decide (w'.bytes.length < 2 ^ 32) && decide (w'.mem.Sane (256 ^ word io)) && w'.io == io &&
          demoCarried w' (transactionCommand io w' 5 11 oneway 0x5000 0x6000).1
            (transactionCommand io w' 5 11 oneway 0x5000 0x6000).2

theorem checkRequest_sound {io : Io} {oneway : Bool} (h : checkRequest io oneway = true) : ∃ rs w w' d raw,
    Client.new Demo.env C45.qsort io .hidl Demo.mem (some (utf8Text ['x', '@', '1'])) = .ok rs ∧
    firstRequest io .hidl Demo.mem rs = .ok w ∧ WOp.runAll Demo.env w (demoItems.map Item.call) = .ok w' ∧
    d.other = some ∧ d.owner = (0x1000 + ·) ∧ w'.bytes.length < 2 ^ 32 ∧ w'.mem.Sane (256 ^ word io) ∧
    Carried io (transactionCommand io w' 5 11 oneway 0x5000 0x6000).1
      (transactionCommand io w' 5 11 oneway 0x5000 0x6000).2 w'.bytes w'.mem d raw := by
  unfold checkRequest at h
  split at h
  · cases h
  rename_i rs h0
  split at h
  · cases h
  rename_i w h1
  split at h
  · cases h
  rename_i w' h2
  simp only [Bool.and_eq_true, decide_eq_true_eq, beq_iff_eq] at h
  obtain ⟨⟨⟨a1, a2⟩, a3⟩, a4⟩ := h
  obtain ⟨raw, hk⟩ := demoCarried_sound a4
  rw [a3] at hk
  exact ⟨rs, w, w', _, raw, h0, h1, h2, rfl, rfl, a1, a2, hk⟩

theorem demoItems_ok (io : Io) : ∀ x ∈ demoItems, x.Ok io .hidl Demo.mem some := by
  intro x hx
  simp only [demoItems, List.mem_cons, List.not_mem_nil, or_false] at hx
  rcases hx with rfl | rfl | rfl | rfl | rfl | rfl | rfl | rfl | rfl | rfl | rfl <;> simp only [Item.Ok, C01.Value.Ok]
  all_goals first
    | trivial
    | decide +kernel
    | (cases io <;> decide +kernel)

/-- The hypotheses of `C64_request` are met by a request with some of everything, for both ABIs. -/
example (io : Io) (oneway : Bool) : ∃ (tx : TxData) (rq : RemoteReq) (r : Reader) (d : Delivery), tx.code = 11 ∧ tx.oneway = oneway ∧ tx.target = d.owner 5 ∧
    RemoteReq.setData io .hidl tx.code d.data tx.objects = .ok rq ∧
    GotAll d rq.initReader demoItems r ∧ C33.AtEnd r := by
  have hck : checkRequest io oneway = true := by cases io <;> cases oneway <;> decide +kernel
  obtain ⟨rs, w, w', d, raw, h1, h2, h3, h4, _, h5, h6, h7⟩ := checkRequest_sound hck
  obtain ⟨tx, rq, r, g⟩ := C64_request (s := ['x', '@', '1']) (by unfold C18.NameOk; decide +kernel) h1 h2 (d := d)
    (by rw [h4]; exact demoItems_ok io) h3 h5 h6 (by decide) ⟨by decide, .inl rfl⟩ (by cases io <;> decide)
    (by cases io <;> decide) h7
  exact ⟨tx, rq, r, d, g.2.2.1, g.2.2.2.1, g.2.2.2.2.2.2.1, g.2.2.2.2.2.2.2.2.2.2.1, g.2.2.2.2.2.2.2.2.2.2.2.2⟩

def checkReply (io : Io) : Bool :=
  match WOp.runAll Demo.env (Dispatch.createReply Demo.mem { io := io, proto := .hidl, ifaces := [], txproc := true }) (demoItems.map Item.call) with
  | .error _ => false
  | .ok w' => decide (w'.bytes.length < 2 ^ 32) && decide (w'.mem.Sane (256 ^ word io)) && w'.io == io &&
      demoCarried w' (replyCommand io w' 0x5000 0x6000).1 (replyCommand io w' 0x5000 0x6000).2

/-- So are those of `C64_reply`. -/
example (io : Io) : ∃ (w' : Writer) (d : Delivery) (raw : Bytes),
    WOp.runAll Demo.env (Dispatch.createReply Demo.mem { io := io, proto := .hidl, ifaces := [], txproc := true })
      (demoItems.map Item.call) = .ok w' ∧
    (∀ x ∈ demoItems, x.Ok io .hidl Demo.mem d.other) ∧ w'.bytes.length < 2 ^ 32 ∧ w'.mem.Sane (256 ^ word io) ∧
    Carried io (replyCommand io w' 0x5000 0x6000).1 (replyCommand io w' 0x5000 0x6000).2 w'.bytes w'.mem d raw := by
  have h : checkReply io = true := by cases io <;> decide +kernel
  unfold checkReply at h
  split at h
  · cases h
  rename_i w' h2
  simp only [Bool.and_eq_true, decide_eq_true_eq, beq_iff_eq] at h
  obtain ⟨⟨⟨a1, a2⟩, a3⟩, a4⟩ := h
  obtain ⟨raw, hk⟩ := demoCarried_sound a4
  rw [a3] at hk
  exact ⟨w', _, raw, h2, demoItems_ok io, a1, a2, hk⟩

/-- And those of `C64_status`. -/
example (io : Io) : ∃ (d : Delivery) (raw : Bytes),
    Carried io (statusReplyCommand io 0x5000) [] (leBytes 4 0xffffffb6) [] d raw := by
  have h : demoCarried { io := io, protocol := .hidl, bytes := leBytes 4 0xffffffb6 } (statusReplyCommand io 0x5000) []
      = true := by cases io <;> decide +kernel
  obtain ⟨raw, hk⟩ := demoCarried_sound h
  exact ⟨_, raw, hk⟩

/-- `C64_callback`: handles are the addresses minus 0x1000 in one direction, and the other way around in the
other. The object is in the reply which the caller has got before. -/
example : ∃ (d d' : Delivery) (o : LocalRef) (r r' : Reader) (raw : Bytes) (rs : List Range) (w w' : Writer),
    (Item.object o).Got d r r' ∧ r.readNullableObject = .ok (some 5) r' ∧
    Client.new Demo.env C45.qsort .io64 .hidl Demo.mem (some (utf8Text ['x', '@', '1'])) = .ok rs ∧
    firstRequest .io64 .hidl Demo.mem rs = .ok w ∧ WOp.runAll Demo.env w (demoItems.map Item.call) = .ok w' ∧
    Carried .io64 (transactionCommand .io64 w' 5 11 false 0x5000 0x6000).1
      (transactionCommand .io64 w' 5 11 false 0x5000 0x6000).2 w'.bytes w'.mem d' raw ∧
    d'.owner 5 = o.addr ∧ d'.owner (d.node o.addr) = o.addr := by
  have hck : checkRequest .io64 false = true := by decide +kernel
  obtain ⟨rs, w, w', d', raw, h1, h2, h3, h4, h0, h5, h6, h7⟩ := checkRequest_sound hck
  have hr : ∃ r r' : Reader, r.readNullableObject = .ok (some 5) r' :=
    ⟨Reader.init .io64 .hidl (leBytes 4 tHandle ++ leBytes 4 0 ++ leBytes 8 5 ++ leBytes 8 0) [0] true 0 24, _,
      by rfl⟩
  obtain ⟨r, r', hr⟩ := hr
  exact ⟨{ d' with node := fun a => a - 0x1000 }, d', { addr := 0x1005, stability := 0 }, r, r', raw, rs, w, w', hr, hr, h1,
    h2, h3, h7, by rw [h0], by simp only [h0]⟩

end Gb.C64
