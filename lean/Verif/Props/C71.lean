import Verif.Props.C64
import Verif.Model.Messages
/-
C71. What an application reads from requests and replies with the functions of the requests and replies themselves.
-/
set_option autoImplicit false

namespace Gb.C71

open Client Call Kernel Msg
open C01 (Value)

/-- What a read function has to give if `x` comes first. -/
inductive Wanted (d : Delivery) : Item → Get → Option Val → Prop
  | int32 (v : UInt32) : Wanted d (.plain (.int32 v)) .int32 (some (.num v.toNat))
  | uint32 (v : UInt32) : Wanted d (.plain (.int32 v)) .uint32 (some (.num v.toNat))
  | int64 (v : UInt64) : Wanted d (.plain (.int64 v)) .int64 (some (.num v.toNat))
  | uint64 (v : UInt64) : Wanted d (.plain (.int64 v)) .uint64 (some (.num v.toNat))
  | string8 (s : Bytes) : Wanted d (.plain (.string8 s)) .string8 (some (.text s))
  | string16 (s : List Char) : Wanted d (.plain (.string16 (some s))) .string16 (some (.text (utf8Text s)))
  | null16 : Wanted d (.plain (.string16 none)) .string16 none
  | object (o : LocalRef) : Wanted d (.object o) .object (some (.object (d.node o.addr)))
  | remote (h h' : Nat) : d.other h = some h' → Wanted d (.remote h) .object (some (.object h'))

/-! ### Lemmas -/

theorem load_length {m : Mem} {a n : Nat} {b : Bytes} (h : m.load a n = some b) : b.length = n := by
  induction m with
  | nil =>
    unfold Mem.load at h
    split at h
    · rename_i h0; cases h; rw [h0]; rfl
    · cases h
  | cons x m ih =>
    obtain ⟨base, d⟩ := x
    unfold Mem.load at h
    split at h
    · rename_i h0; cases h; rw [h0]; rfl
    · simp only [] at h
      split at h
      · cases h
        simp only [List.length_take, List.length_drop]
        omega
      · exact ih h

theorem map_ok {α β : Type} {x : Res α} {f : α → β} {b : β} {r : Reader} (h : x.map f = .ok b r) :
    ∃ a, x = .ok a r ∧ f a = b := by
  cases x with
  | ok a r1 => cases h; exact ⟨a, rfl, rfl⟩
  | fail r1 => cases h
  | ub k => cases h

/-- The first item. -/
theorem first {d : Delivery} {x : Item} {k : Get} {v : Option Val} {r r1 : Reader} (hg : x.Got d r r1)
    (hw : Wanted d x k v) : readFirst r k = .ok v := by
  cases hw with
  | int32 v =>
    obtain ⟨a, h1, h2⟩ := map_ok (show (r.readUInt32.map C01.Seen.num) = _ from hg)
    simp only [Value.seen, C01.Seen.num.injEq] at h2
    simp only [readFirst, h1, result, h2]
  | uint32 v =>
    obtain ⟨a, h1, h2⟩ := map_ok (show (r.readUInt32.map C01.Seen.num) = _ from hg)
    simp only [Value.seen, C01.Seen.num.injEq] at h2
    simp only [readFirst, h1, result, h2]
  | int64 v =>
    obtain ⟨a, h1, h2⟩ := map_ok (show (r.readUInt64.map C01.Seen.num) = _ from hg)
    simp only [Value.seen, C01.Seen.num.injEq] at h2
    simp only [readFirst, h1, result, h2]
  | uint64 v =>
    obtain ⟨a, h1, h2⟩ := map_ok (show (r.readUInt64.map C01.Seen.num) = _ from hg)
    simp only [Value.seen, C01.Seen.num.injEq] at h2
    simp only [readFirst, h1, result, h2]
  | string8 s =>
    obtain ⟨a, h1, h2⟩ := map_ok (show (r.readString8.map C01.Seen.bytes) = _ from hg)
    simp only [Value.seen, C01.Seen.bytes.injEq] at h2
    simp only [readFirst, h1, result, h2]
  | string16 s =>
    obtain ⟨a, h1, h2⟩ := map_ok (show (r.readNullableString16.map C01.Seen.obytes) = _ from hg)
    simp only [Value.seen, C01.Seen.obytes.injEq] at h2
    simp only [readFirst, Reader.readString16, h1, result, h2, Option.map_some]
  | null16 =>
    obtain ⟨a, h1, h2⟩ := map_ok (show (r.readNullableString16.map C01.Seen.obytes) = _ from hg)
    simp only [Value.seen, C01.Seen.obytes.injEq] at h2
    simp only [readFirst, Reader.readString16, h1, result, h2, Option.map_none]
  | object o =>
    have h1 : r.readNullableObject = _ := hg
    simp only [readFirst, h1, result, Option.map_some]
  | remote h h' hh =>
    obtain ⟨h2, g1, g2⟩ := hg
    rw [hh] at g1
    cases g1
    simp only [readFirst, g2, result, Option.map_some]

/-- There's no first item if there's no data. -/
theorem nothing_first {d : Delivery} {x : Item} {k : Get} {v : Option Val} {r1 : Reader} {io : Io} {p : Protocol}
    {objs : List Nat} {reg : Bool} (hg : x.Got d (Reader.init io p [] objs reg 0 0) r1) (hw : Wanted d x k v) : False := by
  have hobj : ∀ h' : Option Nat, (Reader.init io p [] objs reg 0 0).readNullableObject ≠ .ok h' r1 := by
    intro h' hh
    unfold Reader.readNullableObject at hh
    split at hh
    · rw [if_neg (by cases io <;> simp [Reader.init, Reader.bytesRemaining, Reader.remaining, Io.flatSize])] at hh
      cases hh
    · cases hh
  cases hw with
  | object o => exact hobj _ hg
  | remote h h' hh => exact hobj _ hg.choose_spec.2
  | _ =>
    obtain ⟨a, h1, _⟩ := map_ok hg
    cases h1

/-- Nothing outside of the data is read. -/
theorem bounds {r : Reader} (h : r.Inside) (k : Get) : readFirst r k ≠ .error .oob := by
  have hw : ∀ {α : Type} {al ovf : Bool} {x : Res α} (f : α → Option Val), Reader.Safe al ovf r x →
      result f x ≠ .error .oob := by
    intro α al ovf x f hs
    cases x with
    | ok a r1 => simp [result]
    | fail r1 => simp [result]
    | ub q =>
      have := hs.1
      subst this
      simp [result]
  cases k with
  | int32 => exact hw _ (Reader.safe_readWord h 4 rfl)
  | uint32 => exact hw _ (Reader.safe_readWord h 4 rfl)
  | int64 => exact hw _ (Reader.safe_readWord h 8 rfl)
  | uint64 => exact hw _ (Reader.safe_readWord h 8 rfl)
  | string8 => exact hw _ (Reader.safe_readString8 h)
  | string16 => exact hw _ (Reader.safe_readString16 h)
  | object =>
    have hf := h.fin_eq
    have hp := h.pos_le
    have hps : 8 + r.io.ptrSize ≤ r.io.flatSize := by cases r.io <;> decide
    have h4 : 4 ≤ r.io.ptrSize := by cases r.io <;> decide
    simp only [readFirst]
    unfold Reader.readNullableObject
    split
    · split
      · rename_i hc
        have hin : r.pos + r.io.flatSize ≤ r.buf.length := by
          simp only [Reader.bytesRemaining, Reader.remaining, if_pos hp] at hc
          omega
        unfold Reader.deref
        rw [slice_isSome (by omega)]
        simp only []
        split
        · rw [slice_isSome (by omega)]
          simp [result]
        · split
          · rw [slice_isSome (by omega)]
            simp only []
            split <;> simp [result]
          · simp [result]
      · simp [result]
    · simp [result]

theorem header_end {p : Protocol} {code : Nat} {r : Reader} (h : r.Inside) :
    Reader.Safe true true r (readRpcHeader p code r) := by
  have hs16 : ∀ {r0 : Reader}, r0.Inside → Reader.Safe true true r0 r0.readString16 := fun h0 => Reader.safe_readString16 h0
  have hskip : ∀ {r0 : Reader} {f : Reader → Res (Option Bytes)}, r0.Inside →
      (∀ r1 : Reader, r1.Inside → Reader.Safe true true r1 (f r1)) → Reader.Safe true true r0 (skipInt r0 f) := by
    intro r0 f h0 hf
    have h1 := Reader.safe_readWord h0 4 rfl
    unfold skipInt Reader.readUInt32
    cases hx : r0.readWord 4 with
    | ok a r1 =>
      rw [hx] at h1
      exact Reader.Safe.trans h1 (hf r1 (Reader.Keeps.insideOf h1 h0))
    | fail r1 => rw [hx] at h1; exact h1
    | ub q => rw [hx] at h1; exact absurd h1.2 (by simp)
  cases p with
  | hidl =>
    have h1 := Reader.safe_readString8 h
    simp only [readRpcHeader]
    cases hx : r.readString8 with
    | ok a r1 => rw [hx] at h1; exact h1
    | fail r1 => rw [hx] at h1; exact h1
    | ub q => rw [hx] at h1; exact absurd h1.2 (by simp)
  | aidl =>
    simp only [readRpcHeader]
    split
    · exact Reader.Keeps.refl h
    · exact hskip h fun r1 h1 => hs16 h1
  | aidl2 =>
    simp only [readRpcHeader]
    split
    · exact Reader.Keeps.refl h
    · exact hskip h fun r1 h1 => hskip h1 fun r2 h2 => hs16 h2
  | aidl3 =>
    simp only [readRpcHeader]
    split
    · exact Reader.Keeps.refl h
    · exact hskip h fun r1 h1 => hskip h1 fun r2 h2 => hskip h2 fun r3 h3 => hs16 h3

/-- Requests never look outside of their data. -/
theorem setData_inside {io : Io} {p : Protocol} {code : Nat} {data : Bytes} {objects : List Nat} :
    match RemoteReq.setData io p code data objects with
    | .ok q => q.initReader.Inside ∧ q.headerSize ≤ data.length
    | .error k => k = .overflow := by
  have h0 : (RemoteReq.reader io p data objects 0).Inside := by
    constructor <;> simp [RemoteReq.reader, Reader.init]
  have hs := header_end (p := p) (code := code) h0
  unfold RemoteReq.setData
  cases hx : readRpcHeader p code (RemoteReq.reader io p data objects 0) with
  | ub k =>
    rw [hx] at hs
    exact hs.1
  | fail r1 =>
    simp only []
    exact ⟨by constructor <;> simp [RemoteReq.initReader, RemoteReq.reader, Reader.init], Nat.zero_le _⟩
  | ok iface r1 =>
    rw [hx] at hs
    simp only []
    have hk : Reader.Keeps true _ r1 := hs
    have hle : (if iface.isSome then r1.bytesRead else 0) ≤ data.length := by
      split
      · have h1 := hk.inside
        have h2 := hk.fin
        simp only [RemoteReq.reader, Reader.init] at h1 h2
        simp only [Reader.bytesRead]
        omega
      · exact Nat.zero_le _
    refine ⟨?_, hle⟩
    constructor
    · simp only [RemoteReq.initReader, RemoteReq.reader, Reader.init]
      omega
    · simp [RemoteReq.initReader, RemoteReq.reader, Reader.init]
    · simp [RemoteReq.initReader, RemoteReq.reader, Reader.init]

/-! ### Theorems -/

/-- C71, requests: what the sender has appended first is what each of the read functions gives; the interface and the
sender are known. The functions don't change the request, so that they give the same again. -/
theorem C71_request {e : Env} {q : Qsort} {io : Io} {p : Protocol} {m : Mem} {s : List Char} (hs : C18.NameOk s)
    {rs : List Range} (hn : Client.new e q io p m (some (utf8Text s)) = .ok rs) {w w' : Writer}
    (hw : firstRequest io p m rs = .ok w)
    {x : Item} {items : List Item} {d : Delivery} (hi : ∀ y ∈ x :: items, y.Ok io p m d.other)
    (hr : WOp.runAll e w ((x :: items).map Item.call) = .ok w')
    (small : w'.bytes.length < 2 ^ 32) (sane : w'.mem.Sane (256 ^ word io))
    {handle code bufPtr offPtr : Nat} {oneway : Bool} (hh : handle < 2 ^ 32)
    (hc : code < 2 ^ 32 ∧ (p = .hidl ∨ code ≤ 0x5f000000)) (hb : bufPtr < 256 ^ io.ptrSize) (ho : offPtr < 256 ^ io.ptrSize)
    {raw : Bytes}
    (k : Carried io (transactionCommand io w' handle code oneway bufPtr offPtr).1
      (transactionCommand io w' handle code oneway bufPtr offPtr).2 w'.bytes w'.mem d raw) :
    ∃ tx rq, decodeTransactionData io d.dst raw = .ok tx ∧ d.dst.load tx.data tx.size = some d.data ∧
      incoming io p tx d.data = .ok rq ∧
      Request.sender (some rq) = (d.pid, d.euid) ∧ Request.interface (some rq) = some (utf8Text s) ∧
      ∀ f v, Wanted d x f v → Request.read (some rq) f = .ok v := by
  obtain ⟨tx, rq, r, h1, _, _, _, h2, h3, _, h4, h5, h6, h7, h8, h9, _⟩ :=
    C64.C64_request hs hn hw hi hr small sane hh hc hb ho k
  obtain ⟨r1, g, _⟩ := h9
  refine ⟨tx, { pid := tx.pid, euid := tx.euid, req := some rq }, h1, h6, ?_, ?_, ?_, ?_⟩
  · rw [incoming, if_pos ⟨h4, h5⟩, h7]; rfl
  · simp only [Request.sender, h2, h3]
  · exact h8
  · intro f v hv
    exact first g hv

/-- C71, replies. -/
theorem C71_reply {e : Env} {o : Dispatch.Target} {m : Mem} {w' : Writer}
    {x : Item} {items : List Item} {d : Delivery} (hi : ∀ y ∈ x :: items, y.Ok o.io o.proto m d.other)
    (hr : WOp.runAll e (Dispatch.createReply m o) ((x :: items).map Item.call) = .ok w')
    (small : w'.bytes.length < 2 ^ 32) (sane : w'.mem.Sane (256 ^ word o.io))
    {bufPtr offPtr : Nat} (hb : bufPtr < 256 ^ o.io.ptrSize) (ho : offPtr < 256 ^ o.io.ptrSize)
    {raw : Bytes}
    (k : Carried o.io (replyCommand o.io w' bufPtr offPtr).1 (replyCommand o.io w' bufPtr offPtr).2 w'.bytes w'.mem d raw)
    (id : Nat) :
    ∃ tx, decodeTransactionData o.io d.dst raw = .ok tx ∧ d.dst.load tx.data tx.size = some d.data ∧
      ∀ f v, Wanted d x f v → Reply.read (some (answered o.io o.proto tx d.data id)) f = .ok v ∧
        Reply.isEmpty (some (answered o.io o.proto tx d.data id)) = false := by
  obtain ⟨tx, r, h1, _, h3, h4, h5, _⟩ := C64.C64_reply hi hr small sane hb ho k
  obtain ⟨r1, g, _⟩ := h5
  refine ⟨tx, h1, h4, ?_⟩
  intro f v hv
  have hlen := load_length h4
  have hne : tx.size ≠ 0 := by
    intro h0
    have hd : d.data = [] := List.length_eq_zero_iff.1 (by rw [hlen, h0])
    rw [h0, hd] at g
    exact nothing_first g hv
  rw [answered, if_pos ⟨h3, hne⟩]
  refine ⟨?_, ?_⟩
  · simp only [Reply.read, Reply.initReader, hlen]
    exact first g hv
  · simp [Reply.isEmpty, hlen, hne]

/-- C71, safety: whatever has been received, reading doesn't look outside of it. That's also the case for what's done
with a request before the application gets to it. -/
theorem C71_safe (io : Io) (p : Protocol) (tx : TxData) (data : Bytes) :
    incoming io p tx data ≠ .error .oob ∧
    (∀ q, incoming io p tx data = .ok q → ∀ f, Request.read (some q) f ≠ .error .oob) ∧
    ∀ id f, Reply.read (some (answered io p tx data id)) f ≠ .error .oob := by
  have hno : (noReader true).Inside := by constructor <;> decide
  have hs := setData_inside (io := io) (p := p) (code := tx.code) (data := data) (objects := tx.objects)
  refine ⟨?_, ?_, ?_⟩
  · unfold incoming
    split
    · cases hx : RemoteReq.setData io p tx.code data tx.objects with
      | ok q => simp [Except.map]
      | error k =>
        rw [hx] at hs
        simp only [] at hs
        subst hs
        simp [Except.map]
    · simp
  · intro q hq f
    unfold incoming at hq
    split at hq
    · cases hx : RemoteReq.setData io p tx.code data tx.objects with
      | ok q1 =>
        rw [hx] at hs hq
        cases hq
        exact bounds hs.1 f
      | error k => rw [hx] at hq; cases hq
    · cases hq
      exact bounds hno f
  · intro id f
    unfold answered
    split
    · exact bounds (r := Reader.init io p data tx.objects true 0 data.length)
        (by constructor <;> simp [Reader.init]) f
    · exact bounds hno f

/-- C71, nothing: if no data have been received, there's no interface and nothing to read. The sender is known. -/
theorem C71_nothing {io : Io} {p : Protocol} {tx : TxData} (h : tx.data = 0 ∨ tx.size = 0) (data : Bytes) :
    (∃ q, incoming io p tx data = .ok q ∧ Request.sender (some q) = (tx.pid, tx.euid) ∧
      Request.interface (some q) = none ∧ ∀ f, Request.read (some q) f = .ok none) ∧
    ∀ id, Reply.isEmpty (some (answered io p tx data id)) = true ∧
      ∀ f, Reply.read (some (answered io p tx data id)) f = .ok none := by
  have hn : ¬ (tx.data ≠ 0 ∧ tx.size ≠ 0) := by
    rcases h with h | h <;> simp [h]
  rw [incoming, if_neg hn]
  refine ⟨⟨_, rfl, rfl, rfl, ?_⟩, ?_⟩
  · intro f; cases f <;> rfl
  · intro id
    rw [answered, if_neg hn]
    exact ⟨rfl, by intro f; cases f <;> rfl⟩

/-- C71, a status: the reply which comes with it is empty. -/
theorem C71_status {io : Io} {p : Protocol} {ptr status : Nat} (hp : ptr < 256 ^ io.ptrSize) (hs : status < 2 ^ 32) {src : Mem}
    {d : Delivery} {raw : Bytes} (k : Carried io (statusReplyCommand io ptr) [] (leBytes 4 status) src d raw) :
    ∃ tx, decodeTransactionData io d.dst raw = .ok tx ∧ tx.status = status ∧
      ∀ data id, Reply.isEmpty (some (answered io p tx data id)) = true := by
  obtain ⟨tx, h1, h2, h3, _⟩ := C64.C64_status hp hs k
  exact ⟨tx, h1, h2, fun data id => ((C71_nothing (.inr h3) data).2 id).1⟩

/-- C71, NULL instead of a request or a reply is allowed. -/
theorem C71_null (e : Env) (f : Get) (l : List Put) :
    Request.read none f = .ok none ∧ Reply.read none f = .ok none ∧ Request.interface none = none ∧
    Request.sender none = (0xffffffff, 0xffffffff) ∧ Reply.isEmpty none = true ∧
    readFirst (Request.initReader none) f = .ok none ∧ readFirst (Reply.initReader none) f = .ok none ∧
    appendAll e none l = .ok none := by
  refine ⟨rfl, rfl, rfl, rfl, rfl, by cases f <;> rfl, by cases f <;> rfl, ?_⟩
  induction l with
  | nil => rfl
  | cons x l ih => exact ih

/-- The writer function with the same name. -/
def Put.op : Put → WOp
  | .bool v => .bool v
  | .int32 v => .int32 v
  | .int64 v => .int64 v
  | .float v => .int32 v
  | .double v => .int64 v
  | .string8 s => .string8 s
  | .string16 s => .string16 s
  | .hidlString s => .hidlString s
  | .hidlStringVec v => .hidlStringVec v
  | .localObject o => .localObject o
  | .remoteObject h => .remoteObject h
  | .fd n dup => .fd n dup

/-- C71, sending: the append functions put the same thing into the request or the reply as those of its writer. -/
theorem C71_append (e : Env) (w : Writer) (l : List Put) :
    appendAll e (some w) l = (WOp.runAll e w (l.map Put.op)).map some := by
  induction l generalizing w with
  | nil => rfl
  | cons x l ih =>
    have h1 : append e (some w) x = (WOp.run e w (Put.op x)).map some := by cases x <;> rfl
    simp only [appendAll, h1, List.map_cons, WOp.runAll]
    cases hx : WOp.run e w (Put.op x) with
    | error k => rfl
    | ok w1 => exact ih w1

/-- C71, from one end to the other: what was appended first with the append function of the request is what the read
function of the request gives. -/
theorem C71_both {e : Env} {q : Qsort} {io : Io} {p : Protocol} {m : Mem} {s : List Char} (hs : C18.NameOk s)
    {rs : List Range} (hn : Client.new e q io p m (some (utf8Text s)) = .ok rs) {w w' : Writer}
    (hw : firstRequest io p m rs = .ok w)
    {x : Item} {items : List Item} {l : List Put} (hl : l.map Put.op = (x :: items).map Item.call)
    {d : Delivery} (hi : ∀ y ∈ x :: items, y.Ok io p m d.other)
    (hr : appendAll e (some w) l = .ok (some w'))
    (small : w'.bytes.length < 2 ^ 32) (sane : w'.mem.Sane (256 ^ word io))
    {handle code bufPtr offPtr : Nat} {oneway : Bool} (hh : handle < 2 ^ 32)
    (hc : code < 2 ^ 32 ∧ (p = .hidl ∨ code ≤ 0x5f000000)) (hb : bufPtr < 256 ^ io.ptrSize) (ho : offPtr < 256 ^ io.ptrSize)
    {raw : Bytes}
    (k : Carried io (transactionCommand io w' handle code oneway bufPtr offPtr).1
      (transactionCommand io w' handle code oneway bufPtr offPtr).2 w'.bytes w'.mem d raw) :
    ∃ tx rq, decodeTransactionData io d.dst raw = .ok tx ∧ incoming io p tx d.data = .ok rq ∧
      ∀ f v, Wanted d x f v → Request.read (some rq) f = .ok v := by
  rw [C71_append, hl] at hr
  have hr' : WOp.runAll e w ((x :: items).map Item.call) = .ok w' := by
    cases hx : WOp.runAll e w ((x :: items).map Item.call) with
    | error k => rw [hx] at hr; cases hr
    | ok w1 => rw [hx] at hr; cases hr; rfl
  obtain ⟨tx, rq, h1, _, h3, _, _, h6⟩ := C71_request hs hn hw hi hr' small sane hh hc hb ho k
  exact ⟨tx, rq, h1, h3, h6⟩

/-! ### Examples -/

/-- The request of C64 begins with the number 7. -/
example (io : Io) : ∃ (tx : TxData) (rq : Request) (d : Delivery),
    incoming io .hidl tx d.data = .ok rq ∧ Request.read (some rq) .int32 = .ok (some (.num 7)) ∧
    Request.interface (some rq) = some (utf8Text ['x', '@', '1']) := by
  have hck : C64.checkRequest io false = true := by cases io <;> decide +kernel
  obtain ⟨rs, w, w', d, raw, h1, h2, h3, h4, _, h5, h6, h7⟩ := C64.checkRequest_sound hck
  obtain ⟨tx, rq, g1, _, g2, _, g3, g4⟩ := C71_request (s := ['x', '@', '1']) (by unfold C18.NameOk; decide +kernel) h1 h2
    (d := d) (by rw [h4]; exact C64.demoItems_ok io) h3 h5 h6 (by decide) ⟨by decide, .inl rfl⟩ (by cases io <;> decide)
    (by cases io <;> decide) h7
  exact ⟨tx, rq, d, g2, g4 _ _ (.int32 7), g3⟩

/-- So does the reply. -/
example (io : Io) : ∃ (w' : Writer) (d : Delivery) (raw : Bytes) (tx : TxData),
    WOp.runAll Demo.env (Dispatch.createReply Demo.mem { io := io, proto := .hidl, ifaces := [], txproc := true })
      (C64.demoItems.map Item.call) = .ok w' ∧ decodeTransactionData io d.dst raw = .ok tx ∧
    Reply.read (some (answered io .hidl tx d.data 1)) .uint32 = .ok (some (.num 7)) := by
  have h : C64.checkReply io = true := by cases io <;> decide +kernel
  unfold C64.checkReply at h
  split at h
  · cases h
  rename_i w' h2
  simp only [Bool.and_eq_true, decide_eq_true_eq, beq_iff_eq] at h
  obtain ⟨⟨⟨a1, a2⟩, a3⟩, a4⟩ := h
  obtain ⟨raw, hk⟩ := demoCarried_sound a4
  rw [a3] at hk
  obtain ⟨tx, g1, _, g2⟩ := C71_reply
    (o := { io := io, proto := .hidl, ifaces := [], txproc := true }) (d := demoDelivery w')
    (x := .plain (.int32 7)) (items := C64.demoItems.tail) (C64.demoItems_ok io) h2 a1 a2 (by cases io <;> decide) (by cases io <;> decide) hk 1
  exact ⟨w', _, raw, tx, h2, g1, (g2 _ _ (.uint32 7)).1⟩

def checkPut : Bool :=
  match Client.new Demo.env C45.qsort .io64 .aidl2 [] (some (utf8Text ['x'])) with
  | .error _ => false
  | .ok rs => match firstRequest .io64 .aidl2 [] rs with
    | .error _ => false
    | .ok w => match appendAll Demo.env (some w) [.string16 (some (utf8Text ['a', 'b'])), .int32 5] with
      | .ok (some w') => decide (w'.bytes.length < 2 ^ 32) && decide (w'.mem.Sane (256 ^ word .io64)) && w'.io == .io64 &&
          demoCarried w' (transactionCommand .io64 w' 5 11 false 0x5000 0x6000).1
            (transactionCommand .io64 w' 5 11 false 0x5000 0x6000).2
      | _ => false

/-- A call made with the append functions, a text and a number. -/
example : ∃ rs w w' d raw tx rq,
    Client.new Demo.env C45.qsort .io64 .aidl2 [] (some (utf8Text ['x'])) = .ok rs ∧ firstRequest .io64 .aidl2 [] rs = .ok w ∧
    appendAll Demo.env (some w) [.string16 (some (utf8Text ['a', 'b'])), .int32 5] = .ok (some w') ∧
    Carried .io64 (transactionCommand .io64 w' 5 11 false 0x5000 0x6000).1
      (transactionCommand .io64 w' 5 11 false 0x5000 0x6000).2 w'.bytes w'.mem d raw ∧
    decodeTransactionData .io64 d.dst raw = .ok tx ∧ incoming .io64 .aidl2 tx d.data = .ok rq ∧
    Request.read (some rq) .string16 = .ok (some (.text (utf8Text ['a', 'b']))) := by
  have h : checkPut = true := by decide +kernel
  unfold checkPut at h
  split at h
  · cases h
  rename_i rs h0
  split at h
  · cases h
  rename_i w h1
  split at h
  · rename_i w' h2
    simp only [Bool.and_eq_true, decide_eq_true_eq, beq_iff_eq] at h
    obtain ⟨⟨⟨a1, a2⟩, a3⟩, a4⟩ := h
    obtain ⟨raw, hk⟩ := demoCarried_sound a4
    rw [a3] at hk
    obtain ⟨tx, rq, g1, g2, g3⟩ := C71_both (s := ['x']) (by unfold C18.NameOk; decide +kernel) h0 h1
      (x := .plain (.string16 (some ['a', 'b']))) (items := [.plain (.int32 5)]) rfl (by
        intro y hy
        simp only [List.mem_cons, List.not_mem_nil, or_false] at hy
        rcases hy with rfl | rfl
        · simp only [Item.Ok, C01.Value.Ok]; decide +kernel
        · trivial) h2 a1 a2 (by decide) ⟨by decide, .inr (by decide)⟩ (by decide) (by decide) hk
    exact ⟨rs, w, w', _, raw, tx, rq, h0, h1, h2, hk, g1, g2, g3 _ _ (.string16 _)⟩
  · cases h

/-- Garbage: an object at the very end of the data. -/
example : ∃ tx q, incoming .io64 .aidl3 tx [0x61, 0x62, 0x63, 0x64] = .ok q ∧ tx.objects = [0] ∧
    Request.read (some q) .object = .ok none := by
  refine ⟨{ status := 0, code := 1, oneway := false, pid := 0, euid := 0, target := 0, data := 1, size := 4, objects := [0] },
    _, rfl, rfl, ?_⟩
  decide +kernel

end Gb.C71
