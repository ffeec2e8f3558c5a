import Verif.Lemmas.Start
import Verif.Spec.Codes
import Verif.Lemmas.ReferencesCheck
import Verif.Props.C13
import Verif.Props.C19
import Verif.Props.C33
import Verif.Props.C45
/-
C59: what is registered is what the service manager hears about.
-/
set_option autoImplicit false

namespace Gb.C59

open Client Kernel
open C01 (Value)

/-- The calls which write the RPC header. -/
def headerOps (p : Protocol) (s : List Char) : List WOp :=
  match p with
  | .aidl => [.int32 rpcFlags, .string16 (some (utf8Text s))]
  | .aidl2 => [.int32 rpcFlags, .int32 unsetWorkSource, .string16 (some (utf8Text s))]
  | .aidl3 => [.int32 rpcFlags, .int32 unsetWorkSource, .int32 sysHeader, .string16 (some (utf8Text s))]
  | .hidl => [.string8 (some (utf8Text s))]

theorem headerOps_run {e : Env} {w : Writer} {p : Protocol} {s : List Char} :
    WOp.runAll e w (headerOps p s) = writeRpcHeader e w p (utf8Text s) := by
  have hm : ∀ x : Except UB Writer, (x >>= fun v => Except.ok v) = x := by
    intro x; cases x <;> rfl
  cases p <;> simp only [headerOps, WOp.runAll, WOp.run, writeRpcHeader, hm]

theorem headerOps_append {p : Protocol} {s : List Char} : ∀ off v, WOp.overwriteInt32 off v ∉ headerOps p s := by
  intro off v
  cases p <;> simp [headerOps]

/-- New requests of the client are those which begin with the header. -/
theorem request {e : Env} {q : Qsort} {io : Io} {p : Protocol} {m : Mem} {s : List Char} (hs : C18.NameOk s)
    {rs : List Range} (h : Client.new e q io p m (some (utf8Text s)) = .ok rs) {w : Writer}
    (hw : firstRequest io p m rs = .ok w) :
    WOp.runAll e { io := io, protocol := p, mem := m } (headerOps p s) = .ok w ∧
    clientNewRequest e io p m (some (utf8Text s)) = .ok w ∧ w.offsets = [] ∧ w.mem = m := by
  obtain ⟨w0, h1, _, _, h2, _⟩ := C45.C45_single (code := 0) h (by decide)
  rw [hw] at h2
  cases h2
  have h3 := h1
  simp only [newRequestIface, C18.write_header hs] at h3
  cases h3
  refine ⟨?_, ?_, rfl, rfl⟩
  · rw [headerOps_run, C18.write_header hs]
    rfl
  · simp only [clientNewRequest, rangeHeader, newRequestIface, C18.write_header hs, bind, Except.bind, Except.map]

/-- The code which is used is that of the method. -/
theorem C59_code (kind : Kind) : kind.addCode = Codes.code kind .add := by cases kind <;> decide

theorem overwrite_free {ops : List WOp} (ha : ∀ off v, WOp.overwriteInt32 off v ∉ ops) :
    ∀ op ∈ ops, op.isAppend = true := by
  intro op hop
  cases op <;> first | rfl | exact absurd hop (ha _ _)

/-- The request at the receiving end: the interface has been recognised, the reader is positioned after the
header. -/
theorem incoming {e : Env} {io : Io} {p : Protocol} {m : Mem} {s : List Char} (hs : C18.NameOk s) {w w' : Writer}
    (hw : clientNewRequest e io p m (some (utf8Text s)) = .ok w)
    (h0 : WOp.runAll e { io := io, protocol := p, mem := m } (headerOps p s) = .ok w)
    {ops : List WOp} (ha : ∀ off v, WOp.overwriteInt32 off v ∉ ops) (h1 : WOp.runAll e w ops = .ok w')
    {src dst : Mem} {objs : List KObj} {addr : Nat → Nat} {b' : Bytes}
    (t : Transfer io src w'.bytes w'.offsets objs addr dst b') {code : Nat} (hc : p = .hidl ∨ code ≤ 0x5f000000) :
    ∃ rq, RemoteReq.setData io p code b' w'.offsets = .ok rq ∧ rq.iface = some (utf8Text s) ∧
      rq.initReader = (Reader.since io p b' w'.offsets w.bytes.length 0).startAt w.bytes.length := by
  obtain ⟨w1, hw1, _, _, hq⟩ := C18.C18_header e io p m s hs
  rw [hw] at hw1
  cases hw1
  obtain ⟨new, g⟩ := runAll_grows (al := false) h1 (overwrite_free ha) (by simp)
  have hwb : w = { io := io, protocol := p, mem := m, bytes := w.bytes } := by
    have := hw
    simp only [clientNewRequest, rangeHeader, newRequestIface, C18.write_header hs, bind, Except.bind, Except.map] at this
    cases this
    rfl
  have g' : Grows false { io := io, protocol := p, mem := m, bytes := w.bytes } w' new := by
    rw [← hwb]; exact g
  obtain ⟨y, hy⟩ := kept (w0 := { io := io, protocol := p, mem := m }) (d := w.bytes) (n := 0) (s := []) (al := false) rfl
    .nil (rest := new) (by simpa using g') t
  obtain ⟨rq, c1, c2, c3, _, _, c6, c7⟩ := hq code hc y w'.offsets
  have hb : b' = w.bytes ++ y := by simpa using hy
  rw [← hb] at c1 c7
  refine ⟨rq, c1, c2, ?_⟩
  have hh : rq.headerSize = w.bytes.length := c3
  have hrq : rq.io = io ∧ rq.protocol = p ∧ rq.data = b' ∧ rq.objects = w'.offsets := by
    unfold RemoteReq.setData at c1
    split at c1
    · cases c1
    · cases c1; exact ⟨rfl, rfl, rfl, rfl⟩
    · cases c1; exact ⟨rfl, rfl, rfl, rfl⟩
  obtain ⟨d1, d2, d3, d4⟩ := hrq
  simp only [RemoteReq.initReader, RemoteReq.reader, Reader.init, Reader.since, Reader.startAt, d1, d2, d3, d4, hh,
    Reader.mk.injEq, true_and, List.drop_zero, and_true]
  rw [hb]
  simp

/-- The rest of the request. -/
def tail : Kind → List Value
  | .aidl => [.int32 0]
  | .aidl2 | .aidl3 => [.int32 0, .int32 8]
  | .aidl4 => [.int32 0x0c000001, .int32 0, .int32 8]
  | .hidl => []

def tailOps (k : Kind) : List WOp := (tail k).map fun
  | .int32 v => .int32 v
  | _ => .bytes []

theorem tail_ok (k : Kind) : ∀ v ∈ tail k, v.Ok := by
  cases k <;> simp [tail, Value.Ok]

theorem tail_run {e : Env} {w : Writer} {k : Kind} : WOp.runAll e w (tailOps k) = C01.writeAll e w (tail k) := by
  cases k <;> simp [tailOps, tail, WOp.runAll, C01.writeAll, WOp.run, Value.write]

theorem ops_aidl {name : Bytes} {a : Nat} {o : LocalRef} {k : Kind} (hk : k ≠ .hidl) :
    addServiceOps name a o k = .string16 (some name) :: .localObject (some o) :: tailOps k := by
  cases k <;> first | rfl | exact absurd rfl hk

theorem tail_append {k : Kind} : ∀ off v, WOp.overwriteInt32 off v ∉ tailOps k := by
  intro off v
  cases k <;> simp [tailOps, tail]

theorem runAll_split {e : Env} {w w' : Writer} {op : WOp} {ops : List WOp} (h : WOp.runAll e w (op :: ops) = .ok w') :
    ∃ w1, op.run e w = .ok w1 ∧ WOp.runAll e w1 ops = .ok w' := by
  simp only [WOp.runAll, bind, Except.bind] at h
  cases hr : op.run e w with
  | error k => rw [hr] at h; cases h
  | ok w1 => rw [hr] at h; exact ⟨w1, rfl, h⟩

theorem runAll_append {e : Env} {w w1 w2 : Writer} {a b : List WOp} (h1 : WOp.runAll e w a = .ok w1)
    (h2 : WOp.runAll e w1 b = .ok w2) : WOp.runAll e w (a ++ b) = .ok w2 := by
  induction a generalizing w with
  | nil => cases h1; exact h2
  | cons op a ih =>
    obtain ⟨v, hv, h1⟩ := runAll_split h1
    simp only [List.cons_append, WOp.runAll, bind, Except.bind, hv]
    exact ih h1

theorem tail_ints (k : Kind) : ∀ x ∈ (tail k).map Value.ty, x = C01.Ty.int32 := by
  cases k <;> simp [tail, Value.ty]

theorem readAll_startAt (n : Nat) (l : List C01.Ty) (h : ∀ x ∈ l, x = C01.Ty.int32) {r : Reader} :
    C01.readAll (r.startAt n) l = (C01.readAll r l).startAt n := by
  induction l generalizing r with
  | nil => rfl
  | cons a l ih =>
    cases h a List.mem_cons_self
    simp only [C01.readAll, C01.Ty.read, Reader.readUInt32_startAt]
    cases r.readUInt32 with
    | fail r => rfl
    | ub k => rfl
    | ok v r1 =>
      simp only [Res.startAt, Res.map, Res.bind]
      rw [ih fun x hx => h x (List.mem_cons_of_mem _ hx)]
      cases C01.readAll r1 l <;> rfl

/-- C59: with all versions of the AIDL service manager, the manager which receives the request (with the
library's own functions) finds the right interface, the name, a reference to the object, and the flags which
end the request. -/
theorem C59_aidl {e : Env} {q : Qsort} {io : Io} {p : Protocol} {m : Mem} {s name : List Char} (hs : C18.NameOk s)
    (hn : C18.NameOk name) {kind : Kind} (hk : kind ≠ .hidl) {o : LocalRef} (ho : o.addr < 256 ^ word io) {at_ : Nat}
    {rs : List Range} (h : Client.new e q io p m (some (utf8Text s)) = .ok rs) {w w' : Writer}
    (hw : firstRequest io p m rs = .ok w) (hr : WOp.runAll e w (addServiceOps (utf8Text name) at_ o kind) = .ok w')
    {src dst : Mem} {objs : List KObj} {addr : Nat → Nat} {b' : Bytes} {node : Nat → Nat} {other : Nat → Option Nat}
    (t : Transfer io src w'.bytes w'.offsets objs addr dst b')
    (t' : References io w'.bytes w'.offsets objs node other b') :
    ∃ rq r1 r2 r3, RemoteReq.setData io p (Codes.code kind .add) b' w'.offsets = .ok rq ∧ rq.iface = some (utf8Text s) ∧
      rq.initReader.readString16 = .ok (some (utf8Text name)) r1 ∧
      r1.readNullableObject = .ok (some (node o.addr)) r2 ∧
      C01.readAll r2 ((tail kind).map Value.ty) = .ok ((tail kind).map Value.seen) r3 ∧ C33.AtEnd r3 := by
  obtain ⟨g1, g2, g3, g4⟩ := request hs h hw
  rw [ops_aidl hk] at hr
  have ha : ∀ off v, WOp.overwriteInt32 off v ∉ WOp.string16 (some (utf8Text name)) :: .localObject (some o) :: tailOps kind := by
    intro off v hm
    simp only [List.mem_cons, reduceCtorEq, false_or] at hm
    exact tail_append off v hm
  have hc : p = .hidl ∨ Codes.code kind .add ≤ 0x5f000000 := by
    right; cases kind <;> decide
  obtain ⟨rq, i1, i2, i3⟩ := incoming hs g2 g1 ha hr t hc
  obtain ⟨w1, e1, hr1⟩ := runAll_split hr
  obtain ⟨w2, e2, hr2⟩ := runAll_split hr1
  have a1 := C01.C01_received (e := e) (p := p) (m := m) (pre := headerOps p s) (vs := [.string16 (some name)])
    (post := .localObject (some o) :: tailOps kind) (w0 := w) (w1 := w1) (by
      intro v hv
      cases List.mem_singleton.mp hv
      exact hn) g1
    (by simp only [C01.writeAll, Value.write, Option.map_some]; simp only [WOp.run] at e1; rw [e1]; rfl) hr1 (by
      intro off v hm
      rcases List.mem_append.mp hm with hm | hm
      · exact headerOps_append off v hm
      · exact ha off v (List.mem_cons_of_mem _ hm)) t p
  have b1 := C33.one_string16 a1
  have pre2 : WOp.runAll e { io := io, protocol := p, mem := m } (headerOps p s ++ [.string16 (some (utf8Text name))]) =
      .ok w1 := runAll_append g1 (by simp only [WOp.runAll, e1]; rfl)
  have a2 := C19.C19_received e io p m (headerOps p s ++ [.string16 (some (utf8Text name))]) (tailOps kind) w1 w2 w' o ho
    ⟨pre2, e2, hr2, by
      intro off v hm
      rcases List.mem_append.mp hm with hm | hm
      · rcases List.mem_append.mp hm with hm | hm
        · exact headerOps_append off v hm
        · simp at hm
      · exact tail_append off v hm⟩ objs node other b' t'
  have pre3 := runAll_append (b := [.localObject (some o)]) pre2 (by simp only [WOp.runAll, e2]; rfl)
  have a3 := C01.C01_received (e := e) (p := p) (m := m)
    (pre := headerOps p s ++ [.string16 (some (utf8Text name))] ++ [.localObject (some o)]) (vs := tail kind)
    (post := []) (w0 := w2) (w1 := w') (tail_ok kind) pre3 (by rw [← tail_run]; exact hr2) rfl (by
      intro off v hm
      simp only [List.append_nil, List.mem_append, List.mem_singleton, reduceCtorEq, or_false] at hm
      exact headerOps_append off v hm) t p
  have hw0 : w.offsets.length = 0 := by rw [g3]; rfl
  rw [hw0] at b1
  refine ⟨rq, (Reader.since io p b' w'.offsets w1.bytes.length w1.offsets.length).startAt w.bytes.length,
    (Reader.since io p b' w'.offsets w2.bytes.length w2.offsets.length).startAt w.bytes.length,
    (Reader.since io p b' w'.offsets w'.bytes.length w'.offsets.length).startAt w.bytes.length, i1, i2, ?_, ?_, ?_, ?_⟩
  · rw [i3, Reader.readString16_startAt]
    exact Reader.startAt_ok b1 _
  · rw [Reader.readNullableObject_startAt]
    exact Reader.startAt_ok a2 _
  · rw [readAll_startAt _ _ (tail_ints kind)]
    exact Reader.startAt_ok a3 _
  · obtain ⟨z1, z2, z3⟩ := C33.since_end io p (b := b') (w := w') t.size
    exact ⟨z1, z2, z3⟩

/-- C59: the same with the HIDL service manager; the name is in the caller's memory. -/
theorem C59_hidl {e : Env} {q : Qsort} {io : Io} {p : Protocol} {m : Mem} {s : List Char} (hs : C18.NameOk s)
    {name : Bytes} {a : Nat} (ha : a ≠ 0) (hn : m.cstr a = some name) (hl : name.length + 1 < 2 ^ 32)
    {o : LocalRef} (ho : o.addr < 256 ^ word io)
    {rs : List Range} (h : Client.new e q io p m (some (utf8Text s)) = .ok rs) {w w' : Writer}
    (hw : firstRequest io p m rs = .ok w) (hr : WOp.runAll e w (addServiceOps name a o .hidl) = .ok w')
    (small : w'.bytes.length < 2 ^ 32) (sane : w'.mem.Sane (256 ^ word io))
    {dst : Mem} {objs : List KObj} {addr : Nat → Nat} {b' : Bytes} {node : Nat → Nat} {other : Nat → Option Nat}
    (t : Transfer io w'.mem w'.bytes w'.offsets objs addr dst b')
    (t' : References io w'.bytes w'.offsets objs node other b') :
    ∃ rq r1 r2, RemoteReq.setData io p (Codes.code .hidl .add) b' w'.offsets = .ok rq ∧ rq.iface = some (utf8Text s) ∧
      Reader.readHidlString dst rq.initReader = .ok (some name) r1 ∧
      r1.readNullableObject = .ok (some (node o.addr)) r2 ∧ C33.AtEnd r2 := by
  obtain ⟨g1, g2, g3, g4⟩ := request hs h hw
  have hna : ∀ off v, WOp.overwriteInt32 off v ∉ addServiceOps name a o .hidl := by
    intro off v
    simp [addServiceOps]
  obtain ⟨rq, i1, i2, i3⟩ := incoming hs g2 g1 hna hr t (code := Codes.code .hidl .add) (.inr (by decide))
  obtain ⟨w1, e1, hr1⟩ := runAll_split hr
  obtain ⟨w2, e2, hr2⟩ := runAll_split hr1
  cases hr2
  have a1 := C13.C13_round_trip (e := e) (io := io) (p := p) (m := m) (pre := headerOps p s) (post := [.localObject (some o)])
    (w0 := w) (w1 := w1) (w' := w') (a := a) (s := name) (addr := addr) (dst := dst) (b' := b')
    ⟨g1, e1, hr1, by
      intro off v hm
      rcases List.mem_append.mp hm with hm | hm
      · exact headerOps_append off v hm
      · simp at hm, by simp, by simp [WOp.parent], small, sane, ⟨objs, t⟩⟩ ha (by rw [g4]; exact hn) hl p
  have pre2 := runAll_append (b := [.hidlString a]) g1 (by simp only [WOp.runAll, e1]; rfl)
  have a2 := C19.C19_received e io p m (headerOps p s ++ [.hidlString a]) [] w1 w' w' o ho
    ⟨pre2, e2, rfl, by
      intro off v hm
      simp only [List.append_nil, List.mem_append, List.mem_singleton, reduceCtorEq, or_false] at hm
      exact headerOps_append off v hm⟩ objs node other b' t'
  have hw0 : w.offsets.length = 0 := by rw [g3]; rfl
  rw [hw0] at a1
  refine ⟨rq, (Reader.since io p b' w'.offsets w1.bytes.length w1.offsets.length).startAt w.bytes.length,
    (Reader.since io p b' w'.offsets w'.bytes.length w'.offsets.length).startAt w.bytes.length, i1, i2, ?_, ?_, ?_⟩
  · rw [i3, Reader.readHidlString_startAt]
    exact Reader.startAt_ok a1 _
  · rw [Reader.readNullableObject_startAt]
    exact Reader.startAt_ok a2 _
  · obtain ⟨z1, z2, z3⟩ := C33.since_end io p (b := b') (w := w') t.size
    exact ⟨z1, z2, z3⟩

/-! ### Example -/

def check (io : Io) (p : Protocol) (m : Mem) (s : List Char) (name : Bytes) (a : Nat) (o : LocalRef) (kind : Kind) : Bool :=
  match Client.new Demo.env C45.qsort io p m (some (utf8Text s)) with
  | .error _ => false
  | .ok rs => match firstRequest io p m rs with
    | .error _ => false
    | .ok w => match WOp.runAll Demo.env w (addServiceOps name a o kind) with
      | .error _ => false
      | .ok w' => decide (w'.bytes.length < 2 ^ 32) && decide (w'.mem.Sane (256 ^ word io)) && w'.io == io && demoBoth w'

theorem check_sound {io : Io} {p : Protocol} {m : Mem} {s : List Char} {name : Bytes} {a : Nat} {o : LocalRef} {kind : Kind}
    (h : check io p m s name a o kind = true) :
    ∃ rs w w' dst b', Client.new Demo.env C45.qsort io p m (some (utf8Text s)) = .ok rs ∧
      firstRequest io p m rs = .ok w ∧ WOp.runAll Demo.env w (addServiceOps name a o kind) = .ok w' ∧
      w'.bytes.length < 2 ^ 32 ∧ w'.mem.Sane (256 ^ word io) ∧
      Transfer io w'.mem w'.bytes w'.offsets (demoObjs w') demoAddr dst b' ∧
      References io w'.bytes w'.offsets (demoObjs w') id some b' := by
  unfold check at h
  split at h
  · cases h
  rename_i rs h1
  split at h
  · cases h
  rename_i w h2
  split at h
  · cases h
  rename_i w' h3
  simp only [Bool.and_eq_true, decide_eq_true_eq, beq_iff_eq] at h
  obtain ⟨⟨⟨a1, a2⟩, a3⟩, a4⟩ := h
  obtain ⟨dst, b', b1, b2⟩ := demoBoth_sound a4
  rw [a3] at b1 b2
  exact ⟨rs, w, w', dst, b', h1, h2, h3, a1, a2, b1, b2⟩

/-- All the hypotheses of `C59_aidl`, for each version. -/
example : ∀ x ∈ [(Protocol.aidl, Kind.aidl), (.aidl2, .aidl2), (.aidl3, .aidl3), (.aidl3, .aidl4)],
    ∃ rs w w' dst b', Client.new Demo.env C45.qsort .io64 x.1 [] (some (utf8Text ['a', '.', 'M'])) = .ok rs ∧
      firstRequest .io64 x.1 [] rs = .ok w ∧
      WOp.runAll Demo.env w (addServiceOps (utf8Text ['s', 'v', 'c']) 0 ⟨0x1000, 12⟩ x.2) = .ok w' ∧
      w'.bytes.length < 2 ^ 32 ∧ w'.mem.Sane (256 ^ word .io64) ∧
      Transfer .io64 w'.mem w'.bytes w'.offsets (demoObjs w') demoAddr dst b' ∧
      References .io64 w'.bytes w'.offsets (demoObjs w') id some b' := by
  intro x hx
  have : ∀ x ∈ [(Protocol.aidl, Kind.aidl), (.aidl2, .aidl2), (.aidl3, .aidl3), (.aidl3, .aidl4)],
    check .io64 x.1 [] ['a', '.', 'M'] (utf8Text ['s', 'v', 'c']) 0 ⟨0x1000, 12⟩ x.2 = true := by decide +kernel
  exact check_sound (this x hx)

/-- And those of `C59_hidl`: the name is at 16. -/
example : Demo.mem.cstr 16 = some [0x61, 0x62] ∧
    ∃ rs w w' dst b', Client.new Demo.env C45.qsort .io64 .hidl Demo.mem (some (utf8Text ['a', '.', 'M'])) = .ok rs ∧
      firstRequest .io64 .hidl Demo.mem rs = .ok w ∧
      WOp.runAll Demo.env w (addServiceOps [0x61, 0x62] 16 ⟨0x1000, 12⟩ .hidl) = .ok w' ∧
      w'.bytes.length < 2 ^ 32 ∧ w'.mem.Sane (256 ^ word .io64) ∧
      Transfer .io64 w'.mem w'.bytes w'.offsets (demoObjs w') demoAddr dst b' ∧
      References .io64 w'.bytes w'.offsets (demoObjs w') id some b' :=
  ⟨by decide +kernel, check_sound (by decide +kernel)⟩

end Gb.C59
