import Verif.Model.Services
import Verif.Props.C57
import Verif.Props.C59
/-
C60: looking up services.
-/
set_option autoImplicit false

namespace Gb.C60

open Client Kernel Services C59
open C01 (Value)

/-! ### The question -/

/-- What is before the first slash, and what is after it. -/
theorem split_spec (l a b : Bytes) : split l = some (a, b) ↔ l = a ++ 0x2f :: b ∧ 0x2f ∉ a := by
  induction l generalizing a with
  | nil => simp [split]
  | cons c l ih =>
    unfold split
    by_cases hc : c = 0x2f
    · rw [if_pos hc]
      subst hc
      constructor
      · intro h; cases h; simp
      · rintro ⟨h1, h2⟩
        cases a with
        | nil => simp only [List.nil_append, List.cons.injEq, true_and] at h1; rw [h1]
        | cons x a =>
          simp only [List.cons_append, List.cons.injEq] at h1
          exact absurd (List.mem_cons.mpr (.inl h1.1)) h2
    · rw [if_neg hc]
      cases a with
      | nil =>
        constructor
        · intro h
          cases hs : split l <;> rw [hs] at h <;> simp at h
        · rintro ⟨h, _⟩
          simp only [List.nil_append, List.cons.injEq] at h
          exact absurd h.1 hc
      | cons x a =>
        constructor
        · intro h
          cases hs : split l with
          | none => rw [hs] at h; cases h
          | some y =>
            obtain ⟨y1, y2⟩ := y
            rw [hs] at h
            simp only [Option.map_some, Option.some.injEq, Prod.mk.injEq, List.cons.injEq] at h
            obtain ⟨⟨rfl, rfl⟩, rfl⟩ := h
            obtain ⟨h1, h2⟩ := (ih y1).mp hs
            subst h1
            exact ⟨rfl, by simp [h2, Ne.symm hc]⟩
        · rintro ⟨h1, h2⟩
          simp only [List.cons_append, List.cons.injEq] at h1
          obtain ⟨rfl, h1⟩ := h1
          rw [(ih a).mpr ⟨h1, fun h => h2 (List.mem_cons_of_mem _ h)⟩]
          rfl

theorem split_none (l : Bytes) : split l = none ↔ 0x2f ∉ l := by
  induction l with
  | nil => simp [split]
  | cons c l ih =>
    unfold split
    by_cases hc : c = 0x2f
    · simp [hc]
    · rw [if_neg hc, Option.map_eq_none_iff, ih]
      simp [Ne.symm hc]

/-- The code which is used is that of the method. -/
theorem C60_code (kind : Kind) : getCode kind = Codes.code kind (Codes.lookup kind) := by cases kind <;> decide

/-- C60, AIDL: the manager finds the right interface and the name, and nothing else. -/
theorem C60_query {e : Env} {q : Qsort} {io : Io} {p : Protocol} {m : Mem} {s name : List Char} (hs : C18.NameOk s)
    (hn : C18.NameOk name) {kind : Kind} (hk : kind ≠ .hidl) {a b : Nat}
    {rs : List Range} (h : Client.new e q io p m (some (utf8Text s)) = .ok rs) {w w' : Writer}
    (hw : firstRequest io p m rs = .ok w) {ops : List WOp} (ho : getServiceOps ⟨utf8Text name, a, b⟩ kind = some ops)
    (hr : WOp.runAll e w ops = .ok w')
    {src dst : Mem} {objs : List KObj} {addr : Nat → Nat} {b' : Bytes}
    (t : Transfer io src w'.bytes w'.offsets objs addr dst b') :
    ∃ rq r1, RemoteReq.setData io p (Codes.code kind (Codes.lookup kind)) b' w'.offsets = .ok rq ∧ rq.iface = some (utf8Text s) ∧
      rq.initReader.readString16 = .ok (some (utf8Text name)) r1 ∧ C33.AtEnd r1 := by
  obtain ⟨g1, g2, g3, g4⟩ := request hs h hw
  have ho' : ops = [.string16 (some (utf8Text name))] := by
    cases kind <;> first | (cases ho; rfl) | exact absurd rfl hk
  subst ho'
  have hc : p = .hidl ∨ Codes.code kind (Codes.lookup kind) ≤ 0x5f000000 := by
    right; cases kind <;> decide
  obtain ⟨rq, i1, i2, i3⟩ := incoming hs g2 g1 (by simp) hr t hc
  obtain ⟨w1, e1, hr1⟩ := runAll_split hr
  cases hr1
  have a1 := C01.C01_received (e := e) (p := p) (m := m) (pre := headerOps p s) (vs := [.string16 (some name)])
    (post := []) (w0 := w) (w1 := w') (by
      intro v hv
      cases List.mem_singleton.mp hv
      exact hn) g1
    (by simp only [C01.writeAll, Value.write, Option.map_some]; simp only [WOp.run] at e1; rw [e1]; rfl) rfl (by
      intro off v hm
      rw [List.append_nil] at hm
      exact headerOps_append off v hm) t p
  have b1 := C33.one_string16 a1
  have hw0 : w.offsets.length = 0 := by rw [g3]; rfl
  rw [hw0] at b1
  refine ⟨rq, (Reader.since io p b' w'.offsets w'.bytes.length w'.offsets.length).startAt w.bytes.length, i1, i2, ?_, ?_⟩
  · rw [i3, Reader.readString16_startAt]
    exact Reader.startAt_ok b1 _
  · obtain ⟨z1, z2, z3⟩ := C33.since_end io p (b := b') (w := w') t.size
    exact ⟨z1, z2, z3⟩

/-- C60, HIDL: the manager finds what is before the first slash, and what is after it. -/
theorem C60_query_hidl {e : Env} {q : Qsort} {io : Io} {p : Protocol} {m : Mem} {s : List Char} (hs : C18.NameOk s)
    {fq inst : Bytes} {a b : Nat} (hf : 0x2f ∉ fq) (ha : a ≠ 0) (hb : b ≠ 0) (ma : m.cstr a = some fq)
    (mb : m.cstr b = some inst) (hl : fq.length + 1 < 2 ^ 32) (hl' : inst.length + 1 < 2 ^ 32)
    {rs : List Range} (h : Client.new e q io p m (some (utf8Text s)) = .ok rs) {w w' : Writer}
    (hw : firstRequest io p m rs = .ok w) {ops : List WOp}
    (ho : getServiceOps ⟨fq ++ 0x2f :: inst, a, b⟩ .hidl = some ops) (hr : WOp.runAll e w ops = .ok w')
    (small : w'.bytes.length < 2 ^ 32) (sane : w'.mem.Sane (256 ^ word io))
    {dst : Mem} {objs : List KObj} {addr : Nat → Nat} {b' : Bytes}
    (t : Transfer io w'.mem w'.bytes w'.offsets objs addr dst b') :
    ∃ rq r1 r2, RemoteReq.setData io p (Codes.code .hidl .get) b' w'.offsets = .ok rq ∧ rq.iface = some (utf8Text s) ∧
      Reader.readHidlString dst rq.initReader = .ok (some fq) r1 ∧
      Reader.readHidlString dst r1 = .ok (some inst) r2 ∧ C33.AtEnd r2 := by
  obtain ⟨g1, g2, g3, g4⟩ := request hs h hw
  have ho' : ops = [.hidlString a, .hidlString b] := by
    simp only [getServiceOps, (split_spec _ fq inst).mpr ⟨rfl, hf⟩, Option.map_some] at ho
    cases ho
    rfl
  subst ho'
  obtain ⟨rq, i1, i2, i3⟩ := incoming hs g2 g1 (by simp) hr t (code := Codes.code .hidl .get) (.inr (by decide))
  obtain ⟨w1, e1, hr1⟩ := runAll_split hr
  obtain ⟨w2, e2, hr2⟩ := runAll_split hr1
  cases hr2
  have a1 := C13.C13_round_trip (e := e) (io := io) (p := p) (m := m) (pre := headerOps p s) (post := [.hidlString b])
    (w0 := w) (w1 := w1) (w' := w') (a := a) (s := fq) (addr := addr) (dst := dst) (b' := b')
    ⟨g1, e1, hr1, by
      intro off v hm
      rcases List.mem_append.mp hm with hm | hm
      · exact headerOps_append off v hm
      · simp at hm, by simp, by simp [WOp.parent], small, sane, ⟨objs, t⟩⟩ ha (by rw [g4]; exact ma) hl p
  have pre2 := runAll_append (b := [.hidlString a]) g1 (by simp only [WOp.runAll, e1]; rfl)
  have hm1 : w1.mem.cstr b = some inst := by
    obtain ⟨l, hml⟩ := runAll_mem (e := e) [WOp.hidlString a] (w := w) (w' := w1) (by simp only [WOp.runAll, e1]; rfl) (by simp)
    obtain ⟨l', hml'⟩ := runAll_mem (e := e) [WOp.hidlString b] (w := w1) (w' := w') (by simp only [WOp.runAll, e2]; rfl) (by simp)
    rw [hml]
    refine C33.cstr_extend ?_ (by rw [g4]; exact mb)
    have := sane.apart
    rw [hml'] at this
    rw [← hml]
    exact (List.pairwise_append.mp this).2.1
  have a2 := C13.C13_round_trip (e := e) (io := io) (p := p) (m := m) (pre := headerOps p s ++ [.hidlString a]) (post := [])
    (w0 := w1) (w1 := w') (w' := w') (a := b) (s := inst) (addr := addr) (dst := dst) (b' := b')
    ⟨pre2, e2, rfl, by
      intro off v hm
      simp only [List.append_nil, List.mem_append, List.mem_singleton, reduceCtorEq, or_false] at hm
      exact headerOps_append off v hm, by simp, by simp, small, sane, ⟨objs, t⟩⟩ hb hm1 hl' p
  have hw0 : w.offsets.length = 0 := by rw [g3]; rfl
  rw [hw0] at a1
  refine ⟨rq, (Reader.since io p b' w'.offsets w1.bytes.length w1.offsets.length).startAt w.bytes.length,
    (Reader.since io p b' w'.offsets w'.bytes.length w'.offsets.length).startAt w.bytes.length, i1, i2, ?_, ?_, ?_⟩
  · rw [i3, Reader.readHidlString_startAt]
    exact Reader.startAt_ok a1 _
  · rw [Reader.readHidlString_startAt]
    exact Reader.startAt_ok a2 _
  · obtain ⟨z1, z2, z3⟩ := C33.since_end io p (b := b') (w := w') t.size
    exact ⟨z1, z2, z3⟩

/-- C60, HIDL: if there is no slash then nothing is asked. In all other cases, something is. -/
theorem C60_asked (q : Query) (kind : Kind) : getServiceOps q kind = none ↔ kind = .hidl ∧ 0x2f ∉ q.name := by
  cases kind <;> simp [getServiceOps, split_none]

/-! ### The answer -/

/-- Where the object is expected. -/
def place : Kind → Nat
  | .aidl | .aidl2 => 0
  | _ => 4

theorem readObject_iff {r : Reader} (hi : r.Inside) (h : Nat) :
    readObject r = .ok (some h) ↔
      C57.Announced r ∧ fieldAt r.buf r.pos 4 = tHandle ∧ ∃ n, getObject r.io r.buf r.pos = some (.handle h, n) := by
  rw [← C57.C57_object r hi]
  unfold readObject
  cases r.readNullableObject with
  | ok v r1 =>
    constructor
    · intro hh; cases hh; exact ⟨_, rfl⟩
    · rintro ⟨r', hh⟩; cases hh; rfl
  | fail r1 =>
    constructor
    · intro hh; cases hh
    · rintro ⟨r', hh⟩; cases hh
  | ub k =>
    constructor
    · intro hh; cases hh
    · rintro ⟨r', hh⟩; cases hh

/-- C60: the object is found if and only if the kernel has put a handle to where the manager of this version does
put it, and it's the one which is returned. -/
theorem C60_answer (kind : Kind) (io : Io) (p : Protocol) (b : Bytes) (offs : List Nat) (h : Nat) :
    getServiceReply kind (some (C33.reader io p b offs)) = .ok (some h) ↔
      offs.head? = some (place kind) ∧ fieldAt b (place kind) 4 = tHandle ∧
      ∃ n, getObject io b (place kind) = some (.handle h, n) := by
  have key0 := readObject_iff (r := C33.reader io p b offs)
    ⟨by simp [C33.reader, Reader.init], by simp [C33.reader, Reader.init], by simp [C33.reader, Reader.init]⟩ h
  have h1 : readObject (C33.reader io p b offs) = .ok (some h) ↔
      offs.head? = some 0 ∧ fieldAt b 0 4 = tHandle ∧ ∃ n, getObject io b 0 = some (.handle h, n) := by
    rw [key0]
    simp [C57.Announced, C33.reader, Reader.init]
  have h2 : (afterInt32 (C33.reader io p b offs)).bind readObject = .ok (some h) ↔
      offs.head? = some 4 ∧ fieldAt b 4 4 = tHandle ∧ ∃ n, getObject io b 4 = some (.handle h, n) := by
    by_cases hb : 4 ≤ b.length
    · have hr : (C33.reader io p b offs).readUInt32 = .ok (leVal ((b.drop 0).take 4)) ((C33.reader io p b offs).advance 4) := by
        unfold Reader.readUInt32 Reader.readWord
        rw [if_pos (by simpa [Reader.canRead, Reader.remaining, C33.reader, Reader.init] using hb),
          C57.deref_eq (by simpa [C33.reader, Reader.init] using hb)]
        rfl
      simp only [afterInt32, hr, Except.bind]
      rw [readObject_iff ⟨by simp [C33.reader, Reader.init, Reader.advance], by simp [C33.reader, Reader.init, Reader.advance],
        by simpa [C33.reader, Reader.init, Reader.advance] using hb⟩ h]
      simp [C57.Announced, C33.reader, Reader.init, Reader.advance]
    · have hr : (C33.reader io p b offs).readUInt32 = .fail (C33.reader io p b offs) := by
        unfold Reader.readUInt32 Reader.readWord
        rw [if_neg (by simpa [Reader.canRead, Reader.remaining, C33.reader, Reader.init] using hb)]
      have hf : 8 ≤ io.flatSize := by cases io <;> decide
      simp only [afterInt32, hr, Except.bind]
      rw [h1]
      constructor
      · rintro ⟨_, _, n, hg⟩
        have := C57.flat_fits hg (.inr (.inl ⟨h, rfl⟩))
        omega
      · rintro ⟨_, _, n, hg⟩
        have := C57.flat_fits hg (.inr (.inl ⟨h, rfl⟩))
        omega
  cases kind <;> first | exact h1 | exact h2

/-- C60: no reply, no object. -/
theorem C60_null (kind : Kind) : getServiceReply kind none = .ok none := by cases kind <;> rfl

/-! ### Examples -/

/-- A reply of each kind, with the handle 7. -/
example : ∀ kind, getServiceReply kind (some (C33.reader .io64 .aidl2
      (List.replicate (place kind) 0 ++ leBytes 4 tHandle ++ leBytes 4 0 ++ leBytes 8 7 ++ leBytes 8 0) [place kind])) =
    .ok (some 7) := by
  intro kind
  cases kind <;> decide +kernel

def check (io : Io) (p : Protocol) (m : Mem) (s : List Char) (q : Query) (kind : Kind) : Bool :=
  match Client.new Demo.env C45.qsort io p m (some (utf8Text s)) with
  | .error _ => false
  | .ok rs => match firstRequest io p m rs with
    | .error _ => false
    | .ok w => match getServiceOps q kind with
      | none => false
      | some ops => match WOp.runAll Demo.env w ops with
        | .error _ => false
        | .ok w' => decide (w'.bytes.length < 2 ^ 32) && decide (w'.mem.Sane (256 ^ word io)) && w'.io == io && demoBoth w'

/-- The hypotheses of the theorems can be met. -/
theorem check_sound {io : Io} {p : Protocol} {m : Mem} {s : List Char} {q : Query} {kind : Kind}
    (h : check io p m s q kind = true) :
    ∃ rs w ops w' dst b', Client.new Demo.env C45.qsort io p m (some (utf8Text s)) = .ok rs ∧
      firstRequest io p m rs = .ok w ∧ getServiceOps q kind = some ops ∧ WOp.runAll Demo.env w ops = .ok w' ∧
      w'.bytes.length < 2 ^ 32 ∧ w'.mem.Sane (256 ^ word io) ∧
      Transfer io w'.mem w'.bytes w'.offsets (demoObjs w') demoAddr dst b' := by
  unfold check at h
  split at h
  · cases h
  rename_i rs h1
  split at h
  · cases h
  rename_i w h2
  split at h
  · cases h
  rename_i ops h3
  split at h
  · cases h
  rename_i w' h4
  simp only [Bool.and_eq_true, decide_eq_true_eq, beq_iff_eq] at h
  obtain ⟨⟨⟨a1, a2⟩, a3⟩, a4⟩ := h
  obtain ⟨dst, b', b1, b2⟩ := demoBoth_sound a4
  rw [a3] at b1 b2
  exact ⟨rs, w, ops, w', dst, b', h1, h2, h3, h4, a1, a2, b1⟩

example : check .io64 .aidl3 [] ['a', '.', 'M'] ⟨utf8Text ['s', 'v', 'c'], 0, 0⟩ .aidl3 = true := by decide +kernel

/-- "a@1::IA/b" at 16, and the copy of "a@1::IA" at 64. -/
def hidlMem : Mem := [(16, [0x61, 0x40, 0x31, 0x3a, 0x3a, 0x49, 0x41, 0x2f, 0x62, 0]), (64, [0x61, 0x40, 0x31, 0x3a, 0x3a, 0x49, 0x41, 0])]

example : hidlMem.cstr 64 = some [0x61, 0x40, 0x31, 0x3a, 0x3a, 0x49, 0x41] ∧ hidlMem.cstr 24 = some [0x62] ∧
    check .io64 .hidl hidlMem ['a', '.', 'M'] ⟨[0x61, 0x40, 0x31, 0x3a, 0x3a, 0x49, 0x41, 0x2f, 0x62], 64, 24⟩ .hidl = true := by
  decide +kernel

end Gb.C60
