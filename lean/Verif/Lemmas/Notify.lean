import Verif.Model.Notify
import Verif.Props.C59
/-
Requests which begin with two HIDL strings.
-/
set_option autoImplicit false

namespace Gb.Notify

open Client Kernel C59
open C01 (Value)

/-- Both strings are found by the receiver, whatever follows. -/
theorem two_strings {e : Env} {io : Io} {p : Protocol} {m : Mem} {s : List Char} {a b : Nat} {sa sb : Bytes}
    (ha : a ≠ 0) (hb : b ≠ 0) (ma : m.cstr a = some sa) (mb : m.cstr b = some sb)
    (hl : sa.length + 1 < 2 ^ 32) (hl' : sb.length + 1 < 2 ^ 32) {w w' : Writer}
    (g1 : WOp.runAll e { io := io, protocol := p, mem := m } (headerOps p s) = .ok w) (g4 : w.mem = m)
    {post : List WOp} (hr : WOp.runAll e w (.hidlString a :: .hidlString b :: post) = .ok w')
    (hpa : ∀ off v, WOp.overwriteInt32 off v ∉ post) (hps : ∀ m, WOp.memory m ∉ post) (hpp : ∀ op ∈ post, op.parent = none)
    (small : w'.bytes.length < 2 ^ 32) (sane : w'.mem.Sane (256 ^ word io))
    {dst : Mem} {objs : List KObj} {addr : Nat → Nat} {b' : Bytes}
    (t : Transfer io w'.mem w'.bytes w'.offsets objs addr dst b') :
    ∃ w1 w2 : Writer, WOp.runAll e { io := io, protocol := p, mem := m } (headerOps p s ++ [.hidlString a, .hidlString b]) = .ok w2 ∧
      WOp.runAll e w2 post = .ok w' ∧
      Reader.readHidlString dst (Reader.since io p b' w'.offsets w.bytes.length w.offsets.length) =
        .ok (some sa) (Reader.since io p b' w'.offsets w1.bytes.length w1.offsets.length) ∧
      Reader.readHidlString dst (Reader.since io p b' w'.offsets w1.bytes.length w1.offsets.length) =
        .ok (some sb) (Reader.since io p b' w'.offsets w2.bytes.length w2.offsets.length) := by
  obtain ⟨w1, e1, hr1⟩ := runAll_split hr
  obtain ⟨w2, e2, hr2⟩ := runAll_split hr1
  have a1 := C13.C13_round_trip (e := e) (io := io) (p := p) (m := m) (pre := headerOps p s) (post := .hidlString b :: post)
    (w0 := w) (w1 := w1) (w' := w') (a := a) (s := sa) (addr := addr) (dst := dst) (b' := b')
    ⟨g1, e1, hr1, by
      intro off v hm
      rcases List.mem_append.mp hm with hm | hm
      · exact headerOps_append off v hm
      · rcases List.mem_cons.mp hm with hm | hm
        · cases hm
        · exact hpa off v hm, by
      intro m hm
      rcases List.mem_cons.mp hm with hm | hm
      · cases hm
      · exact hps m hm, by
      intro op hm
      rcases List.mem_cons.mp hm with rfl | hm
      · rfl
      · exact hpp op hm, small, sane, ⟨objs, t⟩⟩ ha (by rw [g4]; exact ma) hl p
  have pre2 := runAll_append (b := [.hidlString a]) g1 (by simp only [WOp.runAll, e1]; rfl)
  have hm1 : w1.mem.cstr b = some sb := by
    obtain ⟨l, hml⟩ := runAll_mem (e := e) [WOp.hidlString a] (w := w) (w' := w1) (by simp only [WOp.runAll, e1]; rfl) (by simp)
    obtain ⟨l', hml'⟩ := runAll_mem (e := e) (WOp.hidlString b :: post) (w := w1) (w' := w') hr1 (by
      intro m hm
      rcases List.mem_cons.mp hm with hm | hm
      · cases hm
      · exact hps m hm)
    rw [hml]
    refine C33.cstr_extend ?_ (by rw [g4]; exact mb)
    have := sane.apart
    rw [hml'] at this
    rw [← hml]
    exact (List.pairwise_append.mp this).2.1
  have a2 := C13.C13_round_trip (e := e) (io := io) (p := p) (m := m) (pre := headerOps p s ++ [.hidlString a]) (post := post)
    (w0 := w1) (w1 := w2) (w' := w') (a := b) (s := sb) (addr := addr) (dst := dst) (b' := b')
    ⟨pre2, e2, hr2, by
      intro off v hm
      rcases List.mem_append.mp hm with hm | hm
      · simp only [List.mem_append, List.mem_singleton, reduceCtorEq, or_false] at hm
        exact headerOps_append off v hm
      · exact hpa off v hm, hps, hpp, small, sane, ⟨objs, t⟩⟩ hb hm1 hl' p
  refine ⟨w1, w2, ?_, hr2, a1, a2⟩
  have := runAll_append (b := [.hidlString b]) pre2 (by simp only [WOp.runAll, e2]; rfl)
  simpa using this

theorem one_bool {r r' : Reader} {v : Bool}
    (h : C01.readAll r ([Value.bool v].map Value.ty) = .ok ([Value.bool v].map Value.seen) r') : r.readBool = .ok v r' := by
  simp only [C01.readAll, List.map_cons, List.map_nil, Value.ty, C01.Ty.read, Value.seen] at h
  generalize r.readBool = x at h ⊢
  cases x with
  | ok a r1 =>
    simp only [Res.map, Res.bind, Res.ok.injEq, List.cons.injEq, C01.Seen.bool.injEq, and_true] at h
    obtain ⟨h1, h2⟩ := h
    subst h1 h2
    rfl
  | fail r => simp [Res.map, Res.bind] at h
  | ub k => simp [Res.map, Res.bind] at h

theorem readBool_startAt (r : Reader) (n : Nat) : (r.startAt n).readBool = r.readBool.startAt n := by
  simp only [Reader.readBool, Reader.readUInt32_startAt]
  cases r.readUInt32 <;> rfl

end Gb.Notify
