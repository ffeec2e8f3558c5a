import Verif.Lemmas.Plain
import Verif.Lemmas.Delivered
import Verif.Lemmas.TransferCheck
/-
C01. Parcel round trip for plain data. The values, the append calls and the read calls are
spelled out in Verif/Spec/Plain.lean.
-/
set_option autoImplicit false

namespace Gb.C01

/-- C01: whatever the parcel contained before (`w`), whatever uninitialised memory contained, the
values appended are read back in order by a reader positioned at the old end of the parcel, and
nothing remains unread. -/
theorem C01_plain_round_trip (e : Env) (w : Writer) (vs : List Value) (h : ∀ v ∈ vs, v.Ok)
    (objects : List Nat) (hasReg : Bool) :
    ∃ w', writeAll e w vs = .ok w' ∧
      ∃ r', readAll (Reader.init w.io w.protocol w'.bytes objects hasReg w.bytes.length
          (w'.bytes.length - w.bytes.length)) (vs.map Value.ty) = .ok (vs.map Value.seen) r' ∧
        r'.atEnd = true ∧ r'.bytesRemaining = 0 := by
  refine ⟨_, writeAll_eq e w vs h, ?_⟩
  obtain ⟨r', h1, h2⟩ := readAll_eq (Reader.init w.io w.protocol (w.bytes ++ vs.flatMap Value.enc)
    objects hasReg w.bytes.length ((w.bytes ++ vs.flatMap Value.enc).length - w.bytes.length))
    vs [] h ⟨by simp [Reader.init], by simp [Reader.init], by simp [Reader.init]⟩
  refine ⟨r', h1, ?_, ?_⟩
  · have := h2.fin_pos
    simp [Reader.atEnd]
    simp at this
    omega
  · simpa [Reader.bytesRemaining] using h2.remaining

/-- A mixed parcel meets the hypothesis (including text outside of the BMP, NULL and empty
strings, embedded NULs in UTF-16, an empty array). -/
example : ∀ v ∈ [Value.bool true, .int8 255, .int16 0xffff, .int32 0x80000000, .int64 (-1),
    .float 0x7fc00000, .double 1, .string8 [104, 105], .string8 [],
    .string16 none, .string16 (some []), .string16 (some ['a', 'é', '€', '😀']),
    .utf16 none, .utf16 (some []), .utf16 (some [1, 0, 0xd800]), .byteArray [],
    .byteArray [1, 2, 3, 4, 5]], v.Ok := by
  simp [Value.Ok]
  decide

/-- C01 when the parcel is received: the values are appended between any other calls, which may append
objects of all kinds, and the kernel transfers the parcel, patching the objects. A receiver which has
read everything before the values reads them and gets to what follows. -/
theorem C01_received {e : Env} {io : Io} {p : Protocol} {m : Mem} {pre post : List WOp} {vs : List Value}
    {w0 w1 w' : Writer} {src dst : Mem} {objs : List Kernel.KObj} {addr : Nat → Nat} {b' : Bytes}
    (hv : ∀ v ∈ vs, v.Ok)
    (h0 : WOp.runAll e { io := io, protocol := p, mem := m } pre = .ok w0)
    (h1 : writeAll e w0 vs = .ok w1) (h2 : WOp.runAll e w1 post = .ok w')
    (ha : ∀ off v, WOp.overwriteInt32 off v ∉ pre ++ post)
    (ht : Kernel.Transfer io src w'.bytes w'.offsets objs addr dst b') (pr : Protocol) :
    readAll (Reader.since io pr b' w'.offsets w0.bytes.length w0.offsets.length) (vs.map Value.ty) =
      .ok (vs.map Value.seen) (Reader.since io pr b' w'.offsets w1.bytes.length w1.offsets.length) := by
  have hio : ∀ {ops : List WOp}, (∀ off v, WOp.overwriteInt32 off v ∉ ops) →
      ∀ op ∈ ops, op.isAppend = true := by
    intro ops ha op hop
    cases op <;> first | rfl | exact absurd hop (ha _ _)
  obtain ⟨hio0, s, hs⟩ := runAll_built (al := false) h0
    (hio (fun off v hc => ha off v (List.mem_append_left _ hc))) (by intro hc; cases hc)
  rw [writeAll_eq e w0 vs hv] at h1
  cases h1
  obtain ⟨new, g⟩ := runAll_grows (al := false) h2
    (hio (fun off v hc => ha off v (List.mem_append_right _ hc))) (by intro hc; cases hc)
  obtain ⟨y, hy⟩ := kept hio0 hs g ht
  obtain ⟨r, hr, _⟩ := g.tail
  simp only at hr
  rw [readAll_pos _ vs y hv ⟨by simp [Reader.since, Reader.init],
    by simp only [Reader.since, Reader.init, Nat.zero_add]; rw [ht.size, hr]; simp, hy⟩]
  simp only [Reader.since, Reader.advance, List.length_append]

/-- Values between strings and vectors, for both ABIs. -/
example : (∃ w0 w1 w' dst b', Sent Demo.env .io64 .hidl Demo.mem
      [.hidlString 16, .hidlStringVec [16]] (.int32 7) [.hidlString 16] w0 w1 w' Kernel.demoAddr dst b') ∧
    (∃ w0 w1 w' dst b', Sent Demo.env .io32 .hidl Demo.mem
      [.hidlVec 16 3 1] (.string8 (some [0x61])) [.bool true, .hidlString 16]
      w0 w1 w' Kernel.demoAddr dst b') :=
  ⟨Kernel.demoSent_sound (by decide +kernel), Kernel.demoSent_sound (by decide +kernel)⟩

end Gb.C01
