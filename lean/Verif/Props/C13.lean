import Verif.Lemmas.Transfer
import Verif.Lemmas.TransferCheck
/-
C13. HIDL strings arrive unchanged.

`Sent` (Spec/Transfer.lean): the parcel is built by any calls before and after the one that
appends the string, and transferred by the kernel, which puts the buffers at addresses of its
choice and patches the pointers.  The receiver has read everything up to the string and reads it.
-/
set_option autoImplicit false

namespace Gb.C13
open Writer Reader Kernel

/-- The receiver of two objects, a descriptor and its text. -/
theorem read_string {e : Env} {io : Io} {p : Protocol} {m : Mem} {pre post : List WOp} {op : WOp}
    {w0 w1 w' : Writer} {addr : Nat → Nat} {dst : Mem} {b' : Bytes} {a d : Nat} {s : Bytes}
    (h : Sent e io p m pre op post w0 w1 w' addr dst b') (ha : a ≠ 0) (hl : s.length + 1 < 2 ^ 32)
    (hp : Pushed w0 w1 [.buf d 16 none,
        .buf a (s.length + 1) (some { index := w0.offsets.length, offset := 0 })])
    (hd : w1.mem.load d 16 = some (hidlStringBytes a s.length true))
    (hs : (0 : Byte) ∉ s) (ht : w1.mem.load a (s.length + 1) = some (s ++ [0])) (pr : Protocol) :
    readHidlString dst (Reader.since io pr b' w'.offsets w0.bytes.length w0.offsets.length) =
      .ok (some s) (Reader.since io pr b' w'.offsets w1.bytes.length w1.offsets.length) := by
  obtain ⟨objs, t⟩ := h.transfer
  obtain ⟨hd', hd0, hdm⟩ := h.load (by omega) hd
  obtain ⟨ht', _, htm⟩ := h.load (by omega) ht
  have hpow := pow_ge io
  have rp := h.pair hp (by omega) (by omega) (by omega) (by omega) t
  obtain ⟨po, hr0⟩ := rp.read0 pr
  unfold readHidlString
  rw [hr0]
  simp only []
  have hpl0 := t.place _ _ _ _ rp.obj0
  have hpl1 := t.place _ _ _ _ rp.obj1
  rw [if_pos ⟨hpl0.1, trivial⟩, rp.read1 pr]
  simp only []
  have hdesc := take8_desc a s.length true []
  rw [List.append_nil] at hdesc
  obtain ⟨hq1, hq2⟩ := recv_desc t rp.obj0 rp.obj1 (by omega) hd' (y := a) (by simpa using hdesc.1)
    (by omega) (by
      intro j x hj hk
      obtain ⟨aj, lj, hx⟩ := rp.children j x hj hk
      exact ⟨aj, lj, 0, hx, .inr (.inl rfl)⟩)
  rw [Nat.add_zero] at hq1 hq2
  rw [Nat.zero_add, hdesc.2] at hq2
  exact checkHidlString_ok t.sane.apart _ hq1 hq2 (recv_leaf t rp.obj1 ht' rp.leaf) hs
    (ptr_lt hpl1.2) hl ⟨rfl, rfl, rfl, rfl⟩

/-- What is in the parcel. -/
theorem sent_string {e : Env} {io : Io} {p : Protocol} {m : Mem} {pre post : List WOp}
    {w0 w1 w' : Writer} {addr : Nat → Nat} {dst : Mem} {b' : Bytes} {a : Nat} {s : Bytes}
    (h : Sent e io p m pre (.hidlString a) post w0 w1 w' addr dst b') (ha : a ≠ 0)
    (hs : w0.mem.cstr a = some s) :
    ∃ a' d, a' ≠ 0 ∧ (0 : Byte) ∉ s ∧
      Pushed w0 w1 [.buf d 16 none,
        .buf a' (s.length + 1) (some { index := w0.offsets.length, offset := 0 })] ∧
      w1.mem.load d 16 = some (hidlStringBytes a' s.length true) ∧
      w1.mem.load a' (s.length + 1) = some (s ++ [0]) := by
  obtain ⟨d, hp, hm⟩ := appendHidlString_pushed h.call ha hs
  obtain ⟨h0, ht⟩ := cstr_load hs
  obtain ⟨l, hml⟩ := runAll_mem post h.after h.still
  have hap : Mem.Apart w1.mem := by
    have := h.sane.apart
    rw [hml] at this
    exact (List.pairwise_append.mp this).2.1
  refine ⟨a, d, ha, h0, hp, ?_, ?_⟩
  · rw [hm]; exact load_block (length_hidlStringBytes _ _ _) (by omega)
  · rw [hm]
    refine load_extend (l := [_]) ?_ (by omega) ht
    rw [hm] at hap
    exact hap

/-- C13: the text of a string appended with gbinder_writer_append_hidl_string. Its memory
(`s` and the terminating NUL at the address `a`) isn't copied when the string is appended. -/
theorem C13_round_trip {e : Env} {io : Io} {p : Protocol} {m : Mem} {pre post : List WOp}
    {w0 w1 w' : Writer} {addr : Nat → Nat} {dst : Mem} {b' : Bytes} {a : Nat} {s : Bytes}
    (h : Sent e io p m pre (.hidlString a) post w0 w1 w' addr dst b') (ha : a ≠ 0)
    (hs : w0.mem.cstr a = some s) (hl : s.length + 1 < 2 ^ 32) (pr : Protocol) :
    readHidlString dst (Reader.since io pr b' w'.offsets w0.bytes.length w0.offsets.length) =
      .ok (some s) (Reader.since io pr b' w'.offsets w1.bytes.length w1.offsets.length) := by
  obtain ⟨a', d, h1, h2, h3, h4, h5⟩ := sent_string h ha hs
  exact read_string h h1 hl h3 h4 h2 h5 pr

/-- The same for the copy. -/
theorem sent_copy {e : Env} {io : Io} {p : Protocol} {m : Mem} {pre post : List WOp}
    {w0 w1 w' : Writer} {addr : Nat → Nat} {dst : Mem} {b' : Bytes} {a em : Nat} {s : Bytes}
    (h : Sent e io p m pre (.hidlStringCopy a em) post w0 w1 w' addr dst b') (ha : a ≠ 0)
    (hs : w0.mem.cstr a = some s) (hem : em ≠ 0 ∧ w0.mem.cstr em = some []) :
    ∃ a' d, a' ≠ 0 ∧ (0 : Byte) ∉ s ∧
      Pushed w0 w1 [.buf d 16 none,
        .buf a' (s.length + 1) (some { index := w0.offsets.length, offset := 0 })] ∧
      w1.mem.load d 16 = some (hidlStringBytes a' s.length true) ∧
      w1.mem.load a' (s.length + 1) = some (s ++ [0]) := by
  have hc : appendHidlStringCopy e w0 a em = .ok w1 := h.call
  obtain ⟨l, hml⟩ := runAll_mem post h.after h.still
  have hap : w1.mem.Sane (256 ^ word io) := by
    have := h.sane
    rw [hml] at this
    exact ⟨(List.pairwise_append.mp this.apart).2.1,
      fun b hb => this.nonnull b (List.mem_append_right _ hb),
      fun b hb => this.fits b (List.mem_append_right _ hb)⟩
  unfold appendHidlStringCopy at hc
  rw [if_neg ha, hs] at hc
  cases s with
  | nil =>
    simp only [] at hc
    obtain ⟨d, hp, hm⟩ := appendHidlString_pushed hc hem.1 hem.2
    obtain ⟨h0, ht⟩ := cstr_load hem.2
    refine ⟨em, d, hem.1, h0, hp, ?_, ?_⟩
    · rw [hm]; exact load_block (length_hidlStringBytes _ _ _) (by omega)
    · rw [hm] at hap ⊢
      exact load_extend (l := [_]) hap.apart (by simp) ht
  | cons x s =>
    simp only [] at hc
    have h0 := (cstr_load hs).1
    generalize hn : strdup e w0 (x :: s) = nb at hc
    obtain ⟨na, wn⟩ := nb
    have hwn : wn = addCleanup (newBlock e w0 ((x :: s) ++ [0])).2 (.free na) ∧
        na = (newBlock e w0 ((x :: s) ++ [0])).1 := by
      unfold strdup at hn
      simp only [Prod.mk.injEq] at hn
      exact ⟨by rw [← hn.2, ← hn.1], hn.1.symm⟩
    simp only [] at hc
    have hmem : wn.mem = (na, (x :: s) ++ [0]) :: w0.mem := by rw [hwn.1, hwn.2]; rfl
    have hna : na ≠ 0 := by
      obtain ⟨l2, hl2⟩ := appendHidlString_mem hc
      rw [hl2, hmem] at hap
      exact hap.nonnull (na, (x :: s) ++ [0]) (by simp)
    have hld : wn.mem.load na ((x :: s).length + 1) = some ((x :: s) ++ [0]) := by
      rw [hmem]; exact load_block (by simp) (by omega)
    have hcs : wn.mem.cstr na = some (x :: s) := by
      refine load_cstr ?_ h0 hld
      obtain ⟨l2, hl2⟩ := appendHidlString_mem hc
      have := hap.apart
      rw [hl2] at this
      exact (List.pairwise_append.mp this).2.1
    obtain ⟨d, hp, hm⟩ := appendHidlString_pushed hc hna hcs
    have hp' : Pushed w0 w1 [.buf d 16 none,
        .buf na ((x :: s).length + 1) (some { index := w0.offsets.length, offset := 0 })] := by
      have e1 : wn.bytes = w0.bytes := by rw [hwn.1]; rfl
      have e2 : wn.offsets = w0.offsets := by rw [hwn.1]; rfl
      have e3 : wn.buffersSize = w0.buffersSize := by rw [hwn.1]; rfl
      have e4 : wn.io = w0.io := by rw [hwn.1]; rfl
      have e5 : wn.protocol = w0.protocol := by rw [hwn.1]; rfl
      rw [e2] at hp
      refine ⟨hp.io.trans e4, hp.proto.trans e5, hp.bytes.trans ?_, hp.offsets.trans ?_,
        hp.buffers.trans ?_⟩
      · simp only [Writer.pushAll, Writer.push, e1, e4]
      · simp only [Writer.pushAll, Writer.push, e1, e2, e4]
      · simp only [Writer.pushAll, Writer.push, e3]
    refine ⟨na, d, hna, h0, hp', ?_, ?_⟩
    · rw [hm]; exact load_block (length_hidlStringBytes _ _ _) (by omega)
    · rw [hm] at hap ⊢
      exact load_extend (l := [_]) hap.apart (by omega) hld

/-- C13 for gbinder_writer_append_hidl_string_copy, which makes a copy of the text: what happens
to the original afterwards doesn't matter. The address of the static empty string is `em`. -/
theorem C13_copy_round_trip {e : Env} {io : Io} {p : Protocol} {m : Mem} {pre post : List WOp}
    {w0 w1 w' : Writer} {addr : Nat → Nat} {dst : Mem} {b' : Bytes} {a em : Nat} {s : Bytes}
    (h : Sent e io p m pre (.hidlStringCopy a em) post w0 w1 w' addr dst b') (ha : a ≠ 0)
    (hs : w0.mem.cstr a = some s) (hem : em ≠ 0 ∧ w0.mem.cstr em = some []) (hl : s.length + 1 < 2 ^ 32)
    (pr : Protocol) :
    readHidlString dst (Reader.since io pr b' w'.offsets w0.bytes.length w0.offsets.length) =
      .ok (some s) (Reader.since io pr b' w'.offsets w1.bytes.length w1.offsets.length) := by
  obtain ⟨a', d, h1, h2, h3, h4, h5⟩ := sent_copy h ha hs hem
  exact read_string h h1 hl h3 h4 h2 h5 pr

/-- C13 for NULL: it arrives as NULL. -/
theorem C13_null {e : Env} {io : Io} {p : Protocol} {m : Mem} {pre post : List WOp}
    {w0 w1 w' : Writer} {addr : Nat → Nat} {dst : Mem} {b' : Bytes}
    (h : Sent e io p m pre (.hidlString 0) post w0 w1 w' addr dst b') (pr : Protocol) :
    readHidlString dst (Reader.since io pr b' w'.offsets w0.bytes.length w0.offsets.length) =
      .ok none (Reader.since io pr b' w'.offsets w1.bytes.length w1.offsets.length) := by
  obtain ⟨d, hp, hm⟩ := appendHidlString_null h.call
  obtain ⟨objs, t⟩ := h.transfer
  have hd : w1.mem.load d 16 = some (hidlStringBytes 0 0 true) := by
    rw [hm]; exact load_block (length_hidlStringBytes _ _ _) (by omega)
  obtain ⟨hd', hd0, hdm⟩ := h.load (by omega) hd
  have hpow := pow_ge io
  have rp := h.pair hp (by omega) (by omega) (by omega) (by omega) t
  obtain ⟨po, hr0⟩ := rp.read0 pr
  unfold readHidlString
  rw [hr0]
  simp only []
  have hpl0 := t.place _ _ _ _ rp.obj0
  rw [if_pos ⟨hpl0.1, trivial⟩, rp.read1 pr]
  simp only []
  have hdesc := take8_desc 0 0 true []
  rw [List.append_nil] at hdesc
  obtain ⟨hq1, hq2⟩ := recv_desc t rp.obj0 rp.obj1 (by omega) hd' (y := 0) (by simpa using hdesc.1)
    (by omega) (by
      intro j x hj hk
      obtain ⟨aj, lj, hx⟩ := rp.children j x hj hk
      exact ⟨aj, lj, 0, hx, .inr (.inl rfl)⟩)
  rw [Nat.add_zero] at hq1 hq2
  rw [Nat.zero_add, hdesc.2] at hq2
  unfold checkHidlString
  rw [if_pos ⟨rfl, rfl⟩]
  simp only [loadMem, hq1, hq2]
  rw [if_neg (by intro hc; exact absurd hc.2 (by decide))]

/-- A parcel with the string "ab" in the middle, for both ABIs. -/
example : (∃ w0 w1 w' dst b', Sent Demo.env .io64 .hidl Demo.mem
      [.int32 7, .hidlString 16] (.hidlString 16) [.hidlVec 16 3 1, .bool true]
      w0 w1 w' demoAddr dst b') ∧
    (∃ w0 w1 w' dst b', Sent Demo.env .io32 .hidl Demo.mem
      [.int32 7, .hidlString 16] (.hidlStringCopy 16 18) [.hidlStringVec [16]]
      w0 w1 w' demoAddr dst b') ∧
    (∃ w0 w1 w' dst b', Sent Demo.env .io64 .hidl Demo.mem
      [.int32 7] (.hidlString 0) [.hidlString 16] w0 w1 w' demoAddr dst b') ∧
    Demo.mem.cstr 16 = some [0x61, 0x62] ∧ Demo.mem.cstr 18 = some [] :=
  ⟨demoSent_sound (by decide +kernel), demoSent_sound (by decide +kernel),
    demoSent_sound (by decide +kernel), by decide, by decide⟩

end Gb.C13
