import Verif.Lemmas.Transfer
import Verif.Lemmas.TransferCheck
/-
C15. HIDL vectors arrive unchanged.  See C13 for `Sent` and the position of the receiver.
-/
set_option autoImplicit false

namespace Gb.C15
open Writer Reader Kernel

theorem appendHidlVec_pushed {e : Env} {w w' : Writer} {base c s : Nat} {bs : Bytes}
    (h : appendHidlVec e w base c s = .ok w') (hb : base ≠ 0) (h0 : c * s ≠ 0) (h1 : c * s < 2 ^ 32)
    (hl : w.mem.load base (c * s) = some bs) :
    ∃ vec buf, Pushed w w' [.buf vec 16 none,
        .buf buf (c * s) (some { index := w.offsets.length, offset := 0 })] ∧
      w'.mem = (vec, if buf ≠ 0 then hidlVecBytes buf c true else hidlVecBytes 0 0 true) ::
        (buf, bs) :: w.mem := by
  unfold appendHidlVec at h
  simp only [Nat.mod_eq_of_lt h1] at h
  obtain ⟨⟨buf, w1⟩, hm, h⟩ := bind_ok h
  unfold Writer.memdup at hm
  rw [if_neg (by omega), hl] at hm
  simp only [Except.ok.injEq] at hm
  generalize hn : newBlock e w bs = nb at hm
  have hw1 : w1 = { w with mem := (buf, bs) :: w.mem } := by
    rw [← hn] at hm
    unfold newBlock at hm
    cases hm
    rfl
  subst hw1
  by_cases hbuf : buf = 0
  · subst hbuf
    simp only [appendBufferObject_eq, bind, Except.bind, ne_eq, not_true_eq_false, if_false] at h ⊢
    cases h
    exact ⟨_, 0, ⟨rfl, rfl, rfl, rfl, rfl⟩, rfl⟩
  · simp only [appendBufferObject_eq, bind, Except.bind, ne_eq, hbuf, not_false_eq_true, if_true] at h
    cases h
    exact ⟨_, buf, ⟨rfl, rfl, rfl, rfl, rfl⟩, by rw [if_pos hbuf]; rfl⟩

theorem appendHidlVec_empty {e : Env} {w w' : Writer} {base c s : Nat}
    (h : appendHidlVec e w base c s = .ok w') (h0 : c * s % 2 ^ 32 = 0) :
    ∃ vec, Pushed w w' [.buf vec 16 none,
        .buf 0 0 (some { index := w.offsets.length, offset := 0 })] ∧
      w'.mem = (vec, hidlVecBytes 0 0 true) :: w.mem := by
  unfold appendHidlVec at h
  simp only [h0] at h
  obtain ⟨⟨buf, w1⟩, hm, h⟩ := bind_ok h
  unfold Writer.memdup at hm
  rw [if_pos (.inr rfl)] at hm
  cases hm
  simp only [appendBufferObject_eq, bind, Except.bind, ne_eq, not_true_eq_false, if_false] at h
  cases h
  exact ⟨_, ⟨rfl, rfl, rfl, rfl, rfl⟩, rfl⟩

theorem vec_desc (p n : Nat) :
    (hidlVecBytes p n true).take 8 = leBytes 8 p ∧ ((hidlVecBytes p n true).drop 8).take 4 = leBytes 4 n := by
  have := take8_desc p n true []
  rw [List.append_nil] at this
  exact this

theorem length_hidlVecBytes (p n : Nat) (ow : Bool) : (hidlVecBytes p n ow).length = 16 := by
  simp [hidlVecBytes]

/-- The first part of gbinder_reader_read_hidl_vec. -/
theorem read_vec {e : Env} {io : Io} {p : Protocol} {m : Mem} {pre post : List WOp} {op : WOp}
    {w0 w1 w' : Writer} {addr : Nat → Nat} {dst : Mem} {b' : Bytes} {vec buf c n : Nat}
    (h : Sent e io p m pre op post w0 w1 w' addr dst b')
    (hp : Pushed w0 w1 [.buf vec 16 none, .buf buf n (some { index := w0.offsets.length, offset := 0 })])
    (hv : w1.mem.load vec 16 = some (hidlVecBytes buf c true)) (hc : c < 2 ^ 32)
    (h3 : buf < 256 ^ io.ptrSize) (h4 : n < 256 ^ io.ptrSize)
    {objs : List KObj} (t : Transfer io w'.mem w'.bytes w'.offsets objs addr dst b') :
    RecvPair io w0 w1 w' objs addr b' vec 16 buf n ∧ addr (w0.offsets.length + 1) ≠ 0 ∧
    ∀ pr, readHidlVec dst (Reader.since io pr b' w'.offsets w0.bytes.length w0.offsets.length) =
      if (c = 0 ∧ n = 0) ∨ (c ≠ 0 ∧ n ≠ 0 ∧ n % c = 0) then
        .ok (some { ptr := addr (w0.offsets.length + 1), count := c,
                    elemsize := if c ≠ 0 then n / c else 0 })
          (Reader.since io pr b' w'.offsets w1.bytes.length w1.offsets.length)
      else .ok none (Reader.since io pr b' w'.offsets w1.bytes.length w1.offsets.length) := by
  obtain ⟨hv', _, hvm⟩ := h.load (by omega) hv
  have hpow := pow_ge io
  have rp := h.pair hp (by omega) (by omega) h3 h4 t
  have hpl0 := t.place _ _ _ _ rp.obj0
  have hpl1 := t.place _ _ _ _ rp.obj1
  refine ⟨rp, hpl1.1, fun pr => ?_⟩
  obtain ⟨po, hr0⟩ := rp.read0 pr
  unfold readHidlVec
  rw [hr0]
  simp only []
  rw [if_pos ⟨hpl0.1, trivial⟩]
  have hdesc := vec_desc buf c
  obtain ⟨hq1, hq2⟩ := recv_desc t rp.obj0 rp.obj1 (by omega) hv' (y := buf) (by simpa using hdesc.1)
    h3 (by
      intro j x hj hk
      obtain ⟨aj, lj, hx⟩ := rp.children j x hj hk
      exact ⟨aj, lj, 0, hx, .inr (.inl rfl)⟩)
  rw [Nat.add_zero] at hq1 hq2
  rw [Nat.zero_add, hdesc.2] at hq2
  simp only [loadMem, hq1, hq2]
  have hp64 := ptr_lt hpl1.2
  rw [leVal_leBytes_of_lt (show c < 256 ^ 4 by omega),
    leVal_leBytes_of_lt (show addr (w0.offsets.length + 1) < 256 ^ 8 by omega)]
  rw [if_pos hpl1.1, rp.read1 pr]
  simp only [true_and]

/-- What is in the parcel. -/
theorem sent_vec {e : Env} {io : Io} {p : Protocol} {m : Mem} {pre post : List WOp}
    {w0 w1 w' : Writer} {addr : Nat → Nat} {dst : Mem} {b' : Bytes} {base count elemsize : Nat}
    {bs : Bytes}
    (h : Sent e io p m pre (.hidlVec base count elemsize) post w0 w1 w' addr dst b')
    (hb : base ≠ 0) (h0 : 0 < count) (h1 : 0 < elemsize) (hsz : count * elemsize < 2 ^ 32)
    (hl : w0.mem.load base (count * elemsize) = some bs) :
    ∃ vec buf, Pushed w0 w1 [.buf vec 16 none,
        .buf buf (count * elemsize) (some { index := w0.offsets.length, offset := 0 })] ∧
      w1.mem.load vec 16 = some (hidlVecBytes buf count true) ∧ buf ≠ 0 ∧
      w1.mem.load buf (count * elemsize) = some bs := by
  have hne : 0 < count * elemsize := Nat.mul_pos h0 h1
  obtain ⟨vec, buf, hp, hm⟩ := appendHidlVec_pushed h.call hb (by omega) hsz hl
  obtain ⟨l, hml⟩ := runAll_mem post h.after h.still
  have hs := h.sane
  have hbuf : buf ≠ 0 := hs.nonnull (buf, bs) (by rw [hml, hm]; simp)
  rw [if_pos hbuf] at hm
  have hap : Mem.Apart w1.mem := by
    have := hs.apart
    rw [hml] at this
    exact (List.pairwise_append.mp this).2.1
  have hbs : bs.length = count * elemsize := load_length hl
  refine ⟨vec, buf, hp, ?_, hbuf, ?_⟩
  · rw [hm]; exact load_block (length_hidlVecBytes _ _ _) (by omega)
  · rw [hm] at hap ⊢
    exact load_extend (l := [_]) hap hne (load_block hbs hne)

/-- C15: elements, their number and size. -/
theorem C15_round_trip {e : Env} {io : Io} {p : Protocol} {m : Mem} {pre post : List WOp}
    {w0 w1 w' : Writer} {addr : Nat → Nat} {dst : Mem} {b' : Bytes} {base count elemsize : Nat}
    {bs : Bytes}
    (h : Sent e io p m pre (.hidlVec base count elemsize) post w0 w1 w' addr dst b')
    (hb : base ≠ 0) (h0 : 0 < count) (h1 : 0 < elemsize) (hsz : count * elemsize < 2 ^ 32)
    (hl : w0.mem.load base (count * elemsize) = some bs) (pr : Protocol) :
    ∃ ptr, readHidlVec dst (Reader.since io pr b' w'.offsets w0.bytes.length w0.offsets.length) =
        .ok (some { ptr := ptr, count := count, elemsize := elemsize })
          (Reader.since io pr b' w'.offsets w1.bytes.length w1.offsets.length) ∧
      ptr ≠ 0 ∧ dst.load ptr (count * elemsize) = some bs := by
  have hne : 0 < count * elemsize := Nat.mul_pos h0 h1
  obtain ⟨vec, buf, hp, hv, _, hlb⟩ := sent_vec h hb h0 h1 hsz hl
  obtain ⟨objs, t⟩ := h.transfer
  obtain ⟨hlb', _, hbm⟩ := h.load hne hlb
  have hcl : count < 2 ^ 32 := by
    have := Nat.le_mul_of_pos_right count h1
    omega
  have hpow := pow_ge io
  obtain ⟨rp, hne1, hr⟩ := read_vec h hp hv hcl (by omega) (by omega) t
  refine ⟨_, ?_, hne1, recv_leaf t rp.obj1 hlb' rp.leaf⟩
  rw [hr, if_pos (.inr ⟨by omega, by omega, Nat.mul_mod_right _ _⟩), if_pos (by omega),
    Nat.mul_div_cancel_left _ h0]

/-- C15 for empty vectors: no elements, and the pointer isn't NULL (NULL means a failure). -/
theorem C15_empty {e : Env} {io : Io} {p : Protocol} {m : Mem} {pre post : List WOp}
    {w0 w1 w' : Writer} {addr : Nat → Nat} {dst : Mem} {b' : Bytes} {base elemsize : Nat}
    (h : Sent e io p m pre (.hidlVec base 0 elemsize) post w0 w1 w' addr dst b') (pr : Protocol) :
    ∃ ptr, readHidlVec dst (Reader.since io pr b' w'.offsets w0.bytes.length w0.offsets.length) =
        .ok (some { ptr := ptr, count := 0, elemsize := 0 })
          (Reader.since io pr b' w'.offsets w1.bytes.length w1.offsets.length) ∧ ptr ≠ 0 := by
  obtain ⟨vec, hp, hm⟩ := appendHidlVec_empty h.call (by rw [Nat.zero_mul])
  obtain ⟨objs, t⟩ := h.transfer
  have hpow := pow_ge io
  obtain ⟨rp, hne1, hr⟩ := read_vec h hp
    (by rw [hm]; exact load_block (length_hidlVecBytes _ _ _) (by omega)) (by omega) (by omega)
    (by omega) t
  exact ⟨_, by rw [hr, if_pos (.inl ⟨rfl, rfl⟩)]; rfl, hne1⟩

/-- C15 for gbinder_reader_read_hidl_vec1, which expects a particular size of an element. -/
theorem C15_expected_size {e : Env} {io : Io} {p : Protocol} {m : Mem} {pre post : List WOp}
    {w0 w1 w' : Writer} {addr : Nat → Nat} {dst : Mem} {b' : Bytes} {base count elemsize : Nat}
    {bs : Bytes}
    (h : Sent e io p m pre (.hidlVec base count elemsize) post w0 w1 w' addr dst b')
    (hb : base ≠ 0) (h0 : 0 < count) (h1 : 0 < elemsize) (hsz : count * elemsize < 2 ^ 32)
    (hl : w0.mem.load base (count * elemsize) = some bs) (pr : Protocol) (expected : Nat) :
    ∃ ptr, readHidlVec1 dst (Reader.since io pr b' w'.offsets w0.bytes.length w0.offsets.length)
          expected =
        .ok (if elemsize = expected then some { ptr := ptr, count := count, elemsize := elemsize }
            else none)
          (Reader.since io pr b' w'.offsets w1.bytes.length w1.offsets.length) ∧
      ptr ≠ 0 ∧ dst.load ptr (count * elemsize) = some bs := by
  obtain ⟨ptr, h2, h3, h4⟩ := C15_round_trip h hb h0 h1 hsz hl pr
  refine ⟨ptr, ?_, h3, h4⟩
  unfold readHidlVec1
  rw [h2]
  by_cases hx : elemsize = expected
  · simp [Res.map, Res.bind, hx]
  · have : elemsize ≠ 0 := by omega
    simp [Res.map, Res.bind, hx, this]

/-- Three elements in the middle of a parcel; an empty vector. -/
example : (∃ w0 w1 w' dst b', Sent Demo.env .io64 .hidl Demo.mem
      [.int32 7, .hidlString 16] (.hidlVec 64 5 4) [.hidlVec 16 3 1, .bool true]
      w0 w1 w' demoAddr dst b') ∧
    (∃ w0 w1 w' dst b', Sent Demo.env .io32 .hidl Demo.mem
      [] (.hidlVec 64 0 4) [.hidlStringVec [16]] w0 w1 w' demoAddr dst b') ∧
    (Demo.mem.load 64 20).isSome = true :=
  ⟨demoSent_sound (by decide +kernel), demoSent_sound (by decide +kernel), by decide⟩

/-- Why the size has to be limited: with 2^31 elements of two bytes each nothing is sent. -/
example : ∃ e w base count elemsize w', 0 < count ∧ 0 < elemsize ∧
    appendHidlVec e w base count elemsize = .ok w' ∧ w'.buffersSize = 16 :=
  ⟨Demo.env, { io := .io64, protocol := .hidl, mem := Demo.mem }, 16, 2 ^ 31, 2, _, by decide,
    by decide, rfl, by decide +kernel⟩

end Gb.C15
