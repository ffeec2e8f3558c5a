import Verif.Lemmas.Mem
import Verif.Lemmas.Fixup
import Verif.Spec.Transfer
/-
What the receiver of a parcel sees.
-/
set_option autoImplicit false

namespace Gb
open Writer Reader Kernel

theorem slice_of_le {b : Bytes} {off n : Nat} (h : off + n ≤ b.length) :
    slice b off n = some ((b.drop off).take n) := by
  unfold slice; rw [if_pos h]

theorem u32At_field {b : Bytes} {off : Nat} (h : off + 4 ≤ b.length) :
    u32At b off = some (fieldAt b off 4) := by
  unfold u32At; rw [slice_of_le h]; rfl

theorem uptrAt_field {io : Io} {b : Bytes} {off : Nat} (h : off + io.ptrSize ≤ b.length) :
    uptrAt io b off = some (fieldAt b off io.ptrSize) := by
  unfold uptrAt; rw [slice_of_le h]; rfl

theorem decode_fields {io : Io} {b : Bytes} {o : Nat} (hf : o + io.bufferObjSize ≤ b.length)
    (hty : fieldAt b o 4 = typePtr) :
    decodeBufferObject io b o =
      some { data := fieldAt b (o + 8) io.ptrSize, size := fieldAt b (o + 8 + io.ptrSize) io.ptrSize,
             parentOffset := fieldAt b (o + 8 + 3 * io.ptrSize) io.ptrSize,
             hasParent := fieldAt b (o + 4) 4 % 2 = 1 } := by
  have hp := ptr_pos io
  have hb : 8 + 4 * io.ptrSize = io.bufferObjSize := rfl
  unfold decodeBufferObject
  rw [if_pos (by split <;> omega), if_pos (by rw [u32At_field (by omega), hty])]
  rw [u32At_field (by omega), uptrAt_field (by omega), uptrAt_field (by omega),
    uptrAt_field (by omega)]
  rfl

/-- A buffer object as the kernel sees it, and as the reader does. -/
theorem decode_of_getObject {io : Io} {b : Bytes} {o a len sz : Nat} {par : Option (Nat × Nat)}
    (h : getObject io b o = some (.buffer a len par, sz)) :
    ∃ po, decodeBufferObject io b o =
        some { data := a, size := len, parentOffset := po, hasParent := par.isSome } ∧
      ∀ i off, par = some (i, off) → po = off := by
  unfold getObject at h
  simp only [word_eq] at h
  split at h
  · cases h
  split at h
  · split at h <;> cases h
  split at h
  · split at h <;> cases h
  split at h
  · split at h <;> cases h
  split at h
  · split at h <;> cases h
  split at h
  · rename_i hty
    split at h
    · rename_i hf
      simp only [Option.some.injEq, Prod.mk.injEq, KObj.buffer.injEq] at h
      obtain ⟨⟨h1, h2, h3⟩, _⟩ := h
      have hb : 8 + 4 * io.ptrSize = io.bufferObjSize := rfl
      refine ⟨fieldAt b (o + 8 + 3 * io.ptrSize) io.ptrSize, ?_, ?_⟩
      · rw [decode_fields (by omega) (hty.trans (by decide)), h1, h2]
        congr 2
        rw [← h3]
        split
        · rename_i hx; simp [hx]
        · rename_i hx; simp [hx]
      · intro i off hpar
        rw [hpar] at h3
        split at h3
        · simp only [Option.some.injEq, Prod.mk.injEq] at h3
          exact h3.2
        · cases h3
    · cases h
  · cases h

/-- Reading a buffer object. -/
theorem read_received {io : Io} {src : Mem} {b : Bytes} {offs : List Nat} {objs : List KObj}
    {addr : Nat → Nat} {dst : Mem} {b' : Bytes} (t : Transfer io src b offs objs addr dst b')
    (pr : Protocol) {n o a len : Nat} {par : Option (Nat × Nat)} (ho : offs[n]? = some o)
    (hx : objs[n]? = some (.buffer a len par)) :
    ∃ po, (Reader.since io pr b' offs o n).readBufferObject =
        .ok { data := addr n, size := len, parentOffset := po, hasParent := par.isSome }
          (Reader.since io pr b' offs (o + io.bufferObjSize) (n + 1)) ∧
      ∀ i off, par = some (i, off) → po = off := by
  obtain ⟨po, h1, h2⟩ := decode_of_getObject (t.buffers n o a len par ho hx)
  refine ⟨po, ?_, h2⟩
  have hd : offs.drop n = o :: offs.drop (n + 1) := by
    obtain ⟨hn, rfl⟩ := List.getElem?_eq_some_iff.mp ho
    exact List.drop_eq_getElem_cons hn
  unfold readBufferObject
  rw [if_pos (by
    simp only [canReadObject, Reader.since, Reader.init, hd]
    simp)]
  simp only [Reader.since, Reader.init] at h1 ⊢
  rw [h1]
  simp only [eatObject, hd, List.tail_cons]

/-! ### Objects appended in a row -/

def Writer.pushAll (w : Writer) : List Obj → Writer
  | [] => w
  | x :: xs => (w.push x).pushAll xs

/-- `w1` is `w0` with `new` objects appended, except for the memory and the cleanup list. -/
structure Pushed (w0 w1 : Writer) (new : List Obj) : Prop where
  io : w1.io = w0.io
  proto : w1.protocol = w0.protocol
  bytes : w1.bytes = (w0.pushAll new).bytes
  offsets : w1.offsets = (w0.pushAll new).offsets
  buffers : w1.buffersSize = (w0.pushAll new).buffersSize

theorem grows_pushAll (al : Bool) (new : List Obj) : ∀ w : Writer, Grows al w (w.pushAll new) new := by
  induction new with
  | nil => intro w; exact Grows.refl al w
  | cons x xs ih => intro w; exact (Grows.push al w x).trans (ih (w.push x))

theorem Pushed.grows {w0 w1 : Writer} {new : List Obj} (h : Pushed w0 w1 new) (al : Bool) :
    Grows al w0 w1 new := by
  have g := grows_pushAll al new w0
  have := g.trans (Grows.of_same (w' := w1) (h.io.trans g.io.symm) (h.proto.trans g.proto.symm) h.bytes h.offsets
    h.buffers)
  rwa [List.append_nil] at this

def Obj.isBuf : Obj → Bool
  | .buf .. => true
  | _ => false

theorem pushAll_bufs (new : List Obj) : ∀ (w : Writer), (∀ x ∈ new, x.isBuf = true) →
    (w.pushAll new).bytes.length = w.bytes.length + w.io.bufferObjSize * new.length ∧
    (∀ k < new.length, (w.pushAll new).offsets[w.offsets.length + k]? =
      some (w.bytes.length + w.io.bufferObjSize * k)) ∧
    (w.pushAll new).offsets.length = w.offsets.length + new.length ∧
    (∃ o, (w.pushAll new).offsets = w.offsets ++ o) := by
  induction new with
  | nil =>
    intro w _
    refine ⟨by simp [Writer.pushAll], ?_, by simp [Writer.pushAll], [], by simp [Writer.pushAll]⟩
    intro k hk
    cases hk
  | cons x xs ih =>
    intro w h
    obtain ⟨h1, h2, h3, o, h4⟩ := ih (w.push x) (fun y hy => h y (List.mem_cons_of_mem _ hy))
    have hx := h x List.mem_cons_self
    have hb : (x.bytes w.io).length = w.io.bufferObjSize := by
      cases x with
      | buf d s par => simp [Obj.bytes, length_encodeBufferObject]
      | _ => cases hx
    have hio : (w.push x).io = w.io := rfl
    have hlen : (w.push x).bytes.length = w.bytes.length + w.io.bufferObjSize := by
      simp [Writer.push, hb]
    have hol : (w.push x).offsets.length = w.offsets.length + 1 := by simp [Writer.push]
    have hoff : (w.push x).offsets = w.offsets ++ [w.bytes.length] := rfl
    rw [hlen, hio] at h1 h2
    rw [hol] at h2 h3
    have hm : w.io.bufferObjSize * (xs.length + 1) =
        w.io.bufferObjSize * xs.length + w.io.bufferObjSize := Nat.mul_succ _ _
    refine ⟨?_, ?_, ?_, ?_⟩
    · rw [Writer.pushAll, h1, List.length_cons]; omega
    · intro k hk
      cases k with
      | zero =>
        rw [Writer.pushAll, h4, hoff]
        simp
      | succ k =>
        have := h2 k (by simpa using hk)
        rw [Writer.pushAll, show w.offsets.length + (k + 1) = w.offsets.length + 1 + k by omega, this]
        congr 1
        have : w.io.bufferObjSize * (k + 1) = w.io.bufferObjSize * k + w.io.bufferObjSize :=
          Nat.mul_succ _ _
        omega
    · rw [Writer.pushAll, h3, List.length_cons]; omega
    · exact ⟨_, by rw [Writer.pushAll, h4, hoff, List.append_assoc]⟩

/-! ### The calls that follow -/

theorem runAll_after {e : Env} (ops : List WOp) : ∀ {w w' : Writer}, WOp.runAll e w ops = .ok w' →
    (∀ op ∈ ops, op.isAppend = true) → (∀ op ∈ ops, op.parent = none) →
    ∃ rest, Grows false w w' rest ∧ Inner w.offsets.length w'.offsets.length rest := by
  induction ops with
  | nil => intro w w' h _ _; cases h; exact ⟨[], Grows.refl _ w, Inner.nil _ _⟩
  | cons op ops ih =>
    intro w w' h ha hp
    obtain ⟨w1, h1, h⟩ := bind_ok h
    obtain ⟨n1, g1, i1, _⟩ := run_fix h1 (ha op List.mem_cons_self)
    obtain ⟨n2, g2, i2⟩ := ih h (fun o ho => ha o (List.mem_cons_of_mem _ ho))
      (fun o ho => hp o (List.mem_cons_of_mem _ ho))
    have c1 := g1.count
    have c2 := g2.count
    exact ⟨_, g1.trans g2, (i1 (hp op List.mem_cons_self)).append i2 (by omega) (by omega)⟩

/-- Index of the parent. -/
def kparent : KObj → Option Nat
  | .buffer _ _ (some (i, _)) => some i
  | .fda _ i _ => some i
  | _ => none

/-- What is known about a parcel which has been sent. -/
structure SentObjs (io : Io) (w0 w1 w' : Writer) (new : List Obj) (objs : List KObj) : Prop where
  io0 : w0.io = io
  /-- The new objects among all objects. -/
  at_ : ∀ k, k < new.length → objs[w0.offsets.length + k]? = (new.map (Obj.kernel io))[k]?
  /-- Only they refer to each other. -/
  children : ∀ (j : Nat) x i, objs[j]? = some x → kparent x = some i → w0.offsets.length ≤ i →
    i < w0.offsets.length + new.length →
    ∃ k, j = w0.offsets.length + k ∧ (new.map (Obj.kernel io))[k]? = some x
  count : w1.offsets.length = w0.offsets.length + new.length
  few : w'.offsets.length < 2 ^ 32
  le : w1.offsets.length ≤ w'.offsets.length
  offs : ∃ o, w'.offsets = w1.offsets ++ o

theorem pow_ge (io : Io) : 2 ^ 32 ≤ 256 ^ io.ptrSize := by cases io <;> decide

theorem kparent_kernel {io : Io} {x : Obj} {i : Nat} (h : kparent (x.kernel io) = some i) :
    ∃ j, x.parentIdx = some j ∧ i = j % 256 ^ io.ptrSize := by
  cases x with
  | buf d s par =>
    cases par with
    | none => cases h
    | some p => simp only [Obj.kernel, Option.map_some, kparent, Option.some.injEq] at h
                exact ⟨p.index, rfl, h.symm⟩
  | fda n p =>
    simp only [Obj.kernel, kparent, Option.some.injEq] at h
    exact ⟨p.index, rfl, h.symm⟩
  | _ => cases h

theorem Sent.objs_of {e : Env} {io : Io} {p : Protocol} {m : Mem} {pre post : List WOp} {op : WOp}
    {w0 w1 w' : Writer} {addr : Nat → Nat} {dst : Mem} {b' : Bytes} {new : List Obj}
    (h : Sent e io p m pre op post w0 w1 w' addr dst b') (g1 : Grows false w0 w1 new)
    {objs : List KObj} (t : Transfer io w'.mem w'.bytes w'.offsets objs addr dst b') :
    SentObjs io w0 w1 w' new objs := by
  have hio : ∀ {ops : List WOp}, (∀ off v, WOp.overwriteInt32 off v ∉ ops) →
      ∀ op ∈ ops, op.isAppend = true := by
    intro ops ha op hop
    cases op <;> first | rfl | exact absurd hop (ha _ _)
  obtain ⟨hio0, s, hs⟩ := runAll_built (al := false) h.before
    (hio (fun off v hc => h.append off v (List.mem_append_left _ hc))) (by intro hc; cases hc)
  obtain ⟨rest, g2, hin⟩ := runAll_after post h.after
    (hio (fun off v hc => h.append off v (List.mem_append_right _ hc))) h.noParent
  have hb := (g1.trans g2).built s (by rw [hio0]; exact hs)
  rw [hio0] at hb
  have hfound := t.found
  unfold accepts at hfound
  split at hfound
  · rw [hb.placed.getObjects 0 (Nat.le_refl _)] at hfound
    simp only [Option.some.injEq] at hfound
    have hsl := hs.length_eq
    have hc1 := g1.count
    have hc2 := g2.count
    have hcl := hb.count_le
    have hbl := hb.length_eq
    have hsm := h.small
    have hpow := pow_ge io
    refine ⟨hio0, ?_, ?_, hc1, by omega, by omega, g2.offs⟩
    · intro k hk
      rw [← hfound, hsl]
      rw [List.map_append, List.map_append,
        List.getElem?_append_right (by simp), List.length_map,
        List.getElem?_append_left (by simp; omega)]
      congr 1
      omega
    · intro j x i hj hx h1 h2
      obtain ⟨r, hfix⟩ := t.fixed
      have hji : i < j := by
        have hc := fixups_childOk hfix j x hj
        cases x with
        | buffer a l par =>
          cases par with
          | none => cases hx
          | some q => cases hx; simpa using hc.1
        | fda n q off => cases hx; simpa using hc.1
        | _ => cases hx
      by_cases hjn : j < w0.offsets.length + new.length
      · refine ⟨j - w0.offsets.length, by omega, ?_⟩
        rw [← hj, ← hfound]
        rw [List.map_append, List.map_append,
          List.getElem?_append_right (by simp; omega), List.length_map,
          List.getElem?_append_left (by simp; omega), hsl]
      · rw [← hfound, List.map_append, List.map_append,
          List.getElem?_append_right (by simp; omega), List.getElem?_append_right (by simp; omega),
          List.getElem?_map] at hj
        cases hy : rest[j - (List.map (Obj.kernel io) s).length - (List.map (Obj.kernel io) new).length]? with
        | none => rw [hy] at hj; cases hj
        | some y =>
          rw [hy] at hj
          simp only [Option.map_some, Option.some.injEq] at hj
          rw [← hj] at hx
          obtain ⟨q, hq1, hq2⟩ := kparent_kernel hx
          have := hin y (List.mem_of_getElem? hy) q hq1
          rw [Nat.mod_eq_of_lt (by omega)] at hq2
          omega
  · cases hfound

theorem Sent.objs {e : Env} {io : Io} {p : Protocol} {m : Mem} {pre post : List WOp} {op : WOp}
    {w0 w1 w' : Writer} {addr : Nat → Nat} {dst : Mem} {b' : Bytes} {new : List Obj}
    (h : Sent e io p m pre op post w0 w1 w' addr dst b') (hp : Pushed w0 w1 new)
    {objs : List KObj} (t : Transfer io w'.mem w'.bytes w'.offsets objs addr dst b') :
    SentObjs io w0 w1 w' new objs := h.objs_of (hp.grows false) t

end Gb

namespace Gb
open Writer Reader Kernel

/-! ### Descriptors in transferred buffers -/

theorem leBytes_zero_ext (n : Nat) : ∀ (p x : Nat), x < 256 ^ p →
    leBytes (p + n) x = leBytes p x ++ List.replicate n 0 := by
  intro p
  induction p with
  | zero =>
    intro x hx
    have : x = 0 := by simpa using hx
    subst this
    simp only [leBytes, List.nil_append, Nat.zero_add]
    induction n with
    | zero => rfl
    | succ n ih => simp only [leBytes, Nat.zero_div, ih, List.replicate_succ]; rfl
  | succ p ih =>
    intro x hx
    rw [show p + 1 + n = (p + n) + 1 by omega]
    simp only [leBytes]
    rw [ih (x / 256) (by
      rw [Nat.pow_succ] at hx
      exact Nat.div_lt_of_lt_mul (by rw [Nat.mul_comm]; exact hx))]
    rfl

theorem leBytes8 {io : Io} {x : Nat} (h : x < 256 ^ io.ptrSize) :
    leBytes 8 x = leBytes io.ptrSize x ++ List.replicate (8 - io.ptrSize) 0 := by
  rw [← leBytes_zero_ext _ _ _ h]
  cases io <;> rfl

theorem take_drop_congr {a b : Bytes} {off n : Nat} (h : ∀ k, off ≤ k → k < off + n → a[k]? = b[k]?) :
    (a.drop off).take n = (b.drop off).take n := by
  apply List.ext_getElem?
  intro i
  rw [List.getElem?_take, List.getElem?_take]
  split
  · rw [List.getElem?_drop, List.getElem?_drop]
    exact h _ (by omega) (by omega)
  · rfl

/-- A pointer in a transferred buffer, followed by a 32-bit value. -/
theorem recv_desc {io : Io} {src : Mem} {b : Bytes} {offs : List Nat} {objs : List KObj}
    {addr : Nat → Nat} {dst : Mem} {b' : Bytes} (t : Transfer io src b offs objs addr dst b')
    {i j a len aj lj off y : Nat} {par : Option (Nat × Nat)} {c : Bytes}
    (hi : objs[i]? = some (.buffer a len par))
    (hj : objs[j]? = some (.buffer aj lj (some (i, off))))
    (hin : off + 16 ≤ len) (hc : src.load a len = some c)
    (hy : (c.drop off).take 8 = leBytes 8 y) (hy2 : y < 256 ^ io.ptrSize)
    (hun : ∀ (j' : Nat) x, objs[j']? = some x → kparent x = some i →
      ∃ aj lj o', x = .buffer aj lj (some (i, o')) ∧ (o' + 8 ≤ off ∨ o' = off ∨ off + 16 ≤ o')) :
    dst.load (addr i + off) 8 = some (leBytes 8 (addr j)) ∧
    dst.load (addr i + off + 8) 4 = some ((c.drop (off + 8)).take 4) := by
  obtain ⟨c0, c', h1, h2, h3, h4⟩ := t.copy i a len par hi
  rw [hc] at h1
  cases h1
  have hp := ptr_pos io
  have hp8 : io.ptrSize ≤ 8 := by cases io <;> decide
  have hkeep : ∀ k, off + io.ptrSize ≤ k → k < off + 16 → c'[k]? = c[k]? := by
    intro k hk1 hk2
    refine h4 k (by omega) ?_ ?_
    · intro j' aj' lj' off' hx
      obtain ⟨_, _, o', hx', ho⟩ := hun j' _ hx rfl
      simp only [KObj.buffer.injEq, Option.some.injEq, Prod.mk.injEq, true_and] at hx'
      rw [word_eq]
      omega
    · intro j' n off' hx
      obtain ⟨_, _, o', hx', ho⟩ := hun j' _ hx rfl
      cases hx'
  have hslot := h3 j aj lj off hj
  rw [word_eq] at hslot
  have hcl : c'.length = len := load_length h2
  rw [slice_of_le (by omega)] at hslot
  simp only [Option.some.injEq] at hslot
  constructor
  · rw [load_part t.sane.apart h2 (by omega)]
    congr 1
    have e1 : (c'.drop off).take 8 = (c'.drop off).take io.ptrSize ++
        ((c'.drop (off + io.ptrSize)).take (8 - io.ptrSize)) := by
      rw [← List.drop_drop, ← List.take_add]
      congr 1
      omega
    have e2 : (c.drop off).take 8 = (c.drop off).take io.ptrSize ++
        ((c.drop (off + io.ptrSize)).take (8 - io.ptrSize)) := by
      rw [← List.drop_drop, ← List.take_add]
      congr 1
      omega
    have haj := (t.place j aj lj _ hj).2
    rw [word_eq] at haj
    rw [e1, hslot, leBytes8 haj]
    congr 1
    rw [take_drop_congr (b := c) (fun k h1 h2 => hkeep k h1 (by omega))]
    rw [e2, leBytes8 hy2] at hy
    have hl : ((c.drop off).take io.ptrSize).length = (leBytes io.ptrSize y).length := by
      have : c.length = len := load_length hc
      simp; omega
    exact (List.append_inj hy hl).2
  · rw [Nat.add_assoc, load_part t.sane.apart h2 (by omega)]
    congr 1
    exact take_drop_congr (fun k h1 h2 => hkeep k (by omega) (by omega))

/-- A buffer without children is the same on the receiving side. -/
theorem recv_leaf {io : Io} {src : Mem} {b : Bytes} {offs : List Nat} {objs : List KObj}
    {addr : Nat → Nat} {dst : Mem} {b' : Bytes} (t : Transfer io src b offs objs addr dst b')
    {i a len : Nat} {par : Option (Nat × Nat)} {c : Bytes}
    (hi : objs[i]? = some (.buffer a len par)) (hc : src.load a len = some c)
    (hun : ∀ (j' : Nat) x, objs[j']? = some x → kparent x ≠ some i) :
    dst.load (addr i) len = some c := by
  obtain ⟨c0, c', h1, h2, h3, h4⟩ := t.copy i a len par hi
  rw [hc] at h1
  cases h1
  rw [h2]
  congr 1
  apply List.ext_getElem?
  intro k
  by_cases hk : k < len
  · refine h4 k hk ?_ ?_
    · intro j' aj' lj' off' hx; exact absurd rfl (hun j' _ hx)
    · intro j' n off' hx; exact absurd rfl (hun j' _ hx)
  · have l1 : c'.length = len := load_length h2
    have l2 : c.length = len := load_length hc
    rw [List.getElem?_eq_none (by omega), List.getElem?_eq_none (by omega)]

/-! ### HIDL strings -/

theorem strLen_cstr {m : Mem} {a : Nat} {s : Bytes} (ha : a ≠ 0) (h : m.cstr a = some s) :
    strLen m a = .ok s.length := by
  unfold strLen; rw [if_neg ha, h]

theorem appendHidlString_pushed {e : Env} {w w' : Writer} {a : Nat} {s : Bytes}
    (h : appendHidlString e w a = .ok w') (ha : a ≠ 0) (hs : w.mem.cstr a = some s) :
    ∃ d, Pushed w w' [.buf d 16 none,
        .buf a (s.length + 1) (some { index := w.offsets.length, offset := 0 })] ∧
      w'.mem = (d, hidlStringBytes a s.length true) :: w.mem := by
  obtain ⟨len, hm, h⟩ := bind_ok h
  rw [strLen_cstr ha hs] at hm
  cases hm
  simp only [appendBufferObject_eq, bind, Except.bind, ha, ne_eq, not_false_eq_true, if_true] at h
  cases h
  exact ⟨_, ⟨rfl, rfl, rfl, rfl, rfl⟩, rfl⟩

theorem appendHidlString_null {e : Env} {w w' : Writer} (h : appendHidlString e w 0 = .ok w') :
    ∃ d, Pushed w w' [.buf d 16 none,
        .buf 0 0 (some { index := w.offsets.length, offset := 0 })] ∧
      w'.mem = (d, hidlStringBytes 0 0 true) :: w.mem := by
  obtain ⟨len, hm, h⟩ := bind_ok h
  cases hm
  simp only [appendBufferObject_eq, bind, Except.bind, ne_eq, not_true_eq_false, if_false] at h
  cases h
  exact ⟨_, ⟨rfl, rfl, rfl, rfl, rfl⟩, rfl⟩

/-- Checking a received string: `desc` is the address of its descriptor. -/
theorem checkHidlString_ok {m : Mem} (hm : m.Apart) {desc off p : Nat} {s : Bytes} {o : BufferObj}
    (r : Reader) (h1 : m.load desc 8 = some (leBytes 8 p))
    (h2 : m.load (desc + 8) 4 = some (leBytes 4 s.length))
    (h3 : m.load p (s.length + 1) = some (s ++ [0])) (hs : (0 : Byte) ∉ s) (hp : p < 2 ^ 64)
    (hl : s.length + 1 < 2 ^ 32)
    (ho : o.hasParent = true ∧ o.parentOffset = off ∧ o.data = p ∧ o.size = s.length + 1) :
    checkHidlString m desc off o r = .ok (some s) r := by
  unfold checkHidlString
  rw [if_pos ⟨ho.1, ho.2.1⟩]
  simp only [loadMem, h1, h2]
  rw [leVal_leBytes_of_lt (show s.length < 256 ^ 4 by omega),
    leVal_leBytes_of_lt (show p < 256 ^ 8 by omega)]
  rw [if_pos ⟨ho.2.2.1, by rw [ho.2.2.2, Nat.mod_eq_of_lt hl]⟩]
  rw [load_part hm h3 (by omega)]
  simp only [List.drop_left, List.take_succ_cons, List.take_zero, if_true]
  rw [load_cstr hm hs h3]

theorem ptr_lt {io : Io} {x : Nat} (h : x < 256 ^ word io) : x < 2 ^ 64 := by
  have : 256 ^ word io ≤ 2 ^ 64 := by cases io <;> decide
  omega

theorem take8_desc (p n : Nat) (ow : Bool) (rest : Bytes) :
    ((hidlStringBytes p n ow ++ rest).take 8 = leBytes 8 p) ∧
    ((hidlStringBytes p n ow ++ rest).drop 8).take 4 = leBytes 4 n := by
  unfold hidlStringBytes
  constructor
  · simp only [List.append_assoc]
    rw [List.take_left' (by simp)]
  · simp only [List.append_assoc]
    rw [List.drop_left' (by simp), List.take_left' (by simp)]

/-- Where the new objects are. -/
theorem SentObjs.place {io : Io} {w0 w1 w' : Writer} {new : List Obj} {objs : List KObj}
    (so : SentObjs io w0 w1 w' new objs) (hp : Pushed w0 w1 new) (hb : ∀ x ∈ new, x.isBuf = true) :
    w1.bytes.length = w0.bytes.length + io.bufferObjSize * new.length ∧
    ∀ k < new.length, w'.offsets[w0.offsets.length + k]? =
      some (w0.bytes.length + io.bufferObjSize * k) := by
  obtain ⟨h1, h2, h3, _⟩ := pushAll_bufs new w0 hb
  rw [← hp.bytes, so.io0] at h1
  rw [← hp.offsets, so.io0] at h2
  refine ⟨h1, fun k hk => ?_⟩
  obtain ⟨o, ho⟩ := so.offs
  have := so.count
  rw [ho, List.getElem?_append_left (by omega)]
  exact h2 k hk

/-- Memory at the time of the transfer. -/
theorem Sent.load {e : Env} {io : Io} {p : Protocol} {m : Mem} {pre post : List WOp} {op : WOp}
    {w0 w1 w' : Writer} {addr : Nat → Nat} {dst : Mem} {b' : Bytes}
    (h : Sent e io p m pre op post w0 w1 w' addr dst b') {a n : Nat} {bs : Bytes} (hn : 0 < n)
    (hl : w1.mem.load a n = some bs) :
    w'.mem.load a n = some bs ∧ a ≠ 0 ∧ a + n ≤ 256 ^ io.ptrSize := by
  obtain ⟨l, hm⟩ := runAll_mem post h.after h.still
  have hs := h.sane
  rw [hm] at hs ⊢
  have hx := load_extend hs.apart hn hl
  have := load_in_space hs hn hx
  rw [word_eq] at this
  exact ⟨hx, this⟩

/-- A descriptor and what it points to, as received. -/
structure RecvPair (io : Io) (w0 w1 w' : Writer) (objs : List KObj) (addr : Nat → Nat) (b' : Bytes)
    (d n a l : Nat) : Prop where
  obj0 : objs[w0.offsets.length]? = some (.buffer d n none)
  obj1 : objs[w0.offsets.length + 1]? = some (.buffer a l (some (w0.offsets.length, 0)))
  children : ∀ (j : Nat) x, objs[j]? = some x → kparent x = some w0.offsets.length →
      ∃ aj lj, x = .buffer aj lj (some (w0.offsets.length, 0))
  leaf : ∀ (j : Nat) x, objs[j]? = some x → kparent x ≠ some (w0.offsets.length + 1)
  read0 : ∀ pr, ∃ po, (Reader.since io pr b' w'.offsets w0.bytes.length w0.offsets.length).readBufferObject =
    .ok { data := addr w0.offsets.length, size := n, parentOffset := po, hasParent := false }
      (Reader.since io pr b' w'.offsets (w0.bytes.length + io.bufferObjSize) (w0.offsets.length + 1))
  read1 : ∀ pr, (Reader.since io pr b' w'.offsets (w0.bytes.length + io.bufferObjSize)
      (w0.offsets.length + 1)).readBufferObject =
    .ok { data := addr (w0.offsets.length + 1), size := l, parentOffset := 0, hasParent := true }
      (Reader.since io pr b' w'.offsets w1.bytes.length w1.offsets.length)

theorem Sent.pair {e : Env} {io : Io} {p : Protocol} {m : Mem} {pre post : List WOp} {op : WOp}
    {w0 w1 w' : Writer} {addr : Nat → Nat} {dst : Mem} {b' : Bytes} {d n a l : Nat}
    (h : Sent e io p m pre op post w0 w1 w' addr dst b')
    (hp : Pushed w0 w1 [.buf d n none, .buf a l (some { index := w0.offsets.length, offset := 0 })])
    (h1 : d < 256 ^ io.ptrSize) (h2 : n < 256 ^ io.ptrSize) (h3 : a < 256 ^ io.ptrSize)
    (h4 : l < 256 ^ io.ptrSize)
    {objs : List KObj} (t : Transfer io w'.mem w'.bytes w'.offsets objs addr dst b') :
    RecvPair io w0 w1 w' objs addr b' d n a l := by
  have so := h.objs hp t
  obtain ⟨hlen, hoff⟩ := so.place hp (by
    intro x hx
    simp only [List.mem_cons, List.not_mem_nil, or_false] at hx
    rcases hx with rfl | rfl <;> rfl)
  have hpow := pow_ge io
  have hfew := so.few
  have hle := so.le
  have hcnt := so.count
  simp only [List.length_cons, List.length_nil] at hcnt hlen
  have hn0 := so.at_ 0 (by simp)
  have hn1 := so.at_ 1 (by simp)
  simp only [List.map_cons, List.getElem?_cons_zero, List.getElem?_cons_succ, Obj.kernel,
    Option.map_none, Option.map_some, Nat.add_zero] at hn0 hn1
  rw [Nat.mod_eq_of_lt h1, Nat.mod_eq_of_lt h2] at hn0
  rw [Nat.mod_eq_of_lt h3, Nat.mod_eq_of_lt h4, Nat.mod_eq_of_lt (by omega), Nat.zero_mod] at hn1
  have hch : ∀ (j : Nat) x i, objs[j]? = some x → kparent x = some i →
      w0.offsets.length ≤ i → i < w0.offsets.length + 2 →
      i = w0.offsets.length ∧ ∃ aj lj, x = .buffer aj lj (some (w0.offsets.length, 0)) := by
    intro j x i hj hk h5 h6
    obtain ⟨k, rfl, hx⟩ := so.children j x i hj hk h5 (by simpa using h6)
    match k, hx with
    | 0, hx => cases hx; cases hk
    | 1, hx =>
      rw [hn1] at hj
      cases hj
      cases hk
      exact ⟨rfl, _, _, rfl⟩
    | k + 2, hx => simp at hx
  have ho0 := hoff 0 (by simp)
  have ho1 := hoff 1 (by simp)
  rw [Nat.mul_zero, Nat.add_zero, Nat.add_zero] at ho0
  rw [Nat.mul_one] at ho1
  refine ⟨hn0, hn1, ?_, ?_, ?_, ?_⟩
  · intro j x hj hk
    exact (hch j x _ hj hk (Nat.le_refl _) (by omega)).2
  · intro j x hj hk
    have := (hch j x _ hj hk (by omega) (by omega)).1
    omega
  · intro pr
    obtain ⟨po, hr, _⟩ := read_received t pr ho0 hn0
    exact ⟨po, hr⟩
  · intro pr
    obtain ⟨po, hr, hpo⟩ := read_received t pr ho1 hn1
    rw [hr, hpo _ _ rfl, hlen, hcnt]
    rw [show w0.bytes.length + io.bufferObjSize + io.bufferObjSize =
      w0.bytes.length + io.bufferObjSize * (0 + 1 + 1) by omega]
    rfl

theorem length_hidlStringBytes (p n : Nat) (ow : Bool) : (hidlStringBytes p n ow).length = 16 := by
  simp [hidlStringBytes]

/-- A block as a whole. -/
theorem load_block {m : Mem} {d n : Nat} {bs : Bytes} (hl : bs.length = n) (hn : 0 < n) :
    Mem.load ((d, bs) :: m) d n = some bs := by
  rw [load_cons hn, if_pos ⟨Nat.le_refl _, by omega⟩, Nat.sub_self, List.drop_zero, ← hl,
    List.take_length]

end Gb
