import Verif.Spec.AndroidHidl
import Verif.Lemmas.Android
import Verif.Props.C10
import Verif.Props.C13
import Verif.Props.C14
import Verif.Props.C15
/-
Proofs of C80 for HIDL strings and vectors.
-/
set_option autoImplicit false

namespace Gb.C80
open Writer Reader Kernel Android

theorem accepts_spec {io : Io} {b : Bytes} {offs : List Nat} {objs : List KObj}
    (h : accepts io b offs = some objs) : offs.Pairwise (fun o o' => o + io.flatSize ≤ o') := by
  unfold accepts at h
  split at h
  · exact (C10.getObjects_spec h).2
  · cases h

theorem idxOf_get {io : Io} {offs : List Nat} (h : offs.Pairwise (fun o o' => o + io.flatSize ≤ o')) {n o : Nat}
    (ho : offs[n]? = some o) : offs.idxOf o = n := by
  obtain ⟨hn, rfl⟩ := List.getElem?_eq_some_iff.mp ho
  refine List.Nodup.idxOf_getElem ?_ _ _
  refine List.Pairwise.imp ?_ h
  intro a b hab
  have : 0 < io.flatSize := by cases io <;> decide
  omega

theorem num_le {n x : Nat} {b : Bytes} (h : b = leBytes n x) (hx : x < 256 ^ n) : num b 0 n = x := by
  have hl : b.length = n := by rw [h]; simp
  rw [num_eq b 0 n (by omega), List.drop_zero, List.take_of_length_le (by omega), h, leVal_leBytes_of_lt hx]

/-! ### What has been sent -/

theorem buffer_of {io : Io} {src : Mem} {b : Bytes} {offs : List Nat} {objs : List KObj}
    {addr : Nat → Nat} {dst : Mem} {b' : Bytes} (t : Transfer io src b offs objs addr dst b')
    {n o a len : Nat} {par : Option (Nat × Nat)} (ho : offs[n]? = some o)
    (hx : objs[n]? = some (.buffer a len par)) :
    Parcel.buffer ⟨io, b', offs, dst⟩ o = some ⟨n, addr n, len, par, o + io.bufferObjSize⟩ := by
  unfold Parcel.buffer
  simp only
  rw [if_pos (List.mem_of_getElem? ho), t.buffers n o a len par ho hx]
  simp only [idxOf_get (accepts_spec t.found) ho]
  rfl

theorem readBuffer_of {io : Io} {src : Mem} {b : Bytes} {offs : List Nat} {objs : List KObj}
    {addr : Nat → Nat} {dst : Mem} {b' : Bytes} (t : Transfer io src b offs objs addr dst b')
    {n o a len : Nat} (ho : offs[n]? = some o) (hx : objs[n]? = some (.buffer a len none)) :
    Parcel.readBuffer ⟨io, b', offs, dst⟩ o len = some ⟨n, addr n, len, none, o + io.bufferObjSize⟩ := by
  unfold Parcel.readBuffer
  rw [buffer_of t ho hx]
  simp

theorem readEmbedded_of {io : Io} {src : Mem} {b : Bytes} {offs : List Nat} {objs : List KObj}
    {addr : Nat → Nat} {dst : Mem} {b' : Bytes} (t : Transfer io src b offs objs addr dst b')
    {n o a len i off : Nat} {d : Buf} (hd : d.handle = i ∧ d.addr = addr i) (ho : offs[n]? = some o)
    (hx : objs[n]? = some (.buffer a len (some (i, off))))
    (hp : dst.load (addr i + off) 8 = some (leBytes 8 (addr n))) :
    Parcel.readEmbedded ⟨io, b', offs, dst⟩ d off o len =
      some ⟨n, addr n, len, some (i, off), o + io.bufferObjSize⟩ := by
  unfold Parcel.readEmbedded
  rw [buffer_of t ho hx]
  have hpl := ptr_lt (t.place _ _ _ _ hx).2
  simp only [Option.filter_some, hd.1, hd.2, Parcel.numAt, hp, Option.map_some,
    num_le rfl (show addr n < 256 ^ 8 by omega)]
  simp

theorem embeddedString_of {io : Io} {src : Mem} {b : Bytes} {offs : List Nat} {objs : List KObj}
    {addr : Nat → Nat} {dst : Mem} {b' : Bytes} (t : Transfer io src b offs objs addr dst b')
    {n o a i off : Nat} {d : Buf} {s : Bytes} (hd : d.handle = i ∧ d.addr = addr i) (ho : offs[n]? = some o)
    (hx : objs[n]? = some (.buffer a (s.length + 1) (some (i, off)))) (hl : s.length + 1 < 2 ^ 32)
    (hp : dst.load (addr i + off) 8 = some (leBytes 8 (addr n)))
    (hq : dst.load (addr i + off + 8) 4 = some (leBytes 4 s.length))
    (hs : dst.load (addr n) (s.length + 1) = some (s ++ [0])) :
    Parcel.embeddedString ⟨io, b', offs, dst⟩ d off o = some (s, o + io.bufferObjSize) := by
  unfold Parcel.embeddedString
  simp only [Parcel.numAt, hd.2, hq, Option.map_some, num_le rfl (show s.length < 256 ^ 4 by omega),
    Option.bind_eq_bind, Option.bind_some,
    readEmbedded_of t hd ho hx hp, hs]
  simp

theorem offs_pair {e : Env} {io : Io} {p : Protocol} {m : Mem} {pre post : List WOp} {op : WOp}
    {w0 w1 w' : Writer} {addr : Nat → Nat} {dst : Mem} {b' : Bytes} {d n a l : Nat}
    (h : Sent e io p m pre op post w0 w1 w' addr dst b')
    (hp : Pushed w0 w1 [.buf d n none, .buf a l (some { index := w0.offsets.length, offset := 0 })])
    {objs : List KObj} (t : Transfer io w'.mem w'.bytes w'.offsets objs addr dst b') :
    w'.offsets[w0.offsets.length]? = some w0.bytes.length ∧
    w'.offsets[w0.offsets.length + 1]? = some (w0.bytes.length + io.bufferObjSize) ∧
    w1.bytes.length = w0.bytes.length + io.bufferObjSize + io.bufferObjSize := by
  obtain ⟨hlen, hoff⟩ := (h.objs hp t).place hp (by
    intro x hx
    simp only [List.mem_cons, List.not_mem_nil, or_false] at hx
    rcases hx with rfl | rfl <;> rfl)
  have h0 := hoff 0 (by simp)
  have h1 := hoff 1 (by simp)
  rw [Nat.mul_zero, Nat.add_zero, Nat.add_zero] at h0
  rw [Nat.mul_one] at h1
  simp only [List.length_cons, List.length_nil] at hlen
  exact ⟨h0, h1, by omega⟩

theorem string_of {e : Env} {io : Io} {p : Protocol} {m : Mem} {pre post : List WOp} {op : WOp}
    {w0 w1 w' : Writer} {addr : Nat → Nat} {dst : Mem} {b' : Bytes} {a d : Nat} {s : Bytes}
    (h : Sent e io p m pre op post w0 w1 w' addr dst b') (hl : s.length + 1 < 2 ^ 32)
    (hp : Pushed w0 w1 [.buf d 16 none,
        .buf a (s.length + 1) (some { index := w0.offsets.length, offset := 0 })])
    (hd : w1.mem.load d 16 = some (hidlStringBytes a s.length true))
    (ht : w1.mem.load a (s.length + 1) = some (s ++ [0])) :
    Parcel.readString ⟨io, b', w'.offsets, dst⟩ w0.bytes.length = some (s, w1.bytes.length) := by
  obtain ⟨objs, t⟩ := h.transfer
  obtain ⟨hd', hd0, hdm⟩ := h.load (by omega) hd
  obtain ⟨ht', _, htm⟩ := h.load (by omega) ht
  have hpow := pow_ge io
  have rp := h.pair hp (by omega) (by omega) (by omega) (by omega) t
  obtain ⟨o0, o1, hlen⟩ := offs_pair h hp t
  have hdesc := take8_desc a s.length true []
  rw [List.append_nil] at hdesc
  obtain ⟨hq1, hq2⟩ := recv_desc t rp.obj0 rp.obj1 (by omega) hd' (y := a) (by simpa using hdesc.1)
    (by omega) (by
      intro j x hj hk
      obtain ⟨aj, lj, hx⟩ := rp.children j x hj hk
      exact ⟨aj, lj, 0, hx, .inr (.inl rfl)⟩)
  rw [Nat.zero_add, hdesc.2] at hq2
  unfold Parcel.readString
  rw [readBuffer_of t o0 rp.obj0]
  simp only [Option.bind_eq_bind, Option.bind_some]
  rw [embeddedString_of t ⟨rfl, rfl⟩ o1 rp.obj1 hl hq1 hq2 (recv_leaf t rp.obj1 ht' rp.leaf), hlen]

theorem null_of {e : Env} {io : Io} {p : Protocol} {m : Mem} {pre post : List WOp}
    {w0 w1 w' : Writer} {addr : Nat → Nat} {dst : Mem} {b' : Bytes}
    (h : Sent e io p m pre (.hidlString 0) post w0 w1 w' addr dst b') :
    Parcel.readString ⟨io, b', w'.offsets, dst⟩ w0.bytes.length = none := by
  obtain ⟨d, hp, hm⟩ := appendHidlString_null h.call
  obtain ⟨objs, t⟩ := h.transfer
  have hd : w1.mem.load d 16 = some (hidlStringBytes 0 0 true) := by
    rw [hm]; exact load_block (length_hidlStringBytes _ _ _) (by omega)
  obtain ⟨hd', hd0, hdm⟩ := h.load (by omega) hd
  have hpow := pow_ge io
  have rp := h.pair hp (by omega) (by omega) (by omega) (by omega) t
  obtain ⟨o0, o1, hlen⟩ := offs_pair h hp t
  have hdesc := take8_desc 0 0 true []
  rw [List.append_nil] at hdesc
  obtain ⟨hq1, hq2⟩ := recv_desc t rp.obj0 rp.obj1 (by omega) hd' (y := 0) (by simpa using hdesc.1)
    (by omega) (by
      intro j x hj hk
      obtain ⟨aj, lj, hx⟩ := rp.children j x hj hk
      exact ⟨aj, lj, 0, hx, .inr (.inl rfl)⟩)
  rw [Nat.zero_add, hdesc.2] at hq2
  unfold Parcel.readString
  rw [readBuffer_of t o0 rp.obj0]
  simp only [Option.bind_eq_bind, Option.bind_some, Parcel.embeddedString, Parcel.numAt, hq2, Option.map_some,
    num_le rfl (show 0 < 256 ^ 4 by omega), Parcel.readEmbedded, buffer_of t o1 rp.obj1, Option.filter_some]
  simp

theorem vec_of {e : Env} {io : Io} {p : Protocol} {m : Mem} {pre post : List WOp} {op : WOp}
    {w0 w1 w' : Writer} {addr : Nat → Nat} {dst : Mem} {b' : Bytes} {vec buf c size : Nat} {bs : Bytes}
    (h : Sent e io p m pre op post w0 w1 w' addr dst b')
    (hp : Pushed w0 w1 [.buf vec 16 none,
      .buf buf (c * size) (some { index := w0.offsets.length, offset := 0 })])
    (hv : w1.mem.load vec 16 = some (hidlVecBytes buf c true)) (hc : c < 2 ^ 32)
    (h3 : buf < 256 ^ io.ptrSize) (h4 : c * size < 256 ^ io.ptrSize)
    (hb : w'.mem.load buf (c * size) = some bs) :
    Parcel.readVec ⟨io, b', w'.offsets, dst⟩ size w0.bytes.length = some (c, bs, w1.bytes.length) := by
  obtain ⟨objs, t⟩ := h.transfer
  obtain ⟨hv', _, hvm⟩ := h.load (by omega) hv
  have hpow := pow_ge io
  have rp := h.pair hp (by omega) (by omega) h3 h4 t
  obtain ⟨o0, o1, hlen⟩ := offs_pair h hp t
  have hdesc := C15.vec_desc buf c
  obtain ⟨hq1, hq2⟩ := recv_desc t rp.obj0 rp.obj1 (by omega) hv' (y := buf) (by simpa using hdesc.1)
    h3 (by
      intro j x hj hk
      obtain ⟨aj, lj, hx⟩ := rp.children j x hj hk
      exact ⟨aj, lj, 0, hx, .inr (.inl rfl)⟩)
  rw [Nat.zero_add, hdesc.2] at hq2
  have hemb := readEmbedded_of t (d := ⟨w0.offsets.length, addr w0.offsets.length, 16, none,
    w0.bytes.length + io.bufferObjSize⟩) ⟨rfl, rfl⟩ o1 rp.obj1 hq1
  rw [Nat.add_zero] at hq2
  unfold Parcel.readVec
  rw [readBuffer_of t o0 rp.obj0]
  simp only [Option.bind_eq_bind, Option.bind_some, Parcel.numAt, hq2, Option.map_some,
    num_le rfl (show c < 256 ^ 4 by omega), hemb, recv_leaf t rp.obj1 hb rp.leaf, hlen]

theorem strings_of {io : Io} {w0 w1 w' : Writer} {addr : Nat → Nat} {dst : Mem} {b' : Bytes}
    {objs : List KObj} {vec strings : Nat} {strv : List Nat} {strs : List Bytes}
    (t : Transfer io w'.mem w'.bytes w'.offsets objs addr dst b')
    (rv : RecvVec io w0 w1 w' objs vec strings (List.zipWith (fun p s => (p, s.length)) strv strs))
    (hlen : strv.length = strs.length)
    (hb : w'.mem.load strings (16 * strs.length) = some
      ((List.zipWith (fun p s => (p, s.length)) strv strs).flatMap
        (fun d => hidlStringBytes d.1 d.2 (decide (d.1 ≠ 0)))))
    (hs : ∀ (k : Nat) p s, strv[k]? = some p → strs[k]? = some s →
      p ≠ 0 ∧ p < 256 ^ io.ptrSize ∧ s.length + 1 < 2 ^ 32 ∧ (0 : Byte) ∉ s ∧
      w'.mem.load p (s.length + 1) = some (s ++ [0])) (d : Buf)
    (hd : d.handle = w0.offsets.length + 1 ∧ d.addr = addr (w0.offsets.length + 1)) :
    ∀ n i, i + n = strs.length →
    Parcel.strings ⟨io, b', w'.offsets, dst⟩ d i n (w0.bytes.length + io.bufferObjSize * (2 + i)) =
      some (strs.drop i, w1.bytes.length) := by
  have hzl : (List.zipWith (fun p s => (p, s.length)) strv strs).length = strs.length := by
    simp [hlen]
  intro n
  induction n with
  | zero =>
    intro i hi
    have : strs.drop i = [] := List.drop_eq_nil_of_le (by omega)
    rw [Parcel.strings, this, rv.len1, hzl, ← hi]
    rfl
  | succ n ih =>
    intro i hi
    have hk : i < strs.length := by omega
    have hk' : i < strv.length := by omega
    have hs1 : strs[i]? = some strs[i] := List.getElem?_eq_getElem hk
    have hp1 : strv[i]? = some strv[i] := List.getElem?_eq_getElem hk'
    obtain ⟨hp0, hp2, hsl, hsz, hld⟩ := hs i _ _ hp1 hs1
    have hz : (List.zipWith (fun p s => (p, s.length)) strv strs)[i]? = some (strv[i], strs[i].length) := by
      rw [List.getElem?_zipWith, hp1, hs1]
    have ho := rv.obj2 i _ hz
    simp only [] at ho
    rw [if_pos hp0] at ho
    have hdr := block_drop (List.zipWith (fun p s => (p, s.length)) strv strs) i
    obtain ⟨hi', hz'⟩ := List.getElem?_eq_some_iff.mp hz
    rw [List.drop_eq_getElem_cons hi', hz', List.flatMap_cons] at hdr
    have hdesc := take8_desc strv[i] strs[i].length (decide (strv[i] ≠ 0))
      ((List.drop (i + 1) (List.zipWith (fun p s => (p, s.length)) strv strs)).flatMap
        (fun d => hidlStringBytes d.1 d.2 (decide (d.1 ≠ 0))))
    have ho1 := rv.obj1
    rw [hzl] at ho1
    obtain ⟨hq1, hq2⟩ := recv_desc t ho1 ho (by omega) hb (y := strv[i])
      (by rw [hdr]; exact hdesc.1) hp2 (by
        intro j x hj hkp
        obtain ⟨aj, lj, k, hx⟩ := rv.kids1 j x hj hkp
        refine ⟨aj, lj, _, hx, ?_⟩
        omega)
    rw [← List.drop_drop, hdr, hdesc.2] at hq2
    have hstr := embeddedString_of t hd (rv.off2 i (by omega)) ho hsl hq1 hq2
      (recv_leaf t ho hld (fun j x hj => rv.leaf j x i hj (by omega)))
    have hih := ih (i + 1) (by omega)
    rw [show w0.bytes.length + io.bufferObjSize * (2 + (i + 1)) =
        w0.bytes.length + io.bufferObjSize * (2 + i) + io.bufferObjSize by
      rw [show 2 + (i + 1) = 2 + i + 1 by omega, Nat.mul_succ]; omega] at hih
    rw [Parcel.strings]
    simp only [hstr, Option.bind_eq_bind, Option.bind_some, hih]
    rw [List.drop_eq_getElem_cons hk]

theorem stringVec_of {e : Env} {io : Io} {p : Protocol} {m : Mem} {pre post : List WOp}
    {w0 w1 w' : Writer} {addr : Nat → Nat} {dst : Mem} {b' : Bytes} {strv : List Nat}
    {strs : List Bytes}
    (h : Sent e io p m pre (.hidlStringVec strv) post w0 w1 w' addr dst b')
    (h0 : 0 ∉ strv) (hs : strv.map w0.mem.cstr = strs.map some)
    (hn : 16 * strs.length < 2 ^ 32) (hl : ∀ s ∈ strs, s.length + 1 < 2 ^ 32) :
    Parcel.readStringVec ⟨io, b', w'.offsets, dst⟩ w0.bytes.length = some (strs, w1.bytes.length) := by
  obtain ⟨objs, t⟩ := h.transfer
  have hpow := pow_ge io
  obtain ⟨hlen, hstr, hds4, vec, strings, hp, hv, hs1, hb⟩ := C14.sent_strings h h0 hs hn hl
  have hzl : (List.zipWith (fun p s => (p, s.length)) strv strs).length = strs.length := by
    simp [hlen]
  obtain ⟨hv', _, hvm⟩ := h.load (by omega) hv
  have rv := h.vec hp (by omega) hs1 (by omega) hds4 t
  have hdesc := C15.vec_desc strings strs.length
  obtain ⟨hq1, hq2⟩ := recv_desc t rv.obj0 rv.obj1 (by omega) hv' (y := strings)
    (by simpa using hdesc.1) hs1 (by
      intro j x hj hk
      obtain ⟨aj, lj, hx⟩ := rv.kids0 j x hj hk
      exact ⟨aj, lj, 0, hx, .inr (.inl rfl)⟩)
  rw [Nat.zero_add, hdesc.2] at hq2
  have hemb := readEmbedded_of t (d := ⟨w0.offsets.length, addr w0.offsets.length, 16, none,
    w0.bytes.length + io.bufferObjSize⟩) ⟨rfl, rfl⟩ rv.off1 rv.obj1 hq1
  rw [hzl, Nat.mul_comm 16] at hemb
  rw [Nat.add_zero] at hq2
  unfold Parcel.readStringVec
  rw [readBuffer_of t rv.off0 rv.obj0]
  simp only [Option.bind_eq_bind, Option.bind_some, Parcel.numAt, hq2, Option.map_some,
    num_le rfl (show strs.length < 256 ^ 4 by omega), hemb]
  by_cases hne : strs = []
  · subst hne
    have := rv.len1
    simp only [List.zipWith_nil_right, List.length_nil, Nat.add_zero] at this
    simp only [List.length_nil, Parcel.strings, this, Option.some.injEq, Prod.mk.injEq, true_and]
    omega
  · have := strings_of t rv hlen (hb hne) hstr ⟨w0.offsets.length + 1, addr (w0.offsets.length + 1),
      strs.length * 16, some (w0.offsets.length, 0), w0.bytes.length + io.bufferObjSize + io.bufferObjSize⟩
      ⟨rfl, rfl⟩ strs.length 0 (by omega)
    rw [Nat.add_zero, List.drop_zero, show w0.bytes.length + io.bufferObjSize * 2 =
      w0.bytes.length + io.bufferObjSize + io.bufferObjSize by omega] at this
    exact this

/-! ### What has been received -/

theorem getObjects_apart {io : Io} {b : Bytes} : ∀ {lo : Nat} {os : List Nat} {xs : List KObj},
    getObjects io b lo os = some xs → (∀ o ∈ os, lo ≤ o) ∧
    os.Pairwise (fun o o' => ∀ x n, getObject io b o = some (x, n) → o + n ≤ o') := by
  intro lo os
  induction os generalizing lo with
  | nil => intro xs _; simp
  | cons o os ih =>
    intro xs h
    unfold getObjects at h
    cases hg : getObject io b o with
    | none => rw [hg] at h; simp at h
    | some y =>
      obtain ⟨x, n⟩ := y
      rw [hg] at h
      simp only [] at h
      split at h
      · rename_i hlo
        cases hr : getObjects io b (o + n) os with
        | none => rw [hr] at h; simp at h
        | some ys =>
          obtain ⟨h1, h2⟩ := ih hr
          refine ⟨?_, ?_⟩
          · intro o' ho'
            rcases List.mem_cons.mp ho' with rfl | ho'
            · exact hlo
            · have := h1 o' ho'; omega
          · refine List.Pairwise.cons ?_ h2
            intro o' ho' x' n' hx
            rw [hg] at hx
            cases hx
            exact h1 o' ho'
      · simp at h

theorem buffer_inv {c : Parcel} (hc : c.Delivered) {p : Nat} {b : Buf} (h : c.buffer p = some b) {i : Nat}
    (hi : c.offs[i]? = some p) (pr : Protocol) :
    b.handle = i ∧ b.addr ≠ 0 ∧ (∃ po, (Reader.since c.io pr c.data c.offs p i).readBufferObject =
        .ok { data := b.addr, size := b.len, parentOffset := po, hasParent := b.parent.isSome }
          (Reader.since c.io pr c.data c.offs b.next (i + 1)) ∧
      ∀ j off, b.parent = some (j, off) → po = off) ∧
    ∀ b', c.buffer b.next = some b' → c.offs[i + 1]? = some b.next := by
  obtain ⟨objs, ho⟩ := hc.objects
  have hsorted := accepts_spec ho
  unfold Parcel.buffer at h
  rw [if_pos (List.mem_of_getElem? hi)] at h
  split at h
  · rename_i a len par n hg
    cases h
    obtain ⟨po, h1, h2⟩ := decode_of_getObject hg
    have hn : n = c.io.bufferObjSize := by
      unfold getObject at hg
      simp only [word_eq] at hg
      repeat' split at hg
      all_goals first
        | (simp only [Option.some.injEq, Prod.mk.injEq] at hg; exact hg.2.symm)
        | simp at hg
    refine ⟨idxOf_get hsorted hi, hc.nonnull p (List.mem_of_getElem? hi) _ _ _ _ hg, ⟨po, ?_, h2⟩, ?_⟩
    · have hd : c.offs.drop i = p :: c.offs.drop (i + 1) := by
        obtain ⟨hn, rfl⟩ := List.getElem?_eq_some_iff.mp hi
        exact List.drop_eq_getElem_cons hn
      unfold readBufferObject
      rw [if_pos (by
        simp only [canReadObject, Reader.since, Reader.init, hd]
        simp)]
      simp only [Reader.since, Reader.init] at h1 ⊢
      rw [h1]
      simp only [eatObject, hd, List.tail_cons, hn]
    · intro b' hb'
      unfold Parcel.buffer at hb'
      split at hb'
      · rename_i hm
        unfold accepts at ho
        split at ho
        · have hp := (getObjects_apart ho).2
          obtain ⟨j, hj⟩ := List.mem_iff_getElem?.mp hm
          simp only at hj ⊢
          obtain ⟨hil, hie⟩ := List.getElem?_eq_some_iff.mp hi
          obtain ⟨hjl, hje⟩ := List.getElem?_eq_some_iff.mp hj
          have hpos : 0 < c.io.flatSize := by cases c.io <;> decide
          have hnpos : 0 < n := by rw [hn]; cases c.io <;> decide
          rw [List.pairwise_iff_getElem] at hp hsorted
          have hij : i < j := by
            rcases Nat.lt_trichotomy i j with h | h | h
            · exact h
            · subst h; omega
            · have := hsorted j i hjl hil h; omega
          have h1' := hp i (i + 1) hil (by omega) (by omega) _ _ (by rw [hie]; exact hg)
          by_cases hj1 : j = i + 1
          · subst hj1; exact hj
          · have := hsorted (i + 1) j (by omega) hjl (by omega)
            omega
        · cases ho
      · cases hb'
  · cases h

theorem numAt_inv {c : Parcel} {a n x : Nat} (h : c.numAt a n = some x) :
    c.mem.load a n = some (leBytes n x) ∧ x < 256 ^ n := by
  unfold Parcel.numAt at h
  cases hl : c.mem.load a n with
  | none => rw [hl] at h; cases h
  | some bs =>
    rw [hl] at h
    simp only [Option.map_some, Option.some.injEq] at h
    have hlen := load_length hl
    rw [num_eq bs 0 n (by omega), List.drop_zero, List.take_of_length_le (by omega)] at h
    subst h
    subst hlen
    exact ⟨by rw [leBytes_leVal], leVal_lt bs⟩

theorem bind_some {α β : Type} {x : Option α} {f : α → Option β} {y : β} (h : x.bind f = some y) :
    ∃ a, x = some a ∧ f a = some y := by
  cases x with
  | none => cases h
  | some a => exact ⟨a, rfl, h⟩

theorem readBuffer_inv {c : Parcel} {p n : Nat} {b : Buf} (h : c.readBuffer p n = some b) :
    c.buffer p = some b ∧ b.parent = none ∧ b.len = n := by
  unfold Parcel.readBuffer at h
  rw [Option.filter_eq_some_iff] at h
  simpa using h

theorem readEmbedded_inv {c : Parcel} {d : Buf} {off p n : Nat} {b : Buf}
    (h : c.readEmbedded d off p n = some b) :
    c.buffer p = some b ∧ b.parent = some (d.handle, off) ∧ b.len = n ∧
      c.numAt (d.addr + off) 8 = some b.addr := by
  unfold Parcel.readEmbedded at h
  rw [Option.filter_eq_some_iff] at h
  simpa using h

theorem embeddedString_inv {c : Parcel} (hc : c.Delivered) {d : Buf} {off p q i : Nat} {s : Bytes}
    (h : c.embeddedString d off p = some (s, q)) (hi : c.offs[i]? = some p) (h0 : (0 : Byte) ∉ s)
    (hl : s.length + 1 < 2 ^ 32) (pr : Protocol) :
    ∃ o, (Reader.since c.io pr c.data c.offs p i).readBufferObject =
        .ok o (Reader.since c.io pr c.data c.offs q (i + 1)) ∧
      (∀ r, checkHidlString c.mem (d.addr + off) off o r = .ok (some s) r) ∧
      ∀ b', c.buffer q = some b' → c.offs[i + 1]? = some q := by
  unfold Parcel.embeddedString at h
  obtain ⟨n, hn, h⟩ := bind_some h
  obtain ⟨b, hb, h⟩ := bind_some h
  obtain ⟨t, ht, h⟩ := bind_some h
  split at h
  · rename_i hz
    simp only [Option.some.injEq, Prod.mk.injEq] at h
    obtain ⟨rfl, rfl⟩ := h
    obtain ⟨hn1, hn2⟩ := numAt_inv hn
    obtain ⟨hb1, hb2, hb3, hb4⟩ := readEmbedded_inv hb
    obtain ⟨hp1, hp2⟩ := numAt_inv hb4
    obtain ⟨_, _, ⟨po, hr, hpo⟩, hnext⟩ := buffer_inv hc hb1 hi pr
    have htl := load_length ht
    have hsl : (t.take n).length = n := by rw [List.length_take]; omega
    refine ⟨_, hr, ?_, hnext⟩
    intro r
    refine checkHidlString_ok hc.apart r hp1 (by rw [hsl]; exact hn1) ?_ h0 (by omega) hl
      ⟨by rw [hb2]; rfl, hpo _ _ hb2, rfl, by rw [hsl]; exact hb3⟩
    rw [hsl, ← hz, List.take_append_drop]
    exact ht
  · cases h

theorem readString_inv {c : Parcel} (hc : c.Delivered) {p q i : Nat} {s : Bytes}
    (h : c.readString p = some (s, q)) (hi : c.offs[i]? = some p) (h0 : (0 : Byte) ∉ s)
    (hl : s.length + 1 < 2 ^ 32) (pr : Protocol) :
    readHidlString c.mem (Reader.since c.io pr c.data c.offs p i) =
      .ok (some s) (Reader.since c.io pr c.data c.offs q (i + 2)) := by
  unfold Parcel.readString at h
  obtain ⟨d, hd, h⟩ := bind_some h
  obtain ⟨hd1, hd2, hd3⟩ := readBuffer_inv hd
  obtain ⟨_, ha, ⟨po, hr, _⟩, hnext⟩ := buffer_inv hc hd1 hi pr
  have hb : ∃ b', c.buffer d.next = some b' := by
    unfold Parcel.embeddedString at h
    obtain ⟨n, hn, h⟩ := bind_some h
    obtain ⟨b, hb, h⟩ := bind_some h
    exact ⟨b, (readEmbedded_inv hb).1⟩
  obtain ⟨b', hb⟩ := hb
  obtain ⟨o, hr2, hck, _⟩ := embeddedString_inv hc h (hnext b' hb) h0 hl pr
  unfold readHidlString
  rw [hr]
  simp only
  rw [if_pos ⟨ha, hd3⟩, hr2]
  simp only
  have := hck (Reader.since c.io pr c.data c.offs q (i + 1 + 1))
  rw [Nat.add_zero] at this
  exact this

theorem readVec_inv {c : Parcel} (hc : c.Delivered) {p q i n size : Nat} {s : Bytes}
    (h : c.readVec size p = some (n, s, q)) (hi : c.offs[i]? = some p) (hz : 0 < size) (pr : Protocol) :
    ∃ ptr, readHidlVec c.mem (Reader.since c.io pr c.data c.offs p i) =
        .ok (some { ptr := ptr, count := n, elemsize := if n = 0 then 0 else size })
          (Reader.since c.io pr c.data c.offs q (i + 2)) ∧
      ptr ≠ 0 ∧ c.mem.load ptr (n * size) = some s := by
  unfold Parcel.readVec at h
  obtain ⟨d, hd, h⟩ := bind_some h
  obtain ⟨k, hk, h⟩ := bind_some h
  obtain ⟨b, hb, h⟩ := bind_some h
  obtain ⟨t, ht, h⟩ := bind_some h
  cases h
  obtain ⟨hd1, hd2, hd3⟩ := readBuffer_inv hd
  obtain ⟨_, ha, ⟨po, hr, _⟩, hnext⟩ := buffer_inv hc hd1 hi pr
  obtain ⟨hb1, hb2, hb3, hb4⟩ := readEmbedded_inv hb
  obtain ⟨_, ha2, ⟨po2, hr2, _⟩, _⟩ := buffer_inv hc hb1 (hnext _ hb1) pr
  obtain ⟨hn1, hn2⟩ := numAt_inv hk
  obtain ⟨hp1, hp2⟩ := numAt_inv hb4
  rw [Nat.add_zero] at hp1
  refine ⟨b.addr, ?_, ha2, ht⟩
  unfold readHidlVec
  rw [hr]
  simp only
  rw [if_pos ⟨ha, hd3⟩]
  simp only [loadMem, hn1, hp1]
  rw [leVal_leBytes_of_lt hn2, leVal_leBytes_of_lt hp2, if_pos ha2, hr2]
  simp only [hb3]
  by_cases hn : n = 0
  · subst hn
    simp
  · have : 0 < n * size := Nat.mul_pos (by omega) hz
    rw [if_pos ⟨trivial, .inr ⟨hn, by omega, Nat.mul_mod_right _ _⟩⟩, if_pos hn, if_neg hn,
      Nat.mul_div_cancel_left _ (by omega)]

theorem strings_inv {c : Parcel} (hc : c.Delivered) {d : Buf} (pr : Protocol) : ∀ {k j p q i : Nat} {l : List Bytes},
    c.strings d j k p = some (l, q) → (∀ b', c.buffer p = some b' → c.offs[i]? = some p) →
    (∀ s ∈ l, (0 : Byte) ∉ s ∧ s.length + 1 < 2 ^ 32) →
    readStringVecLoop c.mem d.addr j k (Reader.since c.io pr c.data c.offs p i) =
      .ok (some l) (Reader.since c.io pr c.data c.offs q (i + k)) := by
  intro k
  induction k with
  | zero =>
    intro j p q i l h _ _
    cases h
    rfl
  | succ k ih =>
    intro j p q i l h hi hl
    rw [Parcel.strings] at h
    obtain ⟨⟨s, p1⟩, hs, h⟩ := bind_some h
    obtain ⟨⟨l', q'⟩, hl', h⟩ := bind_some h
    cases h
    have hb : ∃ b', c.buffer p = some b' := by
      have hs' := hs
      unfold Parcel.embeddedString at hs'
      obtain ⟨n, hn, h⟩ := bind_some hs'
      obtain ⟨b, hb, h⟩ := bind_some h
      exact ⟨b, (readEmbedded_inv hb).1⟩
    obtain ⟨b', hb⟩ := hb
    obtain ⟨h0, h1⟩ := hl s (by simp)
    obtain ⟨o, hr, hck, hnext⟩ := embeddedString_inv hc hs (hi b' hb) h0 h1 pr
    have := ih hl' hnext (fun x hx => hl x (by simp [hx]))
    rw [readStringVecLoop, hr]
    simp only [hck, this, Nat.add_assoc, Nat.add_comm 1 k]

theorem readStringVec_inv {c : Parcel} (hc : c.Delivered) {p q i : Nat} {l : List Bytes}
    (h : c.readStringVec p = some (l, q)) (hi : c.offs[i]? = some p)
    (hl : ∀ s ∈ l, (0 : Byte) ∉ s ∧ s.length + 1 < 2 ^ 32) (pr : Protocol) :
    ∃ j, readHidlStringVec c.mem (Reader.since c.io pr c.data c.offs p i) =
      .ok (some l) (Reader.since c.io pr c.data c.offs q j) := by
  unfold Parcel.readStringVec at h
  obtain ⟨d, hd, h⟩ := bind_some h
  obtain ⟨k, hk, h⟩ := bind_some h
  obtain ⟨b, hb, h⟩ := bind_some h
  obtain ⟨hd1, hd2, hd3⟩ := readBuffer_inv hd
  obtain ⟨_, ha, ⟨po, hr, _⟩, hnext⟩ := buffer_inv hc hd1 hi pr
  obtain ⟨hb1, hb2, hb3, hb4⟩ := readEmbedded_inv hb
  obtain ⟨_, ha2, ⟨po2, hr2, hpo2⟩, hnext2⟩ := buffer_inv hc hb1 (hnext _ hb1) pr
  obtain ⟨hn1, hn2⟩ := numAt_inv hk
  obtain ⟨hp1, hp2⟩ := numAt_inv hb4
  rw [Nat.add_zero] at hp1
  refine ⟨i + 1 + 1 + k, ?_⟩
  unfold readHidlStringVec
  rw [hr]
  simp only
  rw [if_pos ⟨ha, hd3⟩]
  simp only [loadMem, hn1, hp1]
  rw [leVal_leBytes_of_lt hn2, leVal_leBytes_of_lt hp2, if_neg (fun h => ha2 h.1), hr2]
  simp only
  rw [if_pos ⟨hpo2 _ _ hb2, by rw [hb2]; rfl, trivial, by rw [hb3]; omega⟩]
  exact strings_inv hc pr h hnext2 hl

end Gb.C80
