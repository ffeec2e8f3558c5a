import Verif.Model.FmqDesc
import Verif.Spec.AndroidFmq
import Verif.Lemmas.AndroidHidl
import Verif.Lemmas.AndroidObjects
/-
The description of a message queue as Android reads it.
-/
set_option autoImplicit false

namespace Gb.C82
open Writer Reader Kernel Android Fmq

theorem part {m : Mem} {a n : Nat} {x : Bytes} (hap : m.Apart) (hm : m.load a n = some x) (A B C : Bytes) {k j : Nat}
    (h : x = A ++ B ++ C) (hi : A.length = k) (hj : B.length = j) : m.load (a + k) j = some B := by
  have hl := load_length hm
  rw [load_part hap hm (by rw [h] at hl; simp at hl; omega)]
  subst h hi hj
  rw [List.append_assoc, List.drop_left, List.take_left]

theorem length_flatMap {α : Type} (f : α → Bytes) (n : Nat) (h : ∀ x, (f x).length = n) :
    ∀ l : List α, (l.flatMap f).length = n * l.length
  | [] => rfl
  | x :: l => by
    rw [List.flatMap_cons, List.length_append, h x, length_flatMap f n h l, List.length_cons, Nat.mul_succ]
    omega

theorem length_grantor (g : Grantor) : g.bytes.length = 24 := by simp [Grantor.bytes]

theorem length_bytes (d : Desc) (g f : Nat) : (d.bytes g f).length = 32 := by simp [Desc.bytes, hidlVecBytes]

theorem length_fdsBytes (d : Desc) : d.fdsBytes.length = 12 + 4 * d.fds.length := by
  simp only [Desc.fdsBytes, List.length_append, length_leBytes, length_flatMap (leBytes 4) 4 (fun _ => length_leBytes _ _)]

/-- After the descriptor and the grantors. -/
def start (w6 : Writer) (d : Desc) (mq g : Nat) : Writer :=
  (w6.push (.buf mq 32 none)).push
    (.buf g (24 * d.grantors.length) (some { index := w6.offsets.length, offset := 0 }))

/-- After the size of the handle. -/
def middle (w6 : Writer) (d : Desc) (mq g : Nat) : Writer :=
  (start w6 d mq g).pushRaw (leBytes 8 (12 + 4 * d.fds.length))

def finish (w6 : Writer) (d : Desc) (mq g f : Nat) : Writer :=
  ((middle w6 d mq g).push (.buf f (12 + 4 * d.fds.length) (some { index := w6.offsets.length, offset := 16 }))).push
    (.fda d.fds.length { index := w6.offsets.length + 2, offset := 12 })

theorem memdup_ok {e : Env} {w w' : Writer} {b n a : Nat} (h : memdup e w b n = .ok (a, w')) (hb : b ≠ 0)
    (hn : n ≠ 0) : ∃ y, w.mem.load b n = some y ∧ w' = { w with mem := (a, y) :: w.mem } := by
  unfold Writer.memdup at h
  rw [if_neg (by omega)] at h
  split at h
  · rename_i y hy
    refine ⟨y, hy, ?_⟩
    unfold newBlock at h
    cases h
    rfl
  · cases h

theorem append_exact {e : Env} {w w' : Writer} {a : Nat} {d : Desc} (h : appendFmqDescriptor e w a = .ok w')
    (hap : w.mem.Apart) (hap' : w'.mem.Apart) (hd : d.At w.mem a) (hg0 : d.grantors ≠ []) (hgl : d.grantors.length < 2 ^ 32)
    (hfl : d.fds.length < 2 ^ 32) (hlim : ∀ b n bs, 0 < n → w.mem.load b n = some bs → b < 256 ^ 8) :
    ∃ (mq g f : Nat) (x : Bytes) (w6 : Writer), w6.io = w.io ∧ w6.protocol = w.protocol ∧ w6.bytes = w.bytes ∧
      w6.offsets = w.offsets ∧ w6.buffersSize = w.buffersSize ∧
      (g ≠ 0 → x = d.bytes g f) ∧
      w6.mem = (mq, x) :: (f, d.fdsBytes) :: (g, d.grantors.flatMap Grantor.bytes) :: w.mem ∧
      w' = finish w6 d mq g f := by
  obtain ⟨gp, fp, hgp, hfp, hm, hmg, hmf⟩ := hd
  have hgn : 0 < d.grantors.length := List.length_pos_iff.mpr hg0
  have hg8 := hlim _ _ _ (by omega) hmg
  have hf8 := hlim _ _ _ (by omega) hmf
  have hb : d.bytes gp fp = leBytes 8 gp ++ leBytes 4 d.grantors.length ++ [1, 0, 0, 0] ++ leBytes 8 fp ++
      leBytes 4 d.quantum ++ leBytes 4 d.flags := by
    simp [Desc.bytes, hidlVecBytes, List.append_assoc]
  have l0 : w.mem.load (a + 0) 8 = some (leBytes 8 gp) :=
    part hap hm [] _ (leBytes 4 d.grantors.length ++ [1, 0, 0, 0] ++ leBytes 8 fp ++
      leBytes 4 d.quantum ++ leBytes 4 d.flags) (by rw [hb]; simp [List.append_assoc]) rfl (by simp)
  rw [Nat.add_zero] at l0
  have l1 : w.mem.load (a + 8) 4 = some (leBytes 4 d.grantors.length) :=
    part hap hm (leBytes 8 gp) _ ([1, 0, 0, 0] ++ leBytes 8 fp ++
      leBytes 4 d.quantum ++ leBytes 4 d.flags) (by rw [hb]; simp [List.append_assoc]) (by simp) (by simp)
  have l2 : w.mem.load (a + 12) 4 = some [1, 0, 0, 0] :=
    part hap hm (leBytes 8 gp ++ leBytes 4 d.grantors.length) _ (leBytes 8 fp ++
      leBytes 4 d.quantum ++ leBytes 4 d.flags) (by rw [hb]; simp [List.append_assoc]) (by simp) (by simp)
  have l3 : w.mem.load (a + 16) 8 = some (leBytes 8 fp) :=
    part hap hm (leBytes 8 gp ++ leBytes 4 d.grantors.length ++ [1, 0, 0, 0]) _
      (leBytes 4 d.quantum ++ leBytes 4 d.flags) (by rw [hb]; simp [List.append_assoc]) (by simp) (by simp)
  have l4 : w.mem.load (a + 24) 8 = some (leBytes 4 d.quantum ++ leBytes 4 d.flags) :=
    part hap hm (leBytes 8 gp ++ leBytes 4 d.grantors.length ++ [1, 0, 0, 0] ++ leBytes 8 fp) _ []
      (by rw [hb]; simp [List.append_assoc]) (by simp) (by simp)
  have l5 : w.mem.load (fp + 4) 4 = some (leBytes 4 d.fds.length) :=
    part hap hmf (leBytes 4 (12 + 4 * d.fds.length)) _ (leBytes 4 0 ++ d.fds.flatMap (leBytes 4))
      (by simp [Desc.fdsBytes, List.append_assoc]) (by simp) (by simp)
  have l6 : w.mem.load (fp + 8) 4 = some (leBytes 4 0) :=
    part hap hmf (leBytes 4 (12 + 4 * d.fds.length) ++ leBytes 4 d.fds.length) _ (d.fds.flatMap (leBytes 4))
      (by simp [Desc.fdsBytes, List.append_assoc]) (by simp) (by simp)
  simp only [appendFmqDescriptor] at h
  obtain ⟨gr, e0, h⟩ := bind_ok h
  obtain ⟨count, e1, h⟩ := bind_ok h
  obtain ⟨fq, e2, h⟩ := bind_ok h
  simp only [loadPtr, loadU32, l0, l1, l3, Except.ok.injEq, leVal_leBytes_of_lt hg8, leVal_leBytes_of_lt hf8,
    leVal_leBytes_of_lt (show d.grantors.length < 256 ^ 4 by omega)] at e0 e1 e2
  subst e0 e1 e2
  obtain ⟨nf, e3, h⟩ := bind_ok h
  obtain ⟨ni, e4, h⟩ := bind_ok h
  obtain ⟨tail, e5, h⟩ := bind_ok h
  obtain ⟨owns, e6, h⟩ := bind_ok h
  simp only [loadBytes, loadU32, l2, l4, l5, l6, Except.ok.injEq,
    leVal_leBytes_of_lt (show d.fds.length < 256 ^ 4 by omega), leVal_leBytes_of_lt (show 0 < 256 ^ 4 by omega)]
    at e3 e4 e5 e6
  subst e3 e4 e5 e6
  obtain ⟨⟨g, w1⟩, hm1, h⟩ := bind_ok h
  obtain ⟨⟨f, w2⟩, hm2, h⟩ := bind_ok h
  rw [Nat.mul_comm] at hm1
  obtain ⟨y1, hy1, rfl⟩ := memdup_ok hm1 hgp (by omega)
  obtain ⟨y2, hy2, rfl⟩ := memdup_ok hm2 hfp (by omega)
  rw [hmg] at hy1
  cases hy1
  simp only [Nat.add_zero, Nat.mod_eq_of_lt hfl] at h hy2
  simp only [appendBufferObject_eq, bind, Except.bind] at h
  generalize hn : newBlock e _ _ = nb at h
  obtain ⟨mq, w5⟩ := nb
  simp only [newBlock, Prod.mk.injEq] at hn
  obtain ⟨_, hn⟩ := hn
  simp only [appendFds, withBytes, bufAppendWord_eq, Except.map, bind, Except.bind,
    appendBufferObject_eq] at h
  have h2 := appendFdaObject_ok h
  have hw6 : (w5.addCleanup (.free mq)).io = w.io ∧ (w5.addCleanup (.free mq)).protocol = w.protocol ∧
      (w5.addCleanup (.free mq)).bytes = w.bytes ∧ (w5.addCleanup (.free mq)).offsets = w.offsets ∧
      (w5.addCleanup (.free mq)).buffersSize = w.buffersSize := by
    rw [← hn]
    refine ⟨?_, ?_, ?_, ?_, ?_⟩ <;> (simp only [addCleanup]; split <;> rfl)
  have hmem : (w5.addCleanup (.free mq)).mem = (mq, (if g ≠ 0 then leBytes 8 g ++ leBytes 4 d.grantors.length ++
      1 :: List.drop 1 [1, 0, 0, 0] else leBytes 8 gp ++ leBytes 4 d.grantors.length ++ [1, 0, 0, 0]) ++ leBytes 8 f ++
      (leBytes 4 d.quantum ++ leBytes 4 d.flags)) :: (f, y2) :: (g, d.grantors.flatMap Grantor.bytes) :: w.mem := by
    rename_i hmq
    rw [← hmq, ← hn]
    simp only [addCleanup]
    split <;> rfl
  have hfin : w' = finish (w5.addCleanup (.free mq)) d mq g f := by
    rw [h2]
    simp only [Nat.mul_comm d.grantors.length 24, Nat.add_zero, Nat.mod_eq_of_lt hfl]
    simp only [finish, middle, start, Nat.add_assoc, push, pushRaw, List.length_append, List.length_cons, List.length_nil]
  have hy : y2 = d.fdsBytes := by
    have h3 : w'.mem = (w5.addCleanup (.free mq)).mem := by rw [hfin]; rfl
    rw [h3, hmem] at hap'
    have h4 := load_extend (l := [(g, d.grantors.flatMap Grantor.bytes)])
      (List.pairwise_cons.mp (List.pairwise_cons.mp hap').2).2 (by omega) hmf
    rw [List.singleton_append, hy2] at h4
    exact Option.some.inj h4
  rw [hy] at hmem
  refine ⟨mq, g, f, _, _, hw6.1, hw6.2.1, hw6.2.2.1, hw6.2.2.2.1, hw6.2.2.2.2, ?_, hmem, hfin⟩
  intro hg
  rw [if_pos hg]
  simp [Desc.bytes, hidlVecBytes, List.append_assoc]

/-- Bytes of a buffer which nobody writes over. -/
theorem recv_kept {io : Io} {src : Mem} {b : Bytes} {offs : List Nat} {objs : List KObj}
    {addr : Nat → Nat} {dst : Mem} {b' : Bytes} (t : Transfer io src b offs objs addr dst b')
    {i a len : Nat} {par : Option (Nat × Nat)} (A B C : Bytes) {k n : Nat}
    (hi : objs[i]? = some (.buffer a len par)) (hc : src.load a len = some (A ++ B ++ C))
    (hk : A.length = k) (hn : B.length = n)
    (hb : ∀ (j : Nat) aj lj off, objs[j]? = some (.buffer aj lj (some (i, off))) → off + word io ≤ k ∨ k + n ≤ off)
    (hf : ∀ (j : Nat) m off, objs[j]? = some (.fda m i off) → off + 4 * m ≤ k ∨ k + n ≤ off) :
    dst.load (addr i + k) n = some B := by
  obtain ⟨c0, c', h1, h2, _, h4⟩ := t.copy i a len par hi
  rw [hc] at h1
  cases h1
  have hl := load_length hc
  simp only [List.length_append] at hl
  rw [load_part t.sane.apart h2 (by omega)]
  congr 1
  rw [take_drop_congr (b := A ++ B ++ C) fun j h1 h2 => h4 j (by omega) ?_ ?_]
  · subst hk hn
    rw [List.append_assoc, List.drop_left, List.take_left]
  · intro j' aj lj off hx
    have := hb j' aj lj off hx
    omega
  · intro j' m off hx
    have := hf j' m off hx
    omega

/-! ### Reading -/

/-- What a grantor says. -/
def grant (g : Grantor) : Grant := ⟨0, g.fdIndex, g.offset, g.extent⟩

theorem grants_of {c : Parcel} (hap : c.mem.Apart) : ∀ {gs : List Grantor} {a : Nat},
    (∀ g ∈ gs, g.fdIndex < 2 ^ 32 ∧ g.offset < 2 ^ 32 ∧ g.extent < 2 ^ 64) →
    c.mem.load a (24 * gs.length) = some (gs.flatMap Grantor.bytes) →
    c.grants a gs.length = some (gs.map grant)
  | [], _, _, _ => rfl
  | g :: gs, a, hs, h => by
    obtain ⟨h1, h2, h3⟩ := hs g List.mem_cons_self
    rw [List.flatMap_cons] at h
    have l0 : c.mem.load (a + 0) 4 = some (leBytes 4 0) :=
      part hap h [] _ (leBytes 4 g.fdIndex ++ leBytes 4 g.offset ++ leBytes 4 0 ++ leBytes 8 g.extent ++
        gs.flatMap Grantor.bytes) (by simp [Grantor.bytes]) rfl (by simp)
    rw [Nat.add_zero] at l0
    have l1 : c.mem.load (a + 4) 4 = some (leBytes 4 g.fdIndex) :=
      part hap h (leBytes 4 0) _ (leBytes 4 g.offset ++ leBytes 4 0 ++ leBytes 8 g.extent ++
        gs.flatMap Grantor.bytes) (by simp [Grantor.bytes]) (by simp) (by simp)
    have l2 : c.mem.load (a + 8) 4 = some (leBytes 4 g.offset) :=
      part hap h (leBytes 4 0 ++ leBytes 4 g.fdIndex) _ (leBytes 4 0 ++ leBytes 8 g.extent ++
        gs.flatMap Grantor.bytes) (by simp [Grantor.bytes]) (by simp) (by simp)
    have l3 : c.mem.load (a + 16) 8 = some (leBytes 8 g.extent) :=
      part hap h (leBytes 4 0 ++ leBytes 4 g.fdIndex ++ leBytes 4 g.offset ++ leBytes 4 0) _
        (gs.flatMap Grantor.bytes) (by simp [Grantor.bytes]) (by simp) (by simp)
    have l4 : c.mem.load (a + 24) (24 * gs.length) = some (gs.flatMap Grantor.bytes) :=
      part hap h g.bytes _ [] (by simp) (length_grantor g) (length_flatMap _ 24 length_grantor gs)
    rw [List.length_cons, Parcel.grants]
    simp only [Parcel.numAt, l0, l1, l2, l3, Option.map_some, Option.bind_eq_bind, Option.bind_some,
      C80.num_le rfl (show 0 < 256 ^ 4 by omega), C80.num_le rfl (show g.fdIndex < 256 ^ 4 by omega),
      C80.num_le rfl (show g.offset < 256 ^ 4 by omega), C80.num_le rfl (show g.extent < 256 ^ 8 by omega),
      grants_of hap (fun x hx => hs x (List.mem_cons_of_mem _ hx)) l4]
    rfl

theorem ints_of {c : Parcel} : ∀ {n a : Nat} {P : Nat → Nat → Prop},
    (∀ k < n, ∃ y, y < 2 ^ 32 ∧ c.mem.load (a + 4 * k) 4 = some (leBytes 4 y) ∧ P k y) →
    ∃ l, c.ints a n = some l ∧ l.length = n ∧ ∀ (k : Nat) y, l[k]? = some y → P k y
  | 0, _, _, _ => ⟨[], rfl, rfl, by intro k y h; cases h⟩
  | n + 1, a, P, h => by
    obtain ⟨y, hy, hl, hp⟩ := h 0 (by omega)
    obtain ⟨l, h1, h2, h3⟩ := ints_of (c := c) (n := n) (a := a + 4) (P := fun k => P (k + 1)) (by
      intro k hk
      obtain ⟨y, h1, h2, h3⟩ := h (k + 1) (by omega)
      exact ⟨y, h1, by rw [← h2]; congr 1; omega, h3⟩)
    refine ⟨y :: l, ?_, by rw [List.length_cons, h2], ?_⟩
    · rw [Parcel.ints]
      simp only [Nat.mul_zero, Nat.add_zero] at hl
      simp only [Parcel.numAt, hl, Option.map_some, C80.num_le rfl (show y < 256 ^ 4 by omega), Option.bind_eq_bind,
        Option.bind_some, h1]
    · intro k z hk
      cases k with
      | zero => cases hk; exact hp
      | succ k => exact h3 k z hk

/-- What the other end gets. -/
structure RecvQueue (io : Io) (w0 w1 w' : Writer) (objs : List KObj) (b' : Bytes) (d : Desc) (mq g f : Nat) : Prop where
  obj0 : objs[w0.offsets.length]? = some (.buffer mq 32 none)
  obj1 : objs[w0.offsets.length + 1]? = some (.buffer g (24 * d.grantors.length) (some (w0.offsets.length, 0)))
  obj2 : objs[w0.offsets.length + 2]? = some (.buffer f (12 + 4 * d.fds.length) (some (w0.offsets.length, 16)))
  obj3 : objs[w0.offsets.length + 3]? = some (.fda d.fds.length (w0.offsets.length + 2) 12)
  kids0 : ∀ (j : Nat) x, objs[j]? = some x → kparent x = some w0.offsets.length →
    ∃ aj lj o, x = .buffer aj lj (some (w0.offsets.length, o)) ∧ (o = 0 ∨ o = 16)
  kids1 : ∀ (j : Nat) x, objs[j]? = some x → kparent x ≠ some (w0.offsets.length + 1)
  kids2 : ∀ (j : Nat) x, objs[j]? = some x → kparent x = some (w0.offsets.length + 2) →
    x = .fda d.fds.length (w0.offsets.length + 2) 12
  off0 : w'.offsets[w0.offsets.length]? = some w0.bytes.length
  off1 : w'.offsets[w0.offsets.length + 1]? = some (w0.bytes.length + io.bufferObjSize)
  off2 : w'.offsets[w0.offsets.length + 2]? = some (w0.bytes.length + io.bufferObjSize + io.bufferObjSize + 8)
  off3 : w'.offsets[w0.offsets.length + 3]? =
    some (w0.bytes.length + io.bufferObjSize + io.bufferObjSize + 8 + io.bufferObjSize)
  len : w1.bytes.length = w0.bytes.length + io.bufferObjSize + io.bufferObjSize + 8 + io.bufferObjSize + io.fdaSize
  word : num b' (w0.bytes.length + io.bufferObjSize + io.bufferObjSize) 8 = 12 + 4 * d.fds.length

theorem recvQueue {e : Env} {io : Io} {p : Protocol} {m : Mem} {pre post : List WOp} {op : WOp}
    {w0 w1 w' w6 : Writer} {addr : Nat → Nat} {dst : Mem} {b' : Bytes} {d : Desc} {mq g f : Nat}
    (h : Sent e io p m pre op post w0 w1 w' addr dst b')
    (i1 : w6.io = w0.io) (i2 : w6.protocol = w0.protocol) (i3 : w6.bytes = w0.bytes) (i4 : w6.offsets = w0.offsets)
    (i5 : w6.buffersSize = w0.buffersSize) (hw : w1 = finish w6 d mq g f)
    (h1 : mq < 256 ^ io.ptrSize) (h2 : g < 256 ^ io.ptrSize) (h3 : 24 * d.grantors.length < 256 ^ io.ptrSize)
    (h4 : f < 256 ^ io.ptrSize) (h5 : 12 + 4 * d.fds.length < 256 ^ io.ptrSize)
    {objs : List KObj} (t : Transfer io w'.mem w'.bytes w'.offsets objs addr dst b') :
    RecvQueue io w0 w1 w' objs b' d mq g f := by
  have g0 : Grows false w0 w6 [] := Grows.of_same i1 i2 i3 i4 i5
  have g1 : Grows false w0 (start w6 d mq g) ([] ++ [.buf mq 32 none] ++ [.buf g (24 * d.grantors.length)
      (some { index := w6.offsets.length, offset := 0 })]) :=
    (g0.trans (Grows.push false _ _)).trans (Grows.push false _ _)
  have g2 : Grows false w0 (middle w6 d mq g) _ := g1.trans (Grows.raw _ _ (by intro hc; cases hc))
  have g3 : Grows false w0 w1 [.buf mq 32 none, .buf g (24 * d.grantors.length)
      (some { index := w0.offsets.length, offset := 0 }), .buf f (12 + 4 * d.fds.length)
      (some { index := w0.offsets.length, offset := 16 }),
      .fda d.fds.length { index := w0.offsets.length + 2, offset := 12 }] := by
    rw [hw, ← i4]; exact (g2.trans (Grows.push false _ _)).trans (Grows.push false _ _)
  have so := h.objs_of g3 t
  have hio := so.io0
  have hpow := pow_ge io
  have hfew := so.few
  have hle := so.le
  have hcnt := so.count
  simp only [List.length_cons, List.length_nil] at hcnt
  have hn0 := so.at_ 0 (by simp)
  have hn1 := so.at_ 1 (by simp)
  have hn2 := so.at_ 2 (by simp)
  have hn3 := so.at_ 3 (by simp)
  simp only [List.map_cons, List.getElem?_cons_zero, List.getElem?_cons_succ, Obj.kernel,
    Option.map_none, Option.map_some, Nat.add_zero] at hn0 hn1 hn2 hn3
  rw [Nat.mod_eq_of_lt h1, Nat.mod_eq_of_lt (by omega)] at hn0
  rw [Nat.mod_eq_of_lt h2, Nat.mod_eq_of_lt h3, Nat.mod_eq_of_lt (by omega), Nat.zero_mod] at hn1
  rw [Nat.mod_eq_of_lt h4, Nat.mod_eq_of_lt h5, Nat.mod_eq_of_lt (by omega), Nat.mod_eq_of_lt (by omega)] at hn2
  rw [Nat.mod_eq_of_lt (by omega), Nat.mod_eq_of_lt (by omega), Nat.mod_eq_of_lt (by omega)] at hn3
  have hch : ∀ (j : Nat) x i, objs[j]? = some x → kparent x = some i →
      w0.offsets.length ≤ i → i < w0.offsets.length + 4 →
      (i = w0.offsets.length ∧ ∃ aj lj o, x = .buffer aj lj (some (w0.offsets.length, o)) ∧ (o = 0 ∨ o = 16)) ∨
      (i = w0.offsets.length + 2 ∧ x = .fda d.fds.length (w0.offsets.length + 2) 12) := by
    intro j x i hj hk h5 h6
    obtain ⟨k, rfl, hx⟩ := so.children j x i hj hk h5 (by simpa using h6)
    match k, hx with
    | 0, hx => cases hx; cases hk
    | 1, hx =>
      rw [hn1] at hj
      cases hj
      cases hk
      exact .inl ⟨rfl, _, _, _, rfl, .inl rfl⟩
    | 2, hx =>
      rw [hn2] at hj
      cases hj
      cases hk
      exact .inl ⟨rfl, _, _, _, rfl, .inr rfl⟩
    | 3, hx =>
      rw [hn3] at hj
      cases hj
      cases hk
      exact .inr ⟨rfl, rfl⟩
    | k + 4, hx => simp at hx
  have hb0 : ∀ a l pr, (Obj.bytes w0.io (.buf a l pr)).length = io.bufferObjSize := by
    intro a l pr; rw [hio]; simp [Obj.bytes, length_encodeBufferObject]
  have hb1 : ∀ n pr, (Obj.bytes w0.io (.fda n pr)).length = io.fdaSize := by
    intro n pr; rw [hio]; simp [Obj.bytes, length_encodeFdaObject]
  have hoffs : w1.offsets = w0.offsets ++ [w0.bytes.length, w0.bytes.length + io.bufferObjSize,
      w0.bytes.length + io.bufferObjSize + io.bufferObjSize + 8,
      w0.bytes.length + io.bufferObjSize + io.bufferObjSize + 8 + io.bufferObjSize] := by
    rw [hw]
    simp only [finish, middle, start, push, pushRaw, i1, i3, i4, List.length_append, hb0, length_leBytes,
      List.append_assoc, List.cons_append, List.nil_append, Nat.add_assoc]
  have hlen : w1.bytes.length = w0.bytes.length + io.bufferObjSize + io.bufferObjSize + 8 + io.bufferObjSize +
      io.fdaSize := by
    rw [hw]
    simp only [finish, middle, start, push, pushRaw, i1, i3, i4, List.length_append, hb0, hb1, length_leBytes]
  obtain ⟨o, ho⟩ := so.offs
  refine ⟨hn0, hn1, hn2, hn3, ?_, ?_, ?_, ?_, ?_, ?_, ?_, hlen, ?_⟩
  · intro j x hj hk
    rcases hch j x _ hj hk (Nat.le_refl _) (by omega) with hx | hx
    · exact hx.2
    · omega
  · intro j x hj hk
    rcases hch j x _ hj hk (by omega) (by omega) with hx | hx <;> omega
  · intro j x hj hk
    rcases hch j x _ hj hk (by omega) (by omega) with hx | hx
    · omega
    · exact hx.2
  · rw [ho, hoffs, List.append_assoc, List.getElem?_append_right (by omega)]; simp
  · rw [ho, hoffs, List.append_assoc, List.getElem?_append_right (by omega)]; simp
  · rw [ho, hoffs, List.append_assoc, List.getElem?_append_right (by omega)]; simp
  · rw [ho, hoffs, List.append_assoc, List.getElem?_append_right (by omega)]; simp
  · have happ : ∀ {ops : List WOp}, (∀ off v, WOp.overwriteInt32 off v ∉ ops) → ∀ op ∈ ops, op.isAppend = true := by
      intro ops ha op hop
      cases op <;> first | rfl | exact absurd hop (ha _ _)
    obtain ⟨_, s, hs⟩ := runAll_built (al := false) h.before
      (happ (fun off v hc => h.append off v (List.mem_append_left _ hc))) (by intro hc; cases hc)
    obtain ⟨rest, g4, _⟩ := runAll_after post h.after
      (happ (fun off v hc => h.append off v (List.mem_append_right _ hc))) h.noParent
    have hbt := g1.built s (by rw [hio]; exact hs)
    rw [hio] at hbt
    have g5 : Grows false (middle w6 d mq g) w' _ :=
      ((Grows.push false (middle w6 d mq g) _).trans (Grows.push false _ _)).trans (by rw [hw] at g4; exact g4)
    obtain ⟨r, hr, _⟩ := g5.tail
    have hsl : (start w6 d mq g).bytes.length = w0.bytes.length + io.bufferObjSize + io.bufferObjSize := by
      simp only [start, push, i1, i3, List.length_append, hb0]
    have hmb : (middle w6 d mq g).bytes = (start w6 d mq g).bytes ++ leBytes 8 (12 + 4 * d.fds.length) := rfl
    have hml : (middle w6 d mq g).bytes.length = (start w6 d mq g).bytes.length + 8 := by simp [hmb]
    have hwl : w'.bytes.length = (middle w6 d mq g).bytes.length + r.length := by rw [hr]; simp
    rw [num_same (b := w'.bytes) fun k k1 k2 => t.data k (by omega)
      (outside hbt hmb (o1 := []) (by simp [middle, pushRaw]) g5 (by intro o ho; cases ho) (by omega) (by omega))]
    rw [num_field _ (by omega), fieldAt, hr, hmb, ← hsl, List.append_assoc, List.drop_left,
      List.take_left' (length_leBytes _ _), leVal_leBytes_of_lt]
    have : 256 ^ io.ptrSize ≤ 256 ^ 8 := Nat.pow_le_pow_right (by omega) (by cases io <;> decide)
    omega

theorem queue_of {e : Env} {io : Io} {p : Protocol} {m : Mem} {pre post : List WOp} {a : Nat}
    {w0 w1 w' : Writer} {addr : Nat → Nat} {dst : Mem} {b' : Bytes} {d : Desc} {Same : Nat → Nat → Prop}
    (h : Sent e io p m pre (.fmqDescriptor a) post w0 w1 w' addr dst b') (hd : d.At w0.mem a)
    (hg0 : d.grantors ≠ []) (hgl : d.grantors.length < 2 ^ 32) (hfl : d.fds.length < 2 ^ 30)
    (hgs : ∀ g ∈ d.grantors, g.fdIndex < 2 ^ 32 ∧ g.offset < 2 ^ 32 ∧ g.extent < 2 ^ 64)
    (hq : d.quantum < 2 ^ 32) (hfg : d.flags < 2 ^ 32) (hfd : ∀ x ∈ d.fds, x < 2 ^ 32)
    (hF : ∀ objs, accepts io w'.bytes w'.offsets = some objs → FdArrays io w'.mem w'.offsets objs addr dst b' Same) :
    ∃ fds, Parcel.readQueue ⟨io, b', w'.offsets, dst⟩ w0.bytes.length =
        some (⟨d.grantors.map grant, fds, d.quantum, d.flags⟩, w1.bytes.length) ∧
      fds.length = d.fds.length ∧ ∀ (k : Nat) y, fds[k]? = some y → ∃ x, d.fds[k]? = some x ∧ Same x y := by
  obtain ⟨objs, t⟩ := h.transfer
  have hF := hF objs t.found
  have hpow := pow_ge io
  have hp8 : 256 ^ io.ptrSize ≤ 256 ^ 8 := Nat.pow_le_pow_right (by omega) (by cases io <;> decide)
  have hgn : 0 < d.grantors.length := List.length_pos_iff.mpr hg0
  obtain ⟨l, hml⟩ := runAll_mem post h.after h.still
  obtain ⟨l0, hml0⟩ := runAll_mem (e := e) [.fmqDescriptor a] (w := w0) (w' := w1)
    (by simp only [WOp.runAll, h.call]; rfl) (by simp)
  have hs := h.sane
  have hap1 : Mem.Apart w1.mem := by
    have := hs.apart
    rw [hml] at this
    exact (List.pairwise_append.mp this).2.1
  have hap0 : Mem.Apart w0.mem := by
    rw [hml0] at hap1
    exact (List.pairwise_append.mp hap1).2.1
  obtain ⟨mq, g, f, x, w6, i1, i2, i3, i4, i5, hx, hmem, hw⟩ := append_exact h.call hap0 hap1 hd hg0 hgl (by omega) (by
    intro b n bs hn hb
    have h1 := load_extend (l := l0) (by rw [← hml0]; exact hap1) hn hb
    rw [← hml0] at h1
    have := (h.load hn h1).2
    omega)
  have hm1 : w1.mem = (mq, x) :: (f, d.fdsBytes) :: (g, d.grantors.flatMap Grantor.bytes) :: w0.mem := by
    rw [hw]; exact hmem
  have hg : g ≠ 0 := hs.nonnull (g, d.grantors.flatMap Grantor.bytes) (by rw [hml, hm1]; simp)
  have hx := hx hg
  subst hx
  rw [hm1] at hap1
  have lq : w1.mem.load mq 32 = some (d.bytes g f) := by
    rw [hm1]; exact load_block (length_bytes d g f) (by omega)
  have lf : w1.mem.load f (12 + 4 * d.fds.length) = some d.fdsBytes := by
    rw [hm1]; exact load_extend (l := [_]) hap1 (by omega) (load_block (length_fdsBytes d) (by omega))
  have lg : w1.mem.load g (24 * d.grantors.length) = some (d.grantors.flatMap Grantor.bytes) := by
    rw [hm1]; exact load_extend (l := [_, _]) hap1 (by omega)
      (load_block (length_flatMap _ 24 length_grantor _) (by omega))
  obtain ⟨lq, _, lq2⟩ := h.load (by omega) lq
  obtain ⟨lf, _, lf2⟩ := h.load (by omega) lf
  obtain ⟨lg, _, lg2⟩ := h.load (by omega) lg
  have rq := recvQueue h i1 i2 i3 i4 i5 hw (by omega) (by omega) (by omega) (by omega) (by omega) t
  have hwd : word io ≤ 8 := by cases io <;> decide
  -- the descriptor
  have hb : d.bytes g f = leBytes 8 g ++ leBytes 4 d.grantors.length ++ [1, 0, 0, 0] ++ leBytes 8 f ++
      leBytes 4 d.quantum ++ leBytes 4 d.flags := by
    simp [Desc.bytes, hidlVecBytes, List.append_assoc]
  have kb : ∀ {k n : Nat}, (8 ≤ k ∧ k + n ≤ 16 ∨ 24 ≤ k) → ∀ (j : Nat) aj lj off,
      objs[j]? = some (.buffer aj lj (some (w0.offsets.length, off))) → off + word io ≤ k ∨ k + n ≤ off := by
    intro k n hk j aj lj off hj
    obtain ⟨_, _, o, hx, ho⟩ := rq.kids0 j _ hj rfl
    simp only [KObj.buffer.injEq, Option.some.injEq, Prod.mk.injEq, true_and] at hx
    omega
  have kf : ∀ {k n : Nat} (j : Nat) mm off, objs[j]? = some (.fda mm w0.offsets.length off) →
      off + 4 * mm ≤ k ∨ k + n ≤ off := by
    intro k n j mm off hj
    obtain ⟨_, _, o, hx, ho⟩ := rq.kids0 j _ hj rfl
    cases hx
  have r1 : dst.load (addr w0.offsets.length + 8) 4 = some (leBytes 4 d.grantors.length) :=
    recv_kept t (leBytes 8 g) _ ([1, 0, 0, 0] ++ leBytes 8 f ++ leBytes 4 d.quantum ++ leBytes 4 d.flags) rq.obj0
      (by rw [lq, hb]; simp [List.append_assoc]) (by simp) (by simp) (kb (by omega)) kf
  have r2 : dst.load (addr w0.offsets.length + 24) 4 = some (leBytes 4 d.quantum) :=
    recv_kept t (leBytes 8 g ++ leBytes 4 d.grantors.length ++ [1, 0, 0, 0] ++ leBytes 8 f) _ (leBytes 4 d.flags) rq.obj0
      (by rw [lq, hb]) (by simp) (by simp) (kb (by omega)) kf
  have r3 : dst.load (addr w0.offsets.length + 28) 4 = some (leBytes 4 d.flags) :=
    recv_kept t (leBytes 8 g ++ leBytes 4 d.grantors.length ++ [1, 0, 0, 0] ++ leBytes 8 f ++ leBytes 4 d.quantum) _ []
      rq.obj0 (by rw [lq, hb, List.append_nil]) (by simp) (by simp) (kb (by omega)) kf
  have hun : ∀ {off : Nat}, off = 0 ∨ off = 16 → ∀ (j' : Nat) x, objs[j']? = some x →
      kparent x = some w0.offsets.length → ∃ aj lj o', x = .buffer aj lj (some (w0.offsets.length, o')) ∧
        (o' + 8 ≤ off ∨ o' = off ∨ off + 16 ≤ o') := by
    intro off ho j' x hj hk
    obtain ⟨aj, lj, o, hx, ho'⟩ := rq.kids0 j' x hj hk
    exact ⟨aj, lj, o, hx, by omega⟩
  obtain ⟨q1, _⟩ := recv_desc t rq.obj0 rq.obj1 (by omega) lq (y := g) (by
    rw [hb]; simp only [List.append_assoc, List.drop_zero]; exact List.take_left' (length_leBytes _ _)) (by omega)
    (hun (.inl rfl))
  obtain ⟨q2, _⟩ := recv_desc t rq.obj0 rq.obj2 (by omega) lq (y := f) (by
    rw [hb, show leBytes 8 g ++ leBytes 4 d.grantors.length ++ [1, 0, 0, 0] ++ leBytes 8 f ++
      leBytes 4 d.quantum ++ leBytes 4 d.flags = (leBytes 8 g ++ leBytes 4 d.grantors.length ++ [1, 0, 0, 0]) ++
      (leBytes 8 f ++ (leBytes 4 d.quantum ++ leBytes 4 d.flags)) by simp only [List.append_assoc]]
    rw [List.drop_left' (by simp), List.take_left' (length_leBytes _ _)]) (by omega) (hun (.inr rfl))
  -- the grantors
  have r4 := recv_leaf t rq.obj1 lg rq.kids1
  have hgr := grants_of (c := ⟨io, b', w'.offsets, dst⟩) t.sane.apart hgs r4
  -- the handle
  have nb : ∀ {k n : Nat} (j : Nat) aj lj off, objs[j]? = some (.buffer aj lj (some (w0.offsets.length + 2, off))) →
      off + word io ≤ k ∨ k + n ≤ off := by
    intro k n j aj lj off hj
    have := rq.kids2 j _ hj rfl
    cases this
  have nf : ∀ {k n : Nat}, k + n ≤ 12 → ∀ (j : Nat) mm off,
      objs[j]? = some (.fda mm (w0.offsets.length + 2) off) → off + 4 * mm ≤ k ∨ k + n ≤ off := by
    intro k n hk j mm off hj
    have := rq.kids2 j _ hj rfl
    cases this
    omega
  have r5 : dst.load (addr (w0.offsets.length + 2) + 4) 4 = some (leBytes 4 d.fds.length) :=
    recv_kept t (leBytes 4 (12 + 4 * d.fds.length)) _ (leBytes 4 0 ++ d.fds.flatMap (leBytes 4)) rq.obj2
      (by rw [lf]; simp [Desc.fdsBytes, List.append_assoc]) (by simp) (by simp) nb (nf (by omega))
  have r6 : dst.load (addr (w0.offsets.length + 2) + 8) 4 = some (leBytes 4 0) :=
    recv_kept t (leBytes 4 (12 + 4 * d.fds.length) ++ leBytes 4 d.fds.length) _ (d.fds.flatMap (leBytes 4)) rq.obj2
      (by rw [lf]; simp [Desc.fdsBytes, List.append_assoc]) (by simp) (by simp) nb (nf (by omega))
  obtain ⟨fds, f1, f2, f3⟩ := ints_of (c := ⟨io, b', w'.offsets, dst⟩) (n := d.fds.length)
    (a := addr (w0.offsets.length + 2) + 12) (P := fun k y => ∃ x, d.fds[k]? = some x ∧ Same x y) (by
    intro k hk
    have hfx : d.fds = d.fds.take k ++ d.fds[k] :: d.fds.drop (k + 1) := by simp
    have hsrc : w'.mem.load (f + (12 + 4 * k)) 4 = some (leBytes 4 d.fds[k]) :=
      part h.sane.apart lf (leBytes 4 (12 + 4 * d.fds.length) ++ leBytes 4 d.fds.length ++ leBytes 4 0 ++
        (d.fds.take k).flatMap (leBytes 4)) _ ((d.fds.drop (k + 1)).flatMap (leBytes 4)) (by
          have := congrArg (List.flatMap (leBytes 4)) hfx
          rw [List.flatMap_append, List.flatMap_cons] at this
          simp only [Desc.fdsBytes, List.append_assoc, ← this]) (by
          simp only [List.length_append, length_leBytes,
            length_flatMap (leBytes 4) 4 (fun _ => length_leBytes _ _), List.length_take]
          omega) (length_leBytes _ _)
    obtain ⟨y, y1, y2, y3⟩ := hF.moved _ _ _ _ _ _ _ rq.obj3 rq.obj2 k hk d.fds[k] (hfd _ (List.getElem_mem hk))
      (by rw [Nat.add_assoc]; exact hsrc)
    exact ⟨y, y1, y2, d.fds[k], by simp, y3⟩)
  refine ⟨fds, ?_, f2, f3⟩
  have hlen' : b'.length = w'.bytes.length := t.size
  have hlw : w1.bytes.length ≤ w'.bytes.length := by
    have happ : ∀ op ∈ post, op.isAppend = true := by
      intro op hop
      cases op <;> first | rfl | exact absurd (List.mem_append_right _ hop) (h.append _ _)
    obtain ⟨rest, g4, _⟩ := runAll_after post h.after happ h.noParent
    obtain ⟨r, hr, _⟩ := g4.tail
    rw [hr]; simp
  have hl := rq.len
  have s1 := C80.readBuffer_of t rq.off0 rq.obj0
  have s2 := C80.readEmbedded_of t (d := ⟨w0.offsets.length, addr w0.offsets.length, 32, none,
    w0.bytes.length + io.bufferObjSize⟩) ⟨rfl, rfl⟩ rq.off1 rq.obj1 q1
  have s3 := C80.readEmbedded_of t (d := ⟨w0.offsets.length, addr w0.offsets.length, 32, none,
    w0.bytes.length + io.bufferObjSize⟩) ⟨rfl, rfl⟩ rq.off2 rq.obj2 q2
  have s4 : Parcel.readHandle ⟨io, b', w'.offsets, dst⟩ ⟨w0.offsets.length, addr w0.offsets.length, 32, none,
      w0.bytes.length + io.bufferObjSize⟩ 16 (w0.bytes.length + io.bufferObjSize + io.bufferObjSize) =
      some (fds, w1.bytes.length) := by
    unfold Parcel.readHandle
    rw [if_pos (by simp only; omega)]
    simp only [rq.word, s3, Option.bind_eq_bind, Option.bind_some, Parcel.numAt, r5, r6, Option.map_some,
      C80.num_le rfl (show d.fds.length < 256 ^ 4 by omega), C80.num_le rfl (show 0 < 256 ^ 4 by omega)]
    rw [if_pos ⟨trivial, trivial, List.mem_of_getElem? rq.off3⟩, hF.kept _ _ _ _ _ rq.off3 rq.obj3]
    simp only [and_self, if_true, f1, Option.bind_some, hl]
    rfl
  unfold Parcel.readQueue
  simp only [s1, Option.bind_eq_bind, Option.bind_some, Parcel.numAt, r1, r2, r3, Option.map_some,
    C80.num_le rfl (show d.grantors.length < 256 ^ 4 by omega), Nat.mul_comm d.grantors.length 24, s2, hgr, s4,
    C80.num_le rfl (show d.quantum < 256 ^ 4 by omega), C80.num_le rfl (show d.flags < 256 ^ 4 by omega)]

end Gb.C82
