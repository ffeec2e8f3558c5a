import Verif.Lemmas.Structs
/-
HIDL structures as Android reads them: field by field.
-/
set_option autoImplicit false

namespace Gb.C84
open Writer Reader Kernel Android

theorem num_load {m : Mem} {a n x : Nat} (h : m.num a n = some x) :
    m.load a n = some (leBytes n x) ∧ x < 256 ^ n :=
  C80.numAt_inv (c := ⟨.io64, [], [], m⟩) h

theorem loadPtr_num {m : Mem} {a x : Nat} (h : m.num a 8 = some x) : loadPtr m a = .ok x := by
  obtain ⟨h1, h2⟩ := num_load h
  unfold loadPtr
  simp only [h1]
  rw [leVal_leBytes_of_lt h2]

theorem loadU32_num {m : Mem} {a x : Nat} (h : m.num a 4 = some x) : loadU32 m a = .ok x := by
  obtain ⟨h1, h2⟩ := num_load h
  unfold loadU32
  simp only [h1]
  rw [leVal_leBytes_of_lt h2]

section
variable {e : Env} {io : Io} {w' : Writer} {objs : List KObj} {addr : Nat → Nat} {dst : Mem} {b' : Bytes} {m : Mem}

theorem push_buf_length {v : Writer} (hs : Start io v) (a l : Nat) (q : Option Parent) :
    (v.push (.buf a l q)).bytes.length = v.bytes.length + io.bufferObjSize := by
  obtain ⟨rfl, _⟩ := hs
  simp only [Writer.push, List.length_append]
  congr 1
  cases v.io <;> cases q <;> simp [Obj.bytes, Io.bufferObjSize, Io.ptrSize, encodeBufferObject]

/-- A parcel on its way. -/
structure Ctx (io : Io) (w' : Writer) (objs : List KObj) (addr : Nat → Nat) (dst : Mem) (b' : Bytes) (m : Mem) : Prop where
  t : Transfer io w'.mem w'.bytes w'.offsets objs addr dst b'
  few : w'.offsets.length < 2 ^ 32
  sane : w'.mem.Sane (256 ^ word io)
  keep : ∀ a n bs, m.load a n = some bs → w'.mem.load a n = some bs

/-- Nothing else refers to the new objects. -/
def Closed (objs : List KObj) (w w1 : Writer) : Prop :=
  ∀ (j : Nat) x i, objs[j]? = some x → kparent x = some i → w.offsets.length ≤ i → i < w1.offsets.length →
    j < w1.offsets.length

theorem Closed.later {w w2 w1 : Writer} (h : Closed objs w w1) (hle : w.offsets.length ≤ w2.offsets.length) :
    Closed objs w2 w1 := fun j x i h1 h2 h3 h4 => h j x i h1 h2 (by omega) h4

theorem Closed.earlier {w w2 w1 : Writer} (h : Closed objs w w1) (hle : w2.offsets.length ≤ w1.offsets.length)
    {par : Parent} {fs : List WField} (hp : par.index < w.offsets.length)
    (hk : ∀ j, w2.offsets.length ≤ j → j < w1.offsets.length → Kid objs w2.offsets.length par fs j) :
    Closed objs w w2 := by
  intro j x i h1 h2 h3 h4
  have := h j x i h1 h2 h3 (by omega)
  by_cases hj : j < w2.offsets.length
  · exact hj
  · obtain ⟨a, l, i', o, h5, h6⟩ := hk j (by omega) this
    rw [h1] at h5
    cases h5
    cases h2
    omega

/-- The structure which has the fields is in a buffer, and there is nothing else in their places. -/
structure Par (objs : List KObj) (par : Parent) (obj : Nat) (fs : List WField) (A len : Nat) : Prop where
  buf : ∃ pp, objs[par.index]? = some (.buffer A len pp)
  obj : obj = A + par.offset
  fit : ∀ f ∈ fs, par.offset + f.off + f.width ≤ len
  small : len < 2 ^ 32
  kids : ∀ f ∈ fs, ∀ (j : Nat) x, objs[j]? = some x → kparent x = some par.index →
    ∃ aj lj o', x = .buffer aj lj (some (par.index, o')) ∧
      (o' + 8 ≤ par.offset + f.off ∨ o' = par.offset + f.off ∨ par.offset + f.off + f.width ≤ o')

theorem Par.sub {par : Parent} {obj A len : Nat} {fs gs : List WField} (h : Par objs par obj fs A len)
    (hs : ∀ f ∈ gs, f ∈ fs) : Par objs par obj gs A len :=
  ⟨h.buf, h.obj, fun f hf => h.fit f (hs f hf), h.small, fun f hf => h.kids f (hs f hf)⟩

/-- A pointer in a transferred buffer. -/
theorem recv_slot {src : Mem} {b : Bytes} {offs : List Nat} (t : Transfer io src b offs objs addr dst b')
    {i j a len aj lj off y : Nat} {par : Option (Nat × Nat)} {c : Bytes}
    (hi : objs[i]? = some (.buffer a len par))
    (hj : objs[j]? = some (.buffer aj lj (some (i, off))))
    (hin : off + 8 ≤ len) (hc : src.load a len = some c)
    (hy : (c.drop off).take 8 = leBytes 8 y) (hy2 : y < 256 ^ io.ptrSize)
    (hun : ∀ (j' : Nat) x, objs[j']? = some x → kparent x = some i →
      ∃ aj lj o', x = .buffer aj lj (some (i, o')) ∧ (o' + 8 ≤ off ∨ o' = off ∨ off + 8 ≤ o')) :
    dst.load (addr i + off) 8 = some (leBytes 8 (addr j)) := by
  obtain ⟨c0, c', h1, h2, h3, h4⟩ := t.copy i a len par hi
  rw [hc] at h1
  cases h1
  have hp := ptr_pos io
  have hp8 : io.ptrSize ≤ 8 := by cases io <;> decide
  have hkeep : ∀ k, off + io.ptrSize ≤ k → k < off + 8 → c'[k]? = c[k]? := by
    intro k hk1 hk2
    refine h4 k (by omega) ?_ ?_
    · intro j' aj' lj' off' hx
      obtain ⟨_, _, o', hx', ho⟩ := hun j' _ hx rfl
      simp only [KObj.buffer.injEq, Option.some.injEq, Prod.mk.injEq, true_and] at hx'
      rw [word_eq]
      omega
    · intro j' n off' hx
      obtain ⟨_, _, o', hx', ho⟩ := hun j' _ hx rfl
      cases hx'
  have hslot := h3 j aj lj off hj
  rw [word_eq] at hslot
  have hcl : c'.length = len := load_length h2
  rw [slice_of_le (by omega)] at hslot
  simp only [Option.some.injEq] at hslot
  rw [load_part t.sane.apart h2 (by omega)]
  congr 1
  have e1 : (c'.drop off).take 8 = (c'.drop off).take io.ptrSize ++
      ((c'.drop (off + io.ptrSize)).take (8 - io.ptrSize)) := by
    rw [← List.drop_drop, ← List.take_add]
    congr 1
    omega
  have e2 : (c.drop off).take 8 = (c.drop off).take io.ptrSize ++
      ((c.drop (off + io.ptrSize)).take (8 - io.ptrSize)) := by
    rw [← List.drop_drop, ← List.take_add]
    congr 1
    omega
  have haj := (t.place j aj lj _ hj).2
  rw [word_eq] at haj
  rw [e1, hslot, leBytes8 haj]
  congr 1
  rw [take_drop_congr (b := c) (fun k h1 h2 => hkeep k h1 (by omega))]
  rw [e2, leBytes8 hy2] at hy
  have hl : ((c.drop off).take io.ptrSize).length = (leBytes io.ptrSize y).length := by
    have : c.length = len := load_length hc
    simp; omega
  exact (List.append_inj hy hl).2

/-- The pointer of a field, as received. -/
theorem Par.slot (c : Ctx io w' objs addr dst b' m) {par : Parent} {obj A len : Nat} {f : WField}
    (P : Par objs par obj [f] A len) {p j aj lj : Nat} (hp : m.num (obj + f.off) 8 = some p) (hlt : p < 256 ^ word io)
    (hj : objs[j]? = some (.buffer aj lj (some (par.index, par.offset + f.off)))) :
    dst.load (addr par.index + (par.offset + f.off)) 8 = some (leBytes 8 (addr j)) := by
  obtain ⟨pp, hb⟩ := P.buf
  obtain ⟨c0, c', h1, h2, h3, h4⟩ := c.t.copy _ _ _ _ hb
  have hw : 8 ≤ f.width := by cases f <;> simp [WField.width]
  have hfit := P.fit f (by simp)
  refine recv_slot c.t (y := p) hb hj (by omega) h1 ?_ (by rwa [word_eq] at hlt) ?_
  · have hl := c.keep _ _ _ (num_load hp).1
    rw [P.obj, Nat.add_assoc, load_part c.sane.apart h1 (by omega)] at hl
    exact Option.some.inj hl
  · intro j' x hx hpx
    obtain ⟨a1, l1, o1, h5, h6⟩ := P.kids f (by simp) j' x hx hpx
    exact ⟨a1, l1, o1, h5, by omega⟩

/-- The number of elements (or bytes), as received. -/
theorem Par.count (c : Ctx io w' objs addr dst b' m) {par : Parent} {obj A len : Nat} {f : WField}
    (P : Par objs par obj [f] A len) (hw : f.width = 16) {n : Nat} (hn : m.num (obj + f.off + 8) 4 = some n) :
    dst.load (addr par.index + (par.offset + f.off) + 8) 4 = some (leBytes 4 n) := by
  obtain ⟨pp, hb⟩ := P.buf
  obtain ⟨c0, c', h1, h2, h3, h4⟩ := c.t.copy _ _ _ _ hb
  have hfit := P.fit f (by simp)
  have hl := c.keep _ _ _ (num_load hn).1
  rw [P.obj, Nat.add_assoc, Nat.add_assoc, load_part c.sane.apart h1 (by omega)] at hl
  rw [← Option.some.inj hl, Nat.add_assoc, load_part c.t.sane.apart h2 (by omega)]
  congr 1
  rw [Nat.add_assoc]
  refine take_drop_congr fun k hk1 hk2 => ?_
  refine h4 k (by omega) ?_ ?_
  · intro j' aj' lj' off' hx
    obtain ⟨_, _, o', hx', ho⟩ := P.kids f (by simp) j' _ hx rfl
    simp only [KObj.buffer.injEq, Option.some.injEq, Prod.mk.injEq, true_and] at hx'
    have : word io ≤ 8 := by cases io <;> decide
    omega
  · intro j' n off' hx
    obtain ⟨_, _, o', hx', ho⟩ := P.kids f (by simp) j' _ hx rfl
    cases hx'

/-! ### Elements of a vector -/

theorem pairwise_mem {fs : List WField}
    (h : fs.Pairwise (fun f g => f.off + f.width ≤ g.off ∨ g.off + g.width ≤ f.off)) :
    ∀ f ∈ fs, ∀ g ∈ fs, f = g ∨ f.off + f.width ≤ g.off ∨ g.off + g.width ≤ f.off := by
  induction h with
  | nil => intro f hf; cases hf
  | cons h1 h2 ih =>
    intro f hf g hg
    rcases List.mem_cons.mp hf with ef | hf' <;> rcases List.mem_cons.mp hg with eg | hg'
    · exact .inl (ef.trans eg.symm)
    · subst ef
      exact .inr (h1 g hg')
    · subst eg
      have := h1 f hf'
      exact .inr (by omega)
    · exact ih f hf' g hg'

/-- Everything that refers to the buffer is a pointer in one of its elements. -/
def Slots (objs : List KObj) (idx size n : Nat) (fs : List WField) : Prop :=
  ∀ (j : Nat) x, objs[j]? = some x → kparent x = some idx →
    ∃ aj lj o', x = .buffer aj lj (some (idx, o')) ∧
      ∃ k, k < n ∧ ∃ f ∈ fs, o' = (size * k % 2 ^ 32 + f.off) % 2 ^ 32

theorem slot_eq {size n k : Nat} {fs : List WField} (fit : Fits size fs) (hn : n * size < 2 ^ 32) (hk : k < n)
    {f : WField} (hf : f ∈ fs) : (size * k % 2 ^ 32 + f.off) % 2 ^ 32 = size * k + f.off ∧
      size * k + f.off + f.width ≤ size * k + size ∧ size * k + size ≤ n * size ∧ 8 ≤ f.width := by
  have h1 := fit.2 f hf
  have h2 : size * (k + 1) ≤ size * n := Nat.mul_le_mul_left size hk
  rw [Nat.mul_succ, Nat.mul_comm size n] at h2
  have hw : 8 ≤ f.width := by cases f <;> simp [WField.width]
  rw [Nat.mod_eq_of_lt (show size * k < 2 ^ 32 by omega), Nat.mod_eq_of_lt (by omega)]
  omega

theorem elems (size : Nat) (k k' : Nat) : k = k' ∨ size * k + size ≤ size * k' ∨ size * k' + size ≤ size * k := by
  rcases Nat.lt_trichotomy k k' with h | h | h
  · have := Nat.mul_le_mul_left size h
    rw [Nat.mul_succ] at this
    omega
  · exact .inl h
  · have := Nat.mul_le_mul_left size h
    rw [Nat.mul_succ] at this
    omega

theorem Slots.par {idx size n A : Nat} {fs : List WField} {pp : Option (Nat × Nat)} (h : Slots objs idx size n fs)
    (fit : Fits size fs) (hn : n * size < 2 ^ 32) (hb : objs[idx]? = some (.buffer A (n * size) pp)) {k : Nat}
    (hk : k < n) : Par objs ⟨idx, size * k % 2 ^ 32⟩ (A + size * k % 2 ^ 32) fs A (n * size) := by
  have h2 : size * (k + 1) ≤ size * n := Nat.mul_le_mul_left size hk
  rw [Nat.mul_succ, Nat.mul_comm size n] at h2
  have hm : size * k % 2 ^ 32 = size * k := Nat.mod_eq_of_lt (by omega)
  refine ⟨⟨pp, hb⟩, rfl, ?_, hn, ?_⟩
  · intro f hf
    have := slot_eq fit hn hk hf
    simp only
    omega
  · intro f hf j x hx hp
    obtain ⟨aj, lj, o', h3, k', hk', g, hg, h4⟩ := h j x hx hp
    refine ⟨aj, lj, o', h3, ?_⟩
    have e1 := slot_eq fit hn hk hf
    have e2 := slot_eq fit hn hk' hg
    have e3 := elems size k k'
    simp only
    rcases e3 with rfl | e3 | e3
    · rcases pairwise_mem fit.1 f hf g hg with rfl | h5 | h5 <;> omega
    · omega
    · omega

theorem blank_congr {fs : List WField} {x y : Bytes} (hl : x.length = y.length)
    (h : ∀ i, i < x.length → (∀ f ∈ fs, i < f.off ∨ f.off + 8 ≤ i) → x[i]? = y[i]?) : blank fs x = blank fs y := by
  apply List.ext_getElem?
  intro i
  unfold blank
  rw [List.getElem?_mapIdx, List.getElem?_mapIdx]
  by_cases hi : i < x.length
  · by_cases hf : ∀ f ∈ fs, i < f.off ∨ f.off + 8 ≤ i
    · rw [h i hi hf]
    · have : fs.any (fun f => decide (f.off ≤ i ∧ i < f.off + 8)) = true := by
        rw [List.any_eq_true]
        apply Classical.byContradiction
        intro hc
        apply hf
        intro f hm
        apply Classical.byContradiction
        intro hd
        exact hc ⟨f, hm, by simp; omega⟩
      rw [List.getElem?_eq_getElem hi, List.getElem?_eq_getElem (by omega)]
      simp only [this, if_true, Option.map_some]
  · rw [List.getElem?_eq_none (by omega), List.getElem?_eq_none (by omega)]

theorem Slots.plain (c : Ctx io w' objs addr dst b' m) {idx size n A : Nat} {fs : List WField}
    {pp : Option (Nat × Nat)} (h : Slots objs idx size n fs)
    (fit : Fits size fs) (hn : n * size < 2 ^ 32) (hb : objs[idx]? = some (.buffer A (n * size) pp)) {b : Bytes}
    (hl : m.load A (n * size) = some b) :
    ∃ s, dst.load (addr idx) (n * size) = some s ∧ ∀ k, k < n →
      blank fs ((s.drop (k * size)).take size) = blank fs ((b.drop (k * size)).take size) := by
  obtain ⟨c0, c', h1, h2, h3, h4⟩ := c.t.copy _ _ _ _ hb
  rw [c.keep _ _ _ hl] at h1
  cases h1
  refine ⟨c', h2, fun k hk => ?_⟩
  have l1 := load_length h2
  have l2 := load_length hl
  have hks : size * (k + 1) ≤ size * n := Nat.mul_le_mul_left size hk
  rw [Nat.mul_succ, Nat.mul_comm size n] at hks
  rw [Nat.mul_comm k size]
  refine blank_congr (by simp; omega) fun i hi hf => ?_
  have hi : i < size := by simp at hi; omega
  rw [List.getElem?_take, List.getElem?_take, if_pos hi, if_pos hi, List.getElem?_drop, List.getElem?_drop]
  refine h4 _ (by omega) ?_ ?_
  · intro j aj lj off hx
    obtain ⟨_, _, o', hx', k', hk', g, hg, ho⟩ := h j _ hx rfl
    simp only [KObj.buffer.injEq, Option.some.injEq, Prod.mk.injEq, true_and] at hx'
    have e2 := slot_eq fit hn hk' hg
    have e3 := elems size k k'
    have hw : word io ≤ 8 := by cases io <;> decide
    rcases e3 with rfl | e3 | e3
    · have := hf g hg
      omega
    · omega
    · omega
  · intro j q off hx
    obtain ⟨_, _, o', hx', _⟩ := h j _ hx rfl
    cases hx'

def FieldsRead (e : Env) (io : Io) (w' : Writer) (objs : List KObj) (addr : Nat → Nat) (dst : Mem) (b' : Bytes)
    (m : Mem) (fs : List WField) : Prop :=
  ∀ (w w1 : Writer) (obj : Nat) (par : Parent) (A len : Nat) (toks : List Tok) (d : Buf),
    appendFields e w obj par fs = .ok w1 → Start io w → Ends w1 w' → w.mem = m → Closed objs w w1 →
    par.index < w.offsets.length → Par objs par obj fs A len → d.handle = par.index ∧ d.addr = addr par.index →
    sentFields (256 ^ word io) (2 ^ 32) m obj fs = some toks →
    Parcel.fields ⟨io, b', w'.offsets, dst⟩ d par.offset w.bytes.length fs = some (toks, w1.bytes.length)

theorem items_mem {buf size idx : Nat} {fs : List WField} : ∀ (l : List Nat) (v v1 : Writer),
    l.foldlM (m := Except UB) (fun w i => appendFields e w (buf + size * i % 2 ^ 32)
      { index := idx, offset := size * i % 2 ^ 32 } fs) v = .ok v1 → v1.mem = v.mem
  | [], v, v1, h => by cases h; rfl
  | i :: l, v, v1, h => by
    rw [List.foldlM_cons] at h
    obtain ⟨v2, h2, h⟩ := bind_ok h
    rw [items_mem l v2 v1 h, appendFields_mem fs h2]

theorem items_read (c : Ctx io w' objs addr dst b' m) {buf size idx N : Nat} {fs : List WField} {d : Buf} {s b : Bytes}
    (hr : FieldsRead e io w' objs addr dst b' m fs)
    (hp : ∀ k, k < N → Par objs ⟨idx, size * k % 2 ^ 32⟩ (buf + size * k % 2 ^ 32) fs buf (N * size))
    (hN : N * size < 2 ^ 32) (hd : d.handle = idx ∧ d.addr = addr idx)
    (hb : ∀ k, k < N → blank fs ((s.drop (k * size)).take size) = blank fs ((b.drop (k * size)).take size)) :
    ∀ (n : Nat) (v v1 : Writer) (toks : List Tok), n ≤ N →
    (List.range n).foldlM (m := Except UB) (fun w i => appendFields e w (buf + size * i % 2 ^ 32)
      { index := idx, offset := size * i % 2 ^ 32 } fs) v = .ok v1 → Start io v → Ends v1 w' → v.mem = m →
    Closed objs v v1 → idx < v.offsets.length →
    Gb.inOrder (fun i => do
      let r ← sentFields (256 ^ word io) (2 ^ 32) m (buf + i * size) fs
      some (.plain (blank fs ((b.drop (i * size)).take size)) :: r)) n = some toks →
    Android.inOrder (fun i p => do
      let (r, q) ← Parcel.fields ⟨io, b', w'.offsets, dst⟩ d (i * size) p fs
      some (.plain (blank fs ((s.drop (i * size)).take size)) :: r, q)) n v.bytes.length = some (toks, v1.bytes.length)
  | 0, v, v1, toks, _, h, _, _, _, _, _, hv => by
    cases h
    simp only [Gb.inOrder, Option.some.injEq] at hv
    subst hv
    rfl
  | n + 1, v, v1, toks, hn, h, hs, he, hm, hc, hi, hv => by
    rw [List.range_succ, List.foldlM_append] at h
    obtain ⟨v2, hv2, h⟩ := bind_ok h
    rw [List.foldlM_cons] at h
    obtain ⟨v3, hv3, h⟩ := bind_ok h
    cases h
    obtain ⟨n1, g1⟩ := items_grows _ _ _ hv2
    obtain ⟨n2, g2⟩ := appendFields_grows (al := false) fs hv3
    have c1 := g1.count
    have c2 := g2.count
    simp only [Gb.inOrder, Option.bind_eq_bind] at hv
    obtain ⟨l, hl, hv⟩ := C80.bind_some hv
    obtain ⟨r', hr', hv⟩ := C80.bind_some hv
    obtain ⟨r, hrr, hr'⟩ := C80.bind_some hr'
    cases hr'
    cases hv
    have hk : size * n % 2 ^ 32 = n * size := by
      have : size * n ≤ size * N := Nat.mul_le_mul_left size (by omega)
      rw [Nat.mul_comm size N] at this
      rw [Nat.mod_eq_of_lt (by omega), Nat.mul_comm]
    have r1 := items_read c hr hp hN hd hb n v v2 l (by omega) hv2 hs (he.grows g2) hm
      (hc.earlier (by omega) (par := ⟨idx, size * n % 2 ^ 32⟩) hi
        (fields_kids c.t c.few fs hv3 (hs.grows g1) he (by simp only; omega))) hi hl
    have r2 := hr v2 v1 _ ⟨idx, size * n % 2 ^ 32⟩ buf (N * size) r d hv3 (hs.grows g1) he
      (by rw [items_mem _ _ _ hv2, hm]) (hc.later (by omega)) (by simp only; omega) (hp n (by omega)) hd
      (by rw [hk]; exact hrr)
    simp only [hk] at r2
    rw [Android.inOrder, r1]
    simp only [Option.bind_eq_bind, Option.bind_some, r2, hb n (by omega)]

mutual
theorem field_read (c : Ctx io w' objs addr dst b' m) : (f : WField) → f.Ok → f.Flat →
    ∀ (w w1 : Writer) (obj : Nat) (par : Parent) (A len : Nat) (toks : List Tok) (d : Buf),
    appendField e w obj par f = .ok w1 → Start io w → Ends w1 w' → w.mem = m → Closed objs w w1 →
    par.index < w.offsets.length → Par objs par obj [f] A len → d.handle = par.index ∧ d.addr = addr par.index →
    sentField (256 ^ word io) (2 ^ 32) m obj f = some toks →
    Parcel.field ⟨io, b', w'.offsets, dst⟩ d par.offset w.bytes.length f = some (toks, w1.bytes.length)
  | .ptr off size fs, _, fl => by
    intro w w1 obj par A len toks d h hs he hm hc hi P hd hv
    simp only [WField.Flat] at fl
    subst fl
    simp only [sentField, sentFields, Option.bind_eq_bind] at hv
    obtain ⟨p, hp, hv⟩ := C80.bind_some hv
    obtain ⟨b, hb, hv⟩ := C80.bind_some hv
    rw [Option.bind_some] at hv
    split at hv
    · rename_i hlim
      cases hv
      subst hm
      simp only [appendField, loadPtr_num hp, appendBufferObject_eq, bind, Except.bind] at h
      cases h
      have hle := he.le
      rw [push_length] at hle
      have hfit := P.fit _ (List.mem_singleton.mpr rfl)
      have hsm := P.small
      have hfew := c.few
      simp only [WField.off, WField.width] at hfit
      have hoff : (par.offset + off) % 2 ^ 32 = par.offset + off := Nat.mod_eq_of_lt (by omega)
      obtain ⟨o1, o2⟩ := placed_buf c.t hs he (by rw [← word_eq]; exact hlim.1) hlim.2
        (by simp only [Parent.plus]; omega) (Nat.mod_lt _ (by omega))
      simp only [Parent.plus, hoff] at o1
      have q := P.slot c hp hlim.1 o1
      have hleaf := recv_leaf c.t o1 (c.keep _ _ _ hb) (by
        intro j' x hx hp
        have h1 := hc j' x _ hx hp (Nat.le_refl _) (by rw [push_length]; omega)
        have h2 := parent_lt c.t hx hp
        rw [push_length] at h1
        omega)
      simp only [Parcel.field, Parcel.fields, Option.bind_eq_bind, C80.readEmbedded_of c.t hd o2 o1 q, Option.bind_some,
        hleaf, push_buf_length hs]
    · cases hv
  | .str off, _, _ => by
    intro w w1 obj par A len toks d h hs he hm hc hi P hd hv
    simp only [sentField, Option.bind_eq_bind] at hv
    obtain ⟨p, hp, hv⟩ := C80.bind_some hv
    obtain ⟨n, hn, hv⟩ := C80.bind_some hv
    obtain ⟨b, hb, hv⟩ := C80.bind_some hv
    split at hv
    · rename_i hlim
      cases hv
      subst hm
      have hsp := load_in_space c.sane (Nat.succ_pos n) (c.keep _ _ _ hb)
      simp only [appendField, loadPtr_num hp, loadU32_num hn, appendBufferObject_eq, bind, Except.bind, if_pos hsp.1,
        Nat.mod_eq_of_lt hlim.2] at h
      cases h
      have hle := he.le
      rw [push_length] at hle
      have hfit := P.fit _ (List.mem_singleton.mpr rfl)
      have hsm := P.small
      have hfew := c.few
      simp only [WField.off, WField.width] at hfit
      have hoff : (par.offset + off) % 2 ^ 32 = par.offset + off := Nat.mod_eq_of_lt (by omega)
      obtain ⟨o1, o2⟩ := placed_buf c.t hs he (by rw [← word_eq]; omega) hlim.2
        (by simp only [Parent.plus]; omega) (Nat.mod_lt _ (by omega))
      simp only [Parent.plus, hoff] at o1
      have q := P.slot c hp (by omega) o1
      have q2 := P.count c rfl hn
      have hleaf := recv_leaf c.t o1 (c.keep _ _ _ hb) (by
        intro j' x hx hp
        have h1 := hc j' x _ hx hp (Nat.le_refl _) (by rw [push_length]; omega)
        have h2 := parent_lt c.t hx hp
        rw [push_length] at h1
        omega)
      have hbl := load_length hb
      have htl : (b.take n).length = n := by simp; omega
      have hbs : b = b.take n ++ [0] := by
        have := List.take_append_drop n b
        rw [hlim.1] at this
        exact this.symm
      have := C80.embeddedString_of c.t (s := b.take n) hd o2 (by rw [htl]; exact o1) (by rw [htl]; exact hlim.2) q
        (by rw [htl]; exact q2) (by rw [htl, hleaf, ← hbs])
      simp only [WField.off] at this
      simp only [Parcel.field, Option.bind_eq_bind, this, Option.bind_some, push_buf_length hs]
    · cases hv
  | .vec off size fs, ok, fl => by
    intro w w1 obj par A len toks d h hs he hm hc hi P hd hv
    simp only [WField.Ok] at ok
    simp only [WField.Flat] at fl
    simp only [sentField, Option.bind_eq_bind] at hv
    obtain ⟨p, hp, hv⟩ := C80.bind_some hv
    obtain ⟨n, hn, hv⟩ := C80.bind_some hv
    obtain ⟨b, hb, hv⟩ := C80.bind_some hv
    obtain ⟨l, hl, hv⟩ := C80.bind_some hv
    split at hv
    · rename_i hlim
      cases hv
      simp only [appendField, hm, loadPtr_num hp, loadU32_num hn, appendBufferObject_eq, bind, Except.bind,
        Nat.mod_eq_of_lt (show n * size < 2 ^ 64 by omega)] at h
      obtain ⟨new, g⟩ := items_grows _ _ _ h
      have gp := Grows.push false w (.buf p (n * size) (some (par.plus off)))
      have hg := g.count
      rw [push_length] at hg
      have hle := he.le
      have hfit := P.fit _ (List.mem_singleton.mpr rfl)
      have hsm := P.small
      have hfew := c.few
      simp only [WField.off, WField.width] at hfit
      have hoff : (par.offset + off) % 2 ^ 32 = par.offset + off := Nat.mod_eq_of_lt (by omega)
      obtain ⟨o1, o2⟩ := placed_buf c.t hs (he.grows g) (by rw [← word_eq]; exact hlim.1) hlim.2
        (by simp only [Parent.plus]; omega) (Nat.mod_lt _ (by omega))
      simp only [Parent.plus, hoff] at o1
      have q := P.slot c hp hlim.1 o1
      have q2 := P.count c rfl hn
      have slots : Slots objs w.offsets.length size n fs := by
        intro j x hx hpx
        have h1 := hc j x _ hx hpx (Nat.le_refl _) (by omega)
        have h2 := parent_lt c.t hx hpx
        obtain ⟨a, l, i, o, h3, h4⟩ := items_kids
          (fun v obj par v1 h hs he hi => fields_kids c.t c.few fs h hs he hi) n _ _ h (hs.grows gp) he
          (by rw [push_length]; omega) j (by rw [push_length]; omega) h1
        rw [push_length] at h4
        rw [hx] at h3
        cases h3
        cases hpx
        rcases h4 with ⟨_, h4⟩ | h4
        · exact ⟨a, l, o, rfl, h4⟩
        · omega
      obtain ⟨s, hs1, hs2⟩ := slots.plain c ok.1 hlim.2 o1 hb
      have r := items_read c (d := ⟨w.offsets.length, addr w.offsets.length, n * size, some (par.index, par.offset + off),
          w.bytes.length + io.bufferObjSize⟩) (fields_read c fs ok.2 fl)
        (fun k hk => slots.par ok.1 hlim.2 o1 hk) hlim.2 ⟨rfl, rfl⟩ hs2 n _ _ l (Nat.le_refl _) h (hs.grows gp) he hm
        (hc.later (by rw [push_length]; omega)) (by rw [push_length]; omega) hl
      rw [push_buf_length hs] at r
      simp only [WField.off] at q2 q
      have q3 : Parcel.numAt ⟨io, b', w'.offsets, dst⟩ (d.addr + (par.offset + off) + 8) 4 = some n := by
        unfold Parcel.numAt
        rw [hd.2, q2, Option.map_some, C80.num_le rfl (num_load hn).2]
      simp only [Parcel.field, Option.bind_eq_bind, q3, Option.bind_some, C80.readEmbedded_of c.t hd o2 o1 q, hs1]
      simp only [Option.bind_eq_bind] at r
      rw [r]
      rfl
    · cases hv
  | .vecNoType _, ok, _ => by simp only [WField.Ok] at ok

theorem fields_read (c : Ctx io w' objs addr dst b' m) : (fs : List WField) → FieldsOk fs → FlatFields fs →
    FieldsRead e io w' objs addr dst b' m fs
  | [], _, _ => by
    intro w w1 obj par A len toks d h hs he hm hc hi P hd hv
    simp only [appendFields] at h
    cases h
    simp only [sentFields] at hv
    cases hv
    simp only [Parcel.fields]
  | f :: fs, ok, fl => by
    intro w w1 obj par A len toks d h hs he hm hc hi P hd hv
    simp only [FieldsOk] at ok
    simp only [FlatFields] at fl
    simp only [appendFields] at h
    obtain ⟨w2, hf, h⟩ := bind_ok h
    simp only [sentFields, Option.bind_eq_bind] at hv
    obtain ⟨l, hl, hv⟩ := C80.bind_some hv
    obtain ⟨r, hr, hv⟩ := C80.bind_some hv
    cases hv
    obtain ⟨n1, g1⟩ := appendField_grows (al := false) f hf
    obtain ⟨n2, g2⟩ := appendFields_grows (al := false) fs h
    have c1 := g1.count
    have c2 := g2.count
    have r1 := field_read c f ok.1 fl.1 w w2 obj par A len l d hf hs (he.grows g2) hm
      (hc.earlier (by omega) hi (fields_kids c.t c.few fs h (hs.grows g1) he (by omega))) hi
      (P.sub (by simp)) hd hl
    have r2 := fields_read c fs ok.2 fl.2 w2 w1 obj par A len r d h (hs.grows g1) he (by rw [appendField_mem f hf, hm])
      (hc.later (by omega)) (by omega) (P.sub (by intro f hf; simp [hf])) hd hr
    simp only [Parcel.fields, Option.bind_eq_bind, r1, Option.bind_some, r2]
end

/-! ### A structure -/

theorem struct_read (c : Ctx io w' objs addr dst b' m) {v v1 : Writer} {a size : Nat} {fs : List WField}
    {toks : List Tok} (h : appendStruct e v a size fs none = .ok v1) (hs : Start io v) (he : Ends v1 w') (hm : v.mem = m)
    (hc : Closed objs v v1) (fit : Fits size fs) (ok : FieldsOk fs) (fl : FlatFields fs)
    (hv : sentStruct (256 ^ word io) (2 ^ 32) m a size fs = some toks) :
    Parcel.readStruct ⟨io, b', w'.offsets, dst⟩ size fs v.bytes.length = some (toks, v1.bytes.length) := by
  simp only [sentStruct, Option.bind_eq_bind] at hv
  obtain ⟨b, hb, hv⟩ := C80.bind_some hv
  obtain ⟨l, hl, hv⟩ := C80.bind_some hv
  split at hv
  · rename_i hlim
    cases hv
    simp only [appendStruct, appendBufferObject_eq, bind, Except.bind] at h
    obtain ⟨new, g⟩ := appendFields_grows (al := false) fs h
    have gp := Grows.push false v (.buf a size none)
    have hg := g.count
    rw [push_length] at hg
    have hpow := pow_ge io
    obtain ⟨o1, o2⟩ := placed c.t hs (he.grows g)
    simp only [Obj.kernel, Option.map_none] at o1
    rw [Nat.mod_eq_of_lt (by rw [← word_eq]; exact hlim.1), Nat.mod_eq_of_lt (by omega)] at o1
    have slots : Slots objs v.offsets.length size 1 fs := by
      intro j x hx hpx
      have h1 := hc j x _ hx hpx (Nat.le_refl _) (by omega)
      have h2 := parent_lt c.t hx hpx
      obtain ⟨a, l, i, o, h3, h4⟩ := fields_kids c.t c.few fs h (hs.grows gp) he
        (by rw [push_length]; simp only; omega) j (by rw [push_length]; omega) h1
      rw [push_length] at h4
      rw [hx] at h3
      cases h3
      cases hpx
      rcases h4 with ⟨_, f, hf, h4⟩ | h4
      · exact ⟨a, l, o, rfl, 0, by omega, f, hf, by simpa using h4⟩
      · omega
    have hone : 1 * size = size := Nat.one_mul _
    have hb1 : objs[v.offsets.length]? = some (.buffer a (1 * size) none) := by rw [hone]; exact o1
    obtain ⟨s, hs1, hs2⟩ := slots.plain c fit (by omega) hb1 (by rw [hone]; exact hb)
    have P := slots.par fit (by omega) hb1 (k := 0) (by omega)
    have r := fields_read c fs ok fl _ _ _ _ _ _ l ⟨v.offsets.length, addr v.offsets.length, size, none,
      v.bytes.length + io.bufferObjSize⟩ h (hs.grows gp) he hm (hc.later (by rw [push_length]; omega))
      (by rw [push_length]; simp only; omega) (by simpa using P) ⟨rfl, rfl⟩ hl
    rw [push_buf_length hs] at r
    rw [hone] at hs1
    have hs3 := hs2 0 (by omega)
    rw [Nat.zero_mul, List.drop_zero, List.drop_zero, List.take_of_length_le (by rw [load_length hs1]; omega),
      List.take_of_length_le (by rw [load_length hb]; omega)] at hs3
    simp only [Parcel.readStruct, Option.bind_eq_bind, C80.readBuffer_of c.t o2 o1, Option.bind_some, hs1, r, hs3]
  · cases hv

theorem readStructVec_of {c : Parcel} {size p q : Nat} {fs : List WField} {x : Tok} {l : List Tok}
    (h : c.readStruct 16 [.vec 0 size fs] p = some (x :: l, q)) : c.readStructVec size fs p = some (l, q) := by
  simp only [Parcel.readStruct, Option.bind_eq_bind] at h
  obtain ⟨d, hd, h⟩ := C80.bind_some h
  obtain ⟨s, _, h⟩ := C80.bind_some h
  obtain ⟨⟨l', q'⟩, hf, h⟩ := C80.bind_some h
  cases h
  simp only [Parcel.fields, Option.bind_eq_bind] at hf
  obtain ⟨⟨l1, q1⟩, hf1, hf⟩ := C80.bind_some hf
  obtain ⟨⟨l2, q2⟩, hf2, hf⟩ := C80.bind_some hf
  cases hf2
  cases hf
  simp only [Parcel.readStructVec, Option.bind_eq_bind, hd, Option.bind_some, hf1, List.append_nil]

/-! ### More memory -/

theorem inOrder_congr {f g : Nat → Option (List Tok)} (h : ∀ i l, f i = some l → g i = some l) :
    ∀ (n : Nat) (l : List Tok), Gb.inOrder f n = some l → Gb.inOrder g n = some l
  | 0, l, hl => hl
  | n + 1, l, hl => by
    simp only [Gb.inOrder, Option.bind_eq_bind] at hl ⊢
    obtain ⟨a, h1, hl⟩ := C80.bind_some hl
    obtain ⟨b, h2, hl⟩ := C80.bind_some hl
    rw [inOrder_congr h n a h1, h n b h2]
    exact hl

theorem num_more {m m' : Mem} (hm : ∀ a n bs, m.load a n = some bs → m'.load a n = some bs) {a n x : Nat}
    (h : m.num a n = some x) : m'.num a n = some x := by
  unfold Mem.num at h ⊢
  cases hl : m.load a n with
  | none => rw [hl] at h; cases h
  | some bs => rw [hl] at h; rw [hm a n bs hl]; exact h

mutual
theorem sentField_more {m m' : Mem} (hm : ∀ a n bs, m.load a n = some bs → m'.load a n = some bs) {lim mx : Nat} :
    (f : WField) → ∀ (a : Nat) (l : List Tok), sentField lim mx m a f = some l → sentField lim mx m' a f = some l
  | .ptr off size fs, a, l, h => by
    simp only [sentField, Option.bind_eq_bind] at h ⊢
    obtain ⟨p, h1, h⟩ := C80.bind_some h
    obtain ⟨b, h2, h⟩ := C80.bind_some h
    obtain ⟨r, h3, h⟩ := C80.bind_some h
    rw [num_more hm h1, Option.bind_some, hm _ _ _ h2, Option.bind_some, sentFields_more hm fs _ _ h3]
    exact h
  | .str off, a, l, h => by
    simp only [sentField, Option.bind_eq_bind] at h ⊢
    obtain ⟨p, h1, h⟩ := C80.bind_some h
    obtain ⟨n, h2, h⟩ := C80.bind_some h
    obtain ⟨b, h3, h⟩ := C80.bind_some h
    rw [num_more hm h1, Option.bind_some, num_more hm h2, Option.bind_some, hm _ _ _ h3]
    exact h
  | .vec off size fs, a, l, h => by
    simp only [sentField, Option.bind_eq_bind] at h ⊢
    obtain ⟨p, h1, h⟩ := C80.bind_some h
    obtain ⟨n, h2, h⟩ := C80.bind_some h
    obtain ⟨b, h3, h⟩ := C80.bind_some h
    obtain ⟨r, h4, h⟩ := C80.bind_some h
    rw [num_more hm h1, Option.bind_some, num_more hm h2, Option.bind_some, hm _ _ _ h3, Option.bind_some,
      inOrder_congr ?_ n r h4]
    · exact h
    · intro i l hl
      obtain ⟨x, h5, hl⟩ := C80.bind_some hl
      rw [sentFields_more hm fs _ _ h5]
      exact hl
  | .vecNoType off, a, l, h => by simp only [sentField] at h; cases h

theorem sentFields_more {m m' : Mem} (hm : ∀ a n bs, m.load a n = some bs → m'.load a n = some bs) {lim mx : Nat} :
    (fs : List WField) → ∀ (a : Nat) (l : List Tok), sentFields lim mx m a fs = some l → sentFields lim mx m' a fs = some l
  | [], a, l, h => by simp only [sentFields] at h ⊢; exact h
  | f :: fs, a, l, h => by
    simp only [sentFields, Option.bind_eq_bind] at h ⊢
    obtain ⟨x, h1, h⟩ := C80.bind_some h
    obtain ⟨y, h2, h⟩ := C80.bind_some h
    rw [sentField_more hm f a x h1, Option.bind_some, sentFields_more hm fs a y h2]
    exact h
end

/-- A vector in memory, and a descriptor of it. -/
theorem sent_desc {m m' : Mem} (hm : ∀ a n bs, m.load a n = some bs → m'.load a n = some bs) (hap : m'.Apart)
    {lim vec a n size : Nat} {fs : List WField} {l : List Tok} (hn : n < 2 ^ 32) (hlim : lim ≤ 2 ^ 64)
    (hvec : vec < lim) (hd : m'.load vec 16 = some (hidlVecBytes a n true)) (hv : sentVec lim (2 ^ 32) m a n size fs = some l) :
    ∃ x, sentStruct lim (2 ^ 32) m' vec 16 [.vec 0 size fs] = some (x :: l) := by
  simp only [sentVec, Option.bind_eq_bind] at hv
  obtain ⟨b, h1, hv⟩ := C80.bind_some hv
  obtain ⟨r, h2, hv⟩ := C80.bind_some hv
  split at hv
  · rename_i hl
    cases hv
    have e1 : m'.num (vec + 0) 8 = some a := by
      have := C82.part hap hd [] (leBytes 8 a) (leBytes 4 n ++ [1] ++ [0, 0, 0]) (k := 0) (j := 8)
        (by simp [hidlVecBytes]) rfl (by simp)
      unfold Mem.num
      rw [this, Option.map_some, C80.num_le rfl (by omega)]
    have e2 : m'.num (vec + 0 + 8) 4 = some n := by
      have := C82.part hap hd (leBytes 8 a) (leBytes 4 n) ([1] ++ [0, 0, 0]) (k := 8) (j := 4)
        (by simp [hidlVecBytes]) (by simp) (by simp)
      unfold Mem.num
      rw [Nat.add_zero, this, Option.map_some, C80.num_le rfl (by omega)]
    refine ⟨.plain (blank [.vec 0 size fs] (hidlVecBytes a n true)), ?_⟩
    simp only [sentStruct, sentFields, sentField, Option.bind_eq_bind, hd, Option.bind_some, e1, e2, hm _ _ _ h1]
    rw [inOrder_congr ?_ n r h2]
    · simp only [Option.bind_some, if_pos hl, List.append_nil]
      rw [if_pos ⟨hvec, by omega⟩]
    · intro i l hl
      obtain ⟨x, h5, hl⟩ := C80.bind_some hl
      rw [sentFields_more hm fs _ _ h5]
      exact hl
  · cases hv

end

/-! ### What has been sent -/

theorem ctx_of {e : Env} {io : Io} {p : Protocol} {m : Mem} {pre post : List WOp} {op : WOp}
    {w0 w1 w' : Writer} {addr : Nat → Nat} {dst : Mem} {b' : Bytes} {new : List Obj}
    (h : Sent e io p m pre op post w0 w1 w' addr dst b') (g1 : Grows false w0 w1 new) :
    ∃ objs, Ctx io w' objs addr dst b' w1.mem ∧ Start io w0 ∧ Ends w1 w' ∧ Closed objs w0 w1 := by
  obtain ⟨objs, t⟩ := h.transfer
  have so := h.objs_of g1 t
  have hio : ∀ {ops : List WOp}, (∀ off v, WOp.overwriteInt32 off v ∉ ops) →
      ∀ op ∈ ops, op.isAppend = true := by
    intro ops ha op hop
    cases op <;> first | rfl | exact absurd hop (ha _ _)
  obtain ⟨hio0, s, hs⟩ := runAll_built (al := false) h.before
    (hio (fun off v hc => h.append off v (List.mem_append_left _ hc))) (by intro hc; cases hc)
  obtain ⟨rest, g2, _⟩ := runAll_after post h.after
    (hio (fun off v hc => h.append off v (List.mem_append_right _ hc))) h.noParent
  refine ⟨objs, ⟨t, so.few, h.sane, ?_⟩, ⟨hio0, s, hs⟩, ⟨rest, g2⟩, ?_⟩
  · intro a n bs hl
    cases n with
    | zero => rw [load_zero_mem] at hl ⊢; exact hl
    | succ n => exact (h.load (Nat.succ_pos n) hl).1
  · intro j x i hx hp h1 h2
    rw [so.count] at h2 ⊢
    obtain ⟨k, rfl, hk⟩ := so.children j x i hx hp h1 h2
    have := (List.getElem?_eq_some_iff.mp hk).1
    simp at this
    omega

end Gb.C84
