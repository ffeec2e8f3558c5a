import Verif.Lemmas.Transfer
/-
Vectors of HIDL strings: what the writer appends, and how the kernel delivers it.
-/
set_option autoImplicit false

namespace Gb
open Writer Reader Kernel

theorem hidlStringDescs_eq {m : Mem} : ∀ {strv : List Nat} {strs : List Bytes} {ds},
    hidlStringDescs m strv = .ok ds → 0 ∉ strv → strv.map m.cstr = strs.map some →
    (∀ s ∈ strs, s.length + 1 < 2 ^ 32) →
    ds = List.zipWith (fun p s => (p, s.length)) strv strs
  | [], strs, ds, h, _, hm, _ => by
    cases h
    cases strs with
    | nil => rfl
    | cons => cases hm
  | p :: ps, strs, ds, h, h0, hm, hl => by
    cases strs with
    | nil => cases hm
    | cons s ss =>
      simp only [List.map_cons, List.cons.injEq] at hm
      simp only [hidlStringDescs] at h
      obtain ⟨d, h1, h⟩ := bind_ok h
      obtain ⟨ds', h2, h⟩ := bind_ok h
      rw [strLen_cstr (by rintro rfl; simp at h0) hm.1] at h1
      cases h1
      cases h
      have hs := hl s List.mem_cons_self
      rw [hidlStringDescs_eq h2 (fun hc => h0 (List.mem_cons_of_mem _ hc)) hm.2
        (fun x hx => hl x (List.mem_cons_of_mem _ hx))]
      simp only [List.zipWith_cons_cons]
      rw [Nat.mod_eq_of_lt (by omega)]

theorem stringObjs_get (idx : Nat) (ds : List (Nat × Nat)) : ∀ (off k : Nat),
    off + 16 * ds.length ≤ 2 ^ 32 →
    (stringObjs idx off ds)[k]? = ds[k]?.map (fun d =>
      Obj.buf d.1 (if d.1 ≠ 0 then (d.2 + 1) % 2 ^ 32 else 0)
        (some { index := idx, offset := off + 16 * k })) := by
  induction ds with
  | nil => intro off k _; simp [stringObjs]
  | cons d ds ih =>
    obtain ⟨p, len⟩ := d
    intro off k h
    simp only [List.length_cons] at h
    cases k with
    | zero => simp [stringObjs]
    | succ k =>
      simp only [stringObjs, List.getElem?_cons_succ]
      cases ds with
      | nil => simp [stringObjs]
      | cons d2 ds =>
        simp only [List.length_cons] at h
        rw [Nat.mod_eq_of_lt (by omega), ih _ _ (by simp only [List.length_cons]; omega)]
        rw [show off + 16 + 16 * k = off + 16 * (k + 1) by omega]

theorem isBuf_stringObjs (idx : Nat) (ds : List (Nat × Nat)) :
    ∀ off, ∀ x ∈ stringObjs idx off ds, x.isBuf = true := by
  induction ds with
  | nil => intro off x hx; cases hx
  | cons d ds ih =>
    obtain ⟨p, l⟩ := d
    intro off x hx
    simp only [stringObjs, List.mem_cons] at hx
    rcases hx with rfl | hx
    · rfl
    · exact ih _ x hx

theorem appendStringBuffers_pushed {e : Env} {idx : Nat} {ds : List (Nat × Nat)} :
    ∀ {w w' : Writer} {off : Nat}, appendStringBuffers e idx w off ds = .ok w' →
      w' = w.pushAll (stringObjs idx off ds) := by
  induction ds with
  | nil => intro w w' off h; cases h; rfl
  | cons d ds ih =>
    obtain ⟨p, len⟩ := d
    intro w w' off h
    simp only [appendStringBuffers] at h
    by_cases hp : p = 0
    · subst hp
      simp only [appendBufferObject_eq, bind, Except.bind, ne_eq, not_true_eq_false, if_false] at h
      rw [ih h]
      rfl
    · simp only [appendBufferObject_eq, bind, Except.bind, ne_eq, hp, not_false_eq_true, if_true] at h
      rw [ih h]
      simp only [stringObjs, ne_eq, hp, not_false_eq_true, if_true]
      rfl

theorem pushAll_append (w : Writer) (a b : List Obj) :
    w.pushAll (a ++ b) = (w.pushAll a).pushAll b := by
  induction a generalizing w with
  | nil => rfl
  | cons x xs ih => exact ih (w.push x)

/-- What the writer of a string vector leaves behind. -/
def Wrote (w w' : Writer) (vec strings : Nat) (ds : List (Nat × Nat)) (block : Bytes) : Prop :=
  Pushed w w' ([.buf vec 16 none,
      .buf strings (16 * ds.length) (some { index := w.offsets.length, offset := 0 })] ++
        stringObjs (w.offsets.length + 1) 0 ds) ∧
    w'.mem = (vec, hidlVecBytes strings ds.length true) :: (strings, block) :: w.mem

/-- Pushing doesn't look at memory and cleanup. -/
theorem pushAll_same (new : List Obj) : ∀ {a b : Writer}, a.io = b.io → a.protocol = b.protocol →
    a.bytes = b.bytes → a.offsets = b.offsets → a.buffersSize = b.buffersSize →
    Pushed b (a.pushAll new) new ∧ (a.pushAll new).mem = a.mem := by
  induction new with
  | nil => intro a b h1 h2 h3 h4 h5; exact ⟨⟨h1, h2, h3, h4, h5⟩, rfl⟩
  | cons x xs ih =>
    intro a b h1 h2 h3 h4 h5
    obtain ⟨hp, hm⟩ := ih (a := a.push x) (b := b.push x) h1 h2
      (by simp only [Writer.push, h1, h3]) (by simp only [Writer.push, h3, h4])
      (by simp only [Writer.push, h5])
    exact ⟨⟨hp.io, hp.proto, hp.bytes, hp.offsets, hp.buffers⟩, hm⟩

theorem appendHidlStringVec_pushed {e : Env} {w w' : Writer} {strv : List Nat}
    (h : appendHidlStringVec e w strv = .ok w') (hne : 0 < strv.length) :
    ∃ ds, hidlStringDescs w.mem strv = .ok ds ∧ ∃ vec strings,
      strings = 0 ∧ w'.mem = (vec, hidlVecBytes strings strv.length true) ::
        (strings, ds.flatMap (fun d => hidlStringBytes d.1 d.2 (decide (d.1 ≠ 0)))) :: w.mem ∨
      Wrote w w' vec strings ds
        (ds.flatMap (fun d => hidlStringBytes d.1 d.2 (decide (d.1 ≠ 0)))) := by
  obtain ⟨ds, hd, h⟩ := bind_ok h
  have hl := hidlStringDescs_length hd
  refine ⟨ds, hd, ?_⟩
  simp only [appendBufferObject_eq, bind, Except.bind, hne, if_true] at h
  generalize hb : ds.flatMap (fun d => hidlStringBytes d.1 d.2 (decide (d.1 ≠ 0))) = block at h ⊢
  generalize hn1 : newBlock e w block = n1 at h
  obtain ⟨strings, w1⟩ := n1
  have hw1 : w1 = { w with mem := (strings, block) :: w.mem } := by
    unfold newBlock at hn1; cases hn1; rfl
  generalize hn2 : newBlock e _ _ = n2 at h
  obtain ⟨vec, w2⟩ := n2
  have hw2 : w2 = { w1.addCleanup (.free strings) with
      mem := (vec, hidlVecBytes strings strv.length true) :: w1.mem } := by
    unfold newBlock at hn2; cases hn2; rfl
  simp only [] at h
  refine ⟨vec, strings, ?_⟩
  by_cases hs : strings = 0
  · left
    refine ⟨hs, ?_⟩
    rw [if_neg (by simpa using hs)] at h
    cases h
    simp only [Writer.push, addCleanup, hw2, hw1]
  · right
    rw [if_pos hs] at h
    have := appendStringBuffers_pushed h
    have e1 : w' = (w2.addCleanup (.free vec)).pushAll ([.buf vec 16 none,
      .buf strings (16 * ds.length) (some { index := w.offsets.length, offset := 0 })] ++
        stringObjs (w.offsets.length + 1) 0 ds) := by
      rw [this, pushAll_append, hl, hw2, hw1]
      simp [Writer.pushAll, Writer.push, addCleanup]
    obtain ⟨hp, hm⟩ := pushAll_same ([.buf vec 16 none,
      .buf strings (16 * ds.length) (some { index := w.offsets.length, offset := 0 })] ++
        stringObjs (w.offsets.length + 1) 0 ds) (a := w2.addCleanup (.free vec)) (b := w)
        (by rw [hw2, hw1]; rfl) (by rw [hw2, hw1]; rfl) (by rw [hw2, hw1]; rfl)
        (by rw [hw2, hw1]; rfl) (by rw [hw2, hw1]; rfl)
    rw [← e1] at hp hm
    refine ⟨hp, hm.trans ?_⟩
    rw [hl, hw2, hw1]
    rfl

theorem block_drop (ds : List (Nat × Nat)) : ∀ k,
    (ds.flatMap (fun d => hidlStringBytes d.1 d.2 (decide (d.1 ≠ 0)))).drop (16 * k) =
      (ds.drop k).flatMap (fun d => hidlStringBytes d.1 d.2 (decide (d.1 ≠ 0))) := by
  induction ds with
  | nil => intro k; simp
  | cons d ds ih =>
    intro k
    cases k with
    | zero => simp
    | succ k =>
      rw [List.flatMap_cons, show 16 * (k + 1) = 16 + 16 * k by omega, ← List.drop_drop,
        List.drop_left' (length_hidlStringBytes _ _ _), ih, List.drop_succ_cons]

theorem block_length (ds : List (Nat × Nat)) :
    (ds.flatMap (fun d => hidlStringBytes d.1 d.2 (decide (d.1 ≠ 0)))).length = 16 * ds.length := by
  induction ds with
  | nil => rfl
  | cons d ds ih =>
    rw [List.flatMap_cons, List.length_append, ih, length_hidlStringBytes, List.length_cons]
    omega

/-- The objects of a string vector, as received. -/
structure RecvVec (io : Io) (w0 w1 w' : Writer) (objs : List KObj) (vec strings : Nat)
    (ds : List (Nat × Nat)) : Prop where
  obj0 : objs[w0.offsets.length]? = some (.buffer vec 16 none)
  obj1 : objs[w0.offsets.length + 1]? =
    some (.buffer strings (16 * ds.length) (some (w0.offsets.length, 0)))
  obj2 : ∀ (k : Nat) d, ds[k]? = some d → objs[w0.offsets.length + 2 + k]? =
    some (.buffer d.1 (if d.1 ≠ 0 then d.2 + 1 else 0) (some (w0.offsets.length + 1, 16 * k)))
  kids0 : ∀ (j : Nat) x, objs[j]? = some x → kparent x = some w0.offsets.length →
    ∃ a l, x = .buffer a l (some (w0.offsets.length, 0))
  kids1 : ∀ (j : Nat) x, objs[j]? = some x → kparent x = some (w0.offsets.length + 1) →
    ∃ a l k, x = .buffer a l (some (w0.offsets.length + 1, 16 * k))
  leaf : ∀ (j : Nat) x k, objs[j]? = some x → k < ds.length →
    kparent x ≠ some (w0.offsets.length + 2 + k)
  off0 : w'.offsets[w0.offsets.length]? = some w0.bytes.length
  off1 : w'.offsets[w0.offsets.length + 1]? = some (w0.bytes.length + io.bufferObjSize)
  off2 : ∀ k < ds.length, w'.offsets[w0.offsets.length + 2 + k]? =
    some (w0.bytes.length + io.bufferObjSize * (2 + k))
  len1 : w1.bytes.length = w0.bytes.length + io.bufferObjSize * (2 + ds.length)
  cnt1 : w1.offsets.length = w0.offsets.length + 2 + ds.length

theorem Sent.vec {e : Env} {io : Io} {p : Protocol} {m : Mem} {pre post : List WOp} {op : WOp}
    {w0 w1 w' : Writer} {addr : Nat → Nat} {dst : Mem} {b' : Bytes} {vec strings : Nat}
    {ds : List (Nat × Nat)}
    (h : Sent e io p m pre op post w0 w1 w' addr dst b')
    (hp : Pushed w0 w1 ([.buf vec 16 none,
      .buf strings (16 * ds.length) (some { index := w0.offsets.length, offset := 0 })] ++
        stringObjs (w0.offsets.length + 1) 0 ds))
    (h1 : vec < 256 ^ io.ptrSize) (h2 : strings < 256 ^ io.ptrSize) (h3 : 16 * ds.length < 2 ^ 32)
    (h4 : ∀ d ∈ ds, d.1 < 256 ^ io.ptrSize ∧ d.2 + 1 < 2 ^ 32)
    {objs : List KObj} (t : Transfer io w'.mem w'.bytes w'.offsets objs addr dst b') :
    RecvVec io w0 w1 w' objs vec strings ds := by
  have so := h.objs hp t
  obtain ⟨hlen, hoff⟩ := so.place hp (by
    intro x hx
    simp only [List.mem_append, List.mem_cons, List.not_mem_nil, or_false] at hx
    rcases hx with (rfl | rfl) | hx
    · rfl
    · rfl
    · exact isBuf_stringObjs _ _ _ x hx)
  have hpow := pow_ge io
  have hfew := so.few
  have hle := so.le
  have hcnt := so.count
  have hch := so.children
  have hat := so.at_
  simp only [List.length_append, List.length_cons, List.length_nil, length_stringObjs] at hcnt hlen hoff hch hat
  have hn0 := hat 0 (by omega)
  have hn1 := hat 1 (by omega)
  simp only [List.cons_append, List.nil_append, List.map_cons, List.getElem?_cons_zero,
    List.getElem?_cons_succ, Obj.kernel, Option.map_none, Option.map_some, Nat.add_zero] at hn0 hn1
  rw [Nat.mod_eq_of_lt h1, Nat.mod_eq_of_lt (by omega)] at hn0
  rw [Nat.mod_eq_of_lt h2, Nat.mod_eq_of_lt (show 16 * ds.length < _ by omega),
    Nat.mod_eq_of_lt (by omega), Nat.zero_mod] at hn1
  have hn2 : ∀ (k : Nat) d, ds[k]? = some d → objs[w0.offsets.length + 2 + k]? =
      some (.buffer d.1 (if d.1 ≠ 0 then d.2 + 1 else 0) (some (w0.offsets.length + 1, 16 * k))) := by
    intro k d hd
    have hk : k < ds.length := (List.getElem?_eq_some_iff.mp hd).1
    have hdm := h4 d (List.mem_of_getElem? hd)
    have := hat (k + 2) (by omega)
    rw [List.map_append, List.getElem?_append_right (by simp)] at this
    simp only [List.length_map, List.length_cons, List.length_nil, List.getElem?_map] at this
    rw [show k + 2 - (0 + 1 + 1) = k by omega, stringObjs_get _ _ _ _ (by omega), hd] at this
    rw [show w0.offsets.length + 2 + k = w0.offsets.length + (k + 2) by omega, this]
    simp only [Option.map_some, Obj.kernel, Option.some.injEq]
    have hif : (if d.1 ≠ 0 then d.2 + 1 else 0) < 256 ^ io.ptrSize := by split <;> omega
    rw [Nat.mod_eq_of_lt hdm.1, Nat.mod_eq_of_lt hdm.2, Nat.mod_eq_of_lt hif, Nat.zero_add,
      Nat.mod_eq_of_lt (show w0.offsets.length + 1 < 256 ^ io.ptrSize by omega),
      Nat.mod_eq_of_lt (show 16 * k < 256 ^ io.ptrSize by omega)]
  have hkids : ∀ (j : Nat) x i, objs[j]? = some x → kparent x = some i →
      w0.offsets.length ≤ i → i < w0.offsets.length + 2 + ds.length →
      (i = w0.offsets.length ∧ ∃ a l, x = .buffer a l (some (w0.offsets.length, 0))) ∨
      (i = w0.offsets.length + 1 ∧
        ∃ a l k, x = .buffer a l (some (w0.offsets.length + 1, 16 * k))) := by
    intro j x i hj hk h5 h6
    obtain ⟨k, rfl, hx⟩ := hch j x i hj hk h5 (by omega)
    match k, hx with
    | 0, hx =>
      rw [Nat.add_zero, hn0] at hj; cases hj; cases hk
    | 1, hx =>
      rw [hn1] at hj; cases hj; cases hk
      exact .inl ⟨rfl, _, _, rfl⟩
    | k + 2, hx =>
      have hkl : k < ds.length := by
        have := (List.getElem?_eq_some_iff.mp hx).1
        simp only [List.length_map, List.length_append, List.length_cons, List.length_nil,
          length_stringObjs] at this
        omega
      have := hn2 k ds[k] (List.getElem?_eq_getElem hkl)
      rw [show w0.offsets.length + 2 + k = w0.offsets.length + (k + 2) by omega, hj] at this
      cases this
      cases hk
      exact .inr ⟨rfl, _, _, k, rfl⟩
  refine ⟨hn0, hn1, hn2, ?_, ?_, ?_, ?_, ?_, ?_, by rw [hlen], by omega⟩
  · intro j x hj hk
    rcases hkids j x _ hj hk (Nat.le_refl _) (by omega) with ⟨_, hx⟩ | ⟨h9, _⟩
    · exact hx
    · omega
  · intro j x hj hk
    rcases hkids j x _ hj hk (by omega) (by omega) with ⟨h9, _⟩ | ⟨_, hx⟩
    · omega
    · exact hx
  · intro j x k hj hkl hk
    rcases hkids j x _ hj hk (by omega) (by omega) with ⟨h9, _⟩ | ⟨h9, hx⟩ <;> omega
  · have := hoff 0 (by omega); simpa using this
  · have := hoff 1 (by omega); rwa [Nat.mul_one] at this
  · intro k hk
    have := hoff (k + 2) (by omega)
    rw [show w0.offsets.length + 2 + k = w0.offsets.length + (k + 2) by omega, this,
      Nat.add_comm k 2]

end Gb
