import Verif.Spec.AndroidHandle
import Verif.Lemmas.FmqDesc
/-
Native handles as Android reads them.
-/
set_option autoImplicit false

namespace Gb.C83
open Writer Reader Kernel Android

/-- GBinderFds (include/gbinder_types.h:109-119): version, num_fds, num_ints, the descriptors and the integers. -/
def handleBytes (version : Nat) (fds ints : List Nat) : Bytes :=
  leBytes 4 version ++ leBytes 4 fds.length ++ leBytes 4 ints.length ++ fds.flatMap (leBytes 4) ++
    ints.flatMap (leBytes 4)

theorem length_words (l : List Nat) : (l.flatMap (leBytes 4)).length = 4 * l.length :=
  C82.length_flatMap (leBytes 4) 4 (fun _ => length_leBytes _ _) l

theorem length_handleBytes (v : Nat) (fds ints : List Nat) :
    (handleBytes v fds ints).length = 12 + 4 * (fds.length + ints.length) := by
  simp only [handleBytes, List.length_append, length_leBytes, length_words]
  omega

theorem split_at {l : List Nat} {k : Nat} (hk : k < l.length) :
    l.flatMap (leBytes 4) = (l.take k).flatMap (leBytes 4) ++ (leBytes 4 l[k] ++ (l.drop (k + 1)).flatMap (leBytes 4)) := by
  have h : l = l.take k ++ l[k] :: l.drop (k + 1) := by simp
  have := congrArg (List.flatMap (leBytes 4)) h
  rwa [List.flatMap_append, List.flatMap_cons] at this

/-- After the size. -/
def middle (w : Writer) (n : Nat) : Writer := w.pushRaw (leBytes 8 n)

def finish (w : Writer) (a n nf : Nat) : Writer :=
  ((middle w n).push (.buf a n none)).push (.fda nf { index := w.offsets.length, offset := 12 })

theorem append_exact {e : Env} {w w' : Writer} {a v : Nat} {fds ints : List Nat} (ha : a ≠ 0)
    (h : (WOp.fds a none).run e w = .ok w') (hap : w.mem.Apart) (hl : 12 + 4 * (fds.length + ints.length) < 2 ^ 32)
    (hm : w.mem.load a (12 + 4 * (fds.length + ints.length)) = some (handleBytes v fds ints)) :
    w' = finish w a (12 + 4 * (fds.length + ints.length)) fds.length := by
  have l5 : w.mem.load (a + 4) 4 = some (leBytes 4 fds.length) :=
    C82.part hap hm (leBytes 4 v) _ (leBytes 4 ints.length ++ fds.flatMap (leBytes 4) ++ ints.flatMap (leBytes 4))
      (by simp [handleBytes, List.append_assoc]) (by simp) (by simp)
  have l6 : w.mem.load (a + 8) 4 = some (leBytes 4 ints.length) :=
    C82.part hap hm (leBytes 4 v ++ leBytes 4 fds.length) _ (fds.flatMap (leBytes 4) ++ ints.flatMap (leBytes 4))
      (by simp [handleBytes, List.append_assoc]) (by simp) (by simp)
  simp only [WOp.run] at h
  rw [if_neg ha] at h
  simp only [loadU32, l5, l6, leVal_leBytes_of_lt (show fds.length < 256 ^ 4 by omega),
    leVal_leBytes_of_lt (show ints.length < 256 ^ 4 by omega), bind, Except.bind] at h
  rw [appendFds] at h
  simp only [Nat.mod_eq_of_lt (show fds.length + ints.length < 2 ^ 32 by omega), withBytes, bufAppendWord_eq,
    Except.map, bind, Except.bind, appendBufferObject_eq] at h
  have h2 := appendFdaObject_ok h
  rw [h2]
  rfl

structure RecvHandle (io : Io) (w0 w1 w' : Writer) (objs : List KObj) (b' : Bytes) (a n nf : Nat) : Prop where
  obj0 : objs[w0.offsets.length]? = some (.buffer a n none)
  obj1 : objs[w0.offsets.length + 1]? = some (.fda nf w0.offsets.length 12)
  kids : ∀ (j : Nat) x, objs[j]? = some x → kparent x = some w0.offsets.length → x = .fda nf w0.offsets.length 12
  off0 : w'.offsets[w0.offsets.length]? = some (w0.bytes.length + 8)
  off1 : w'.offsets[w0.offsets.length + 1]? = some (w0.bytes.length + 8 + io.bufferObjSize)
  len : w1.bytes.length = w0.bytes.length + 8 + io.bufferObjSize + io.fdaSize
  word : num b' w0.bytes.length 8 = n

/-- What's written without objects arrives as it is. -/
theorem num_raw {e : Env} {io : Io} {p : Protocol} {m : Mem} {pre post : List WOp} {op : WOp}
    {w0 w1 w' : Writer} {addr : Nat → Nat} {dst : Mem} {b' : Bytes} {n x : Nat} {new : List Obj}
    (h : Sent e io p m pre op post w0 w1 w' addr dst b')
    {objs : List KObj} (t : Transfer io w'.mem w'.bytes w'.offsets objs addr dst b')
    (hx : x < 256 ^ n) (g : Grows false (w0.pushRaw (leBytes n x)) w1 new) :
    num b' w0.bytes.length n = x := by
  have happ : ∀ {ops : List WOp}, (∀ off v, WOp.overwriteInt32 off v ∉ ops) → ∀ op ∈ ops, op.isAppend = true := by
    intro ops ha op hop
    cases op <;> first | rfl | exact absurd hop (ha _ _)
  obtain ⟨hio, s, hs⟩ := runAll_built (al := false) h.before
    (happ (fun off v hc => h.append off v (List.mem_append_left _ hc))) (by intro hc; cases hc)
  obtain ⟨rest, g4, _⟩ := runAll_after post h.after
    (happ (fun off v hc => h.append off v (List.mem_append_right _ hc))) h.noParent
  have g5 := g.trans g4
  obtain ⟨r, hr, _⟩ := g5.tail
  have hmb : (w0.pushRaw (leBytes n x)).bytes = w0.bytes ++ leBytes n x := rfl
  have hml : (w0.pushRaw (leBytes n x)).bytes.length = w0.bytes.length + n := by simp [hmb]
  have hwl : w'.bytes.length = (w0.pushRaw (leBytes n x)).bytes.length + r.length := by rw [hr]; simp
  rw [num_same (b := w'.bytes) fun k k1 k2 => t.data k (by omega)
    (outside hs hmb (o1 := []) (by simp [pushRaw]) g5 (by intro o ho; cases ho) (by omega) (by omega))]
  rw [num_field _ (by omega), fieldAt, hr, hmb, List.append_assoc, List.drop_left,
    List.take_left' (length_leBytes _ _), leVal_leBytes_of_lt hx]

theorem recvHandle {e : Env} {io : Io} {p : Protocol} {m : Mem} {pre post : List WOp} {op : WOp}
    {w0 w1 w' : Writer} {addr : Nat → Nat} {dst : Mem} {b' : Bytes} {a n nf : Nat}
    (h : Sent e io p m pre op post w0 w1 w' addr dst b') (hw : w1 = finish w0 a n nf)
    (h1 : a < 256 ^ io.ptrSize) (h2 : n < 2 ^ 32) (h3 : nf < 2 ^ 32)
    {objs : List KObj} (t : Transfer io w'.mem w'.bytes w'.offsets objs addr dst b') :
    RecvHandle io w0 w1 w' objs b' a n nf := by
  have g1 : Grows false (middle w0 n) w1 [.buf a n none, .fda nf { index := w0.offsets.length, offset := 12 }] := by
    rw [hw]; exact (Grows.push false (middle w0 n) _).trans (Grows.push false _ _)
  have g0 : Grows false w0 (middle w0 n) [] := Grows.raw _ _ (by intro hc; cases hc)
  have so := h.objs_of (g0.trans g1) t
  have hio := so.io0
  have hpow := pow_ge io
  have hfew := so.few
  have hle := so.le
  have hcnt := so.count
  simp only [List.nil_append, List.length_cons, List.length_nil] at hcnt
  have hn0 := so.at_ 0 (by simp)
  have hn1 := so.at_ 1 (by simp)
  simp only [List.nil_append, List.map_cons, List.getElem?_cons_zero, List.getElem?_cons_succ, Obj.kernel,
    Option.map_none, Nat.add_zero] at hn0 hn1
  rw [Nat.mod_eq_of_lt h1, Nat.mod_eq_of_lt (by omega)] at hn0
  rw [Nat.mod_eq_of_lt (by omega), Nat.mod_eq_of_lt (by omega), Nat.mod_eq_of_lt (by omega)] at hn1
  have hb0 : ∀ a l pr, (Obj.bytes w0.io (.buf a l pr)).length = io.bufferObjSize := by
    intro a l pr; rw [hio]; simp [Obj.bytes, length_encodeBufferObject]
  have hb1 : ∀ n pr, (Obj.bytes w0.io (.fda n pr)).length = io.fdaSize := by
    intro n pr; rw [hio]; simp [Obj.bytes, length_encodeFdaObject]
  have hoffs : w1.offsets = w0.offsets ++ [w0.bytes.length + 8, w0.bytes.length + 8 + io.bufferObjSize] := by
    rw [hw]
    simp only [finish, middle, push, pushRaw, List.length_append, hb0, length_leBytes,
      List.append_assoc, List.cons_append, List.nil_append, Nat.add_assoc]
  have hlen : w1.bytes.length = w0.bytes.length + 8 + io.bufferObjSize + io.fdaSize := by
    rw [hw]
    simp only [finish, middle, push, pushRaw, List.length_append, hb0, hb1, length_leBytes]
  obtain ⟨o, ho⟩ := so.offs
  refine ⟨hn0, hn1, ?_, ?_, ?_, hlen, num_raw h t (by omega) g1⟩
  · intro j x hj hk
    obtain ⟨k, rfl, hx⟩ := so.children j x _ hj hk (Nat.le_refl _) (by simp)
    match k, hx with
    | 0, hx => rw [Nat.add_zero, hn0] at hj; cases hj; cases hk
    | 1, hx => rw [hn1] at hj; cases hj; rfl
    | k + 2, hx => simp at hx
  · rw [ho, hoffs, List.append_assoc, List.getElem?_append_right (by omega)]; simp
  · rw [ho, hoffs, List.append_assoc, List.getElem?_append_right (by omega)]; simp

/-- Integers which nobody has changed. -/
theorem ints_exact {c : Parcel} : ∀ {l : List Nat} {a : Nat}, (∀ x ∈ l, x < 2 ^ 32) →
    (∀ (k : Nat) (hk : k < l.length), c.mem.load (a + 4 * k) 4 = some (leBytes 4 l[k])) → c.ints a l.length = some l
  | [], _, _, _ => rfl
  | x :: l, a, h1, h2 => by
    have h0 := h2 0 (by simp)
    simp only [Nat.mul_zero, Nat.add_zero, List.getElem_cons_zero] at h0
    have hx := h1 x (by simp)
    have ih := ints_exact (c := c) (l := l) (a := a + 4) (fun y hy => h1 y (by simp [hy])) (by
      intro k hk
      have := h2 (k + 1) (by simp; omega)
      rw [show a + 4 * (k + 1) = a + 4 + 4 * k by omega] at this
      simpa using this)
    simp only [List.length_cons, Parcel.ints, Parcel.numAt, h0, Option.map_some, Option.bind_eq_bind,
      Option.bind_some, ih, C80.num_le rfl (show x < 256 ^ 4 by omega)]

theorem handle_of {e : Env} {io : Io} {p : Protocol} {m : Mem} {pre post : List WOp} {a v : Nat}
    {w0 w1 w' : Writer} {addr : Nat → Nat} {dst : Mem} {b' : Bytes} {fds ints : List Nat} {Same : Nat → Nat → Prop}
    (h : Sent e io p m pre (.fds a none) post w0 w1 w' addr dst b') (ha : a ≠ 0)
    (hm : w0.mem.load a (12 + 4 * (fds.length + ints.length)) = some (handleBytes v fds ints))
    (hl : 12 + 4 * (fds.length + ints.length) < 2 ^ 32) (hfd : ∀ x ∈ fds, x < 2 ^ 32) (hint : ∀ x ∈ ints, x < 2 ^ 32)
    (hF : ∀ objs, accepts io w'.bytes w'.offsets = some objs → FdArrays io w'.mem w'.offsets objs addr dst b' Same) :
    ∃ l, Parcel.readNative ⟨io, b', w'.offsets, dst⟩ w0.bytes.length = some (some ⟨l, ints⟩, w1.bytes.length) ∧
      l.length = fds.length ∧ ∀ (k : Nat) y, l[k]? = some y → ∃ x, fds[k]? = some x ∧ Same x y := by
  obtain ⟨objs, t⟩ := h.transfer
  have hF := hF objs t.found
  have hpow := pow_ge io
  obtain ⟨l, hml⟩ := runAll_mem post h.after h.still
  have hs := h.sane
  have hap1 : Mem.Apart w1.mem := by
    have := hs.apart
    rw [hml] at this
    exact (List.pairwise_append.mp this).2.1
  obtain ⟨l0, hml0⟩ := runAll_mem (e := e) [.fds a none] (w := w0) (w' := w1)
    (by simp only [WOp.runAll, h.call]; rfl) (by simp)
  have hap0 : Mem.Apart w0.mem := by
    rw [hml0] at hap1
    exact (List.pairwise_append.mp hap1).2.1
  have hw := append_exact ha h.call hap0 hl hm
  have lf : w1.mem.load a (12 + 4 * (fds.length + ints.length)) = some (handleBytes v fds ints) := by
    rw [hw]; exact hm
  obtain ⟨lf, _, lf2⟩ := h.load (by omega) lf
  have rq := recvHandle h hw (by omega) hl (by omega) t
  have nb : ∀ {k n : Nat} (j : Nat) aj lj off, objs[j]? = some (.buffer aj lj (some (w0.offsets.length, off))) →
      off + word io ≤ k ∨ k + n ≤ off := by
    intro k n j aj lj off hj
    have := rq.kids j _ hj rfl
    cases this
  have nf : ∀ {k n : Nat}, k + n ≤ 12 ∨ 12 + 4 * fds.length ≤ k → ∀ (j : Nat) mm off,
      objs[j]? = some (.fda mm w0.offsets.length off) → off + 4 * mm ≤ k ∨ k + n ≤ off := by
    intro k n hk j mm off hj
    have := rq.kids j _ hj rfl
    cases this
    omega
  have r5 : dst.load (addr w0.offsets.length + 4) 4 = some (leBytes 4 fds.length) :=
    C82.recv_kept t (leBytes 4 v) _ (leBytes 4 ints.length ++ fds.flatMap (leBytes 4) ++ ints.flatMap (leBytes 4)) rq.obj0
      (by rw [lf]; simp [handleBytes, List.append_assoc]) (by simp) (by simp) nb (nf (by omega))
  have r6 : dst.load (addr w0.offsets.length + 8) 4 = some (leBytes 4 ints.length) :=
    C82.recv_kept t (leBytes 4 v ++ leBytes 4 fds.length) _ (fds.flatMap (leBytes 4) ++ ints.flatMap (leBytes 4)) rq.obj0
      (by rw [lf]; simp [handleBytes, List.append_assoc]) (by simp) (by simp) nb (nf (by omega))
  obtain ⟨l, f1, f2, f3⟩ := C82.ints_of (c := ⟨io, b', w'.offsets, dst⟩) (n := fds.length)
    (a := addr w0.offsets.length + 12) (P := fun k y => ∃ x, fds[k]? = some x ∧ Same x y) (by
    intro k hk
    have hsrc : w'.mem.load (a + (12 + 4 * k)) 4 = some (leBytes 4 fds[k]) :=
      C82.part h.sane.apart lf (leBytes 4 v ++ leBytes 4 fds.length ++ leBytes 4 ints.length ++
        (fds.take k).flatMap (leBytes 4)) _ ((fds.drop (k + 1)).flatMap (leBytes 4) ++ ints.flatMap (leBytes 4)) (by
          rw [handleBytes, split_at hk]
          simp only [List.append_assoc]) (by
          simp only [List.length_append, length_leBytes, length_words, List.length_take]
          omega) (length_leBytes _ _)
    obtain ⟨y, y1, y2, y3⟩ := hF.moved _ _ _ _ _ _ _ rq.obj1 rq.obj0 k hk fds[k] (hfd _ (List.getElem_mem hk))
      (by rw [Nat.add_assoc]; exact hsrc)
    exact ⟨y, y1, y2, fds[k], by simp, y3⟩)
  have i1 : Parcel.ints ⟨io, b', w'.offsets, dst⟩ (addr w0.offsets.length + 12 + 4 * fds.length) ints.length =
      some ints := by
    refine ints_exact hint fun k hk => ?_
    have := C82.recv_kept t (leBytes 4 v ++ leBytes 4 fds.length ++ leBytes 4 ints.length ++ fds.flatMap (leBytes 4) ++
      (ints.take k).flatMap (leBytes 4)) (leBytes 4 ints[k]) ((ints.drop (k + 1)).flatMap (leBytes 4))
      (k := 12 + 4 * fds.length + 4 * k) (n := 4) rq.obj0 (by
        rw [lf, handleBytes, split_at hk]
        simp only [List.append_assoc]) (by
        simp only [List.length_append, length_leBytes, length_words, List.length_take]
        omega) (length_leBytes _ _) nb (nf (by omega))
    rwa [show addr w0.offsets.length + (12 + 4 * fds.length + 4 * k) =
      addr w0.offsets.length + 12 + 4 * fds.length + 4 * k by omega] at this
  refine ⟨l, ?_, f2, f3⟩
  have hlen' : b'.length = w'.bytes.length := t.size
  have hlw : w1.bytes.length ≤ w'.bytes.length := by
    have happ : ∀ op ∈ post, op.isAppend = true := by
      intro op hop
      cases op <;> first | rfl | exact absurd (List.mem_append_right _ hop) (h.append _ _)
    obtain ⟨rest, g4, _⟩ := runAll_after post h.after happ h.noParent
    obtain ⟨r, hr, _⟩ := g4.tail
    rw [hr]; simp
  have hl1 := rq.len
  have s1 := C80.readBuffer_of t rq.off0 rq.obj0
  unfold Parcel.readNative
  rw [if_pos (by simp only; omega)]
  simp only [rq.word]
  rw [if_neg (by omega)]
  simp only [s1, Option.bind_eq_bind, Option.bind_some, Parcel.numAt, r5, r6, Option.map_some,
    C80.num_le rfl (show fds.length < 256 ^ 4 by omega), C80.num_le rfl (show ints.length < 256 ^ 4 by omega)]
  rw [if_pos ⟨trivial, List.mem_of_getElem? rq.off1⟩, hF.kept _ _ _ _ _ rq.off1 rq.obj1]
  simp only [and_self, if_true, f1, i1, Option.bind_some, hl1]
  rfl

end Gb.C83
