import Verif.Spec.Transfer
import Verif.Spec.Demo
/-
A way to check that the transfer of a particular parcel meets the specification, for examples.
-/
set_option autoImplicit false

namespace Gb.Kernel

/-- Bytes of the parcel which belong to objects. -/
def covered (io : Io) (b : Bytes) (offs : List Nat) (k : Nat) : Bool :=
  offs.any fun o => match getObject io b o with
    | some (_, n) => decide (o ≤ k) && decide (k < o + n)
    | none => false

/-- Bytes of the buffer `i` which are written over. -/
def touched (io : Io) (objs : List KObj) (i k : Nat) : Bool :=
  objs.any fun x => match x with
    | .buffer _ _ (some (i', off)) => i' == i && (decide (off ≤ k) && decide (k < off + word io))
    | .fda n i' off => i' == i && (decide (off ≤ k) && decide (k < off + 4 * n))
    | _ => false

def checkBuffer (io : Io) (src : Mem) (offs : List Nat) (objs : List KObj) (addr : Nat → Nat)
    (dst : Mem) (b' : Bytes) (i : Nat) : Bool :=
  match objs[i]? with
  | some (.buffer a len par) =>
    (match offs[i]? with
     | some o => getObject io b' o == some (.buffer (addr i) len par, 8 + 4 * word io)
     | none => true) &&
    decide (addr i ≠ 0) && decide (addr i < 256 ^ word io) &&
    (match src.load a len, dst.load (addr i) len with
     | some c, some c' =>
       ((List.range objs.length).all fun j => match objs[j]? with
         | some (.buffer _ _ (some (i', off))) =>
           i' != i || slice c' off (word io) == some (leBytes (word io) (addr j))
         | _ => true) &&
       ((List.range len).all fun k => touched io objs i k || c'[k]? == c[k]?)
     | _, _ => false)
  | _ => true

def checkTransfer (io : Io) (src : Mem) (b : Bytes) (offs : List Nat) (objs : List KObj)
    (addr : Nat → Nat) (dst : Mem) (b' : Bytes) : Bool :=
  accepts io b offs == some objs && (fixups [] 0 0 objs).isSome && b'.length == b.length &&
  decide (dst.Sane (256 ^ word io)) &&
  ((List.range b.length).all fun k => covered io b offs k || b'[k]? == b[k]?) &&
  (List.range objs.length).all (checkBuffer io src offs objs addr dst b')

theorem checkBuffer_sound {io : Io} {src : Mem} {offs : List Nat} {objs : List KObj}
    {addr : Nat → Nat} {dst : Mem} {b' : Bytes} {i a len : Nat} {par : Option (Nat × Nat)}
    (h : checkBuffer io src offs objs addr dst b' i = true) (hx : objs[i]? = some (.buffer a len par)) :
    (∀ o, offs[i]? = some o → getObject io b' o = some (.buffer (addr i) len par, 8 + 4 * word io)) ∧
    (addr i ≠ 0 ∧ addr i < 256 ^ word io) ∧
    ∃ c c', src.load a len = some c ∧ dst.load (addr i) len = some c' ∧
      (∀ (j : Nat) aj lj off, objs[j]? = some (.buffer aj lj (some (i, off))) →
        slice c' off (word io) = some (leBytes (word io) (addr j))) ∧
      (∀ k < len,
        (∀ (j : Nat) aj lj off, objs[j]? = some (.buffer aj lj (some (i, off))) →
          k < off ∨ off + word io ≤ k) →
        (∀ (j : Nat) n off, objs[j]? = some (.fda n i off) → k < off ∨ off + 4 * n ≤ k) →
        c'[k]? = c[k]?) := by
  unfold checkBuffer at h
  rw [hx] at h
  simp only [Bool.and_eq_true, decide_eq_true_eq] at h
  obtain ⟨⟨⟨h1, h2⟩, h3⟩, h4⟩ := h
  refine ⟨?_, ⟨h2, h3⟩, ?_⟩
  · intro o ho
    rw [ho] at h1
    simpa using h1
  · cases hc : src.load a len with
    | none => rw [hc] at h4; simp at h4
    | some c =>
      cases hc' : dst.load (addr i) len with
      | none => rw [hc, hc'] at h4; simp at h4
      | some c' =>
        rw [hc, hc'] at h4
        simp only [Bool.and_eq_true, List.all_eq_true, List.mem_range] at h4
        refine ⟨c, c', rfl, rfl, ?_, ?_⟩
        · intro j aj lj off hj
          have hjl : j < objs.length := (List.getElem?_eq_some_iff.mp hj).1
          have := h4.1 j hjl
          rw [hj] at this
          simpa using this
        · intro k hk k1 k2
          have := h4.2 k hk
          rw [Bool.or_eq_true] at this
          rcases this with ht | ht
          · exfalso
            unfold touched at ht
            rw [List.any_eq_true] at ht
            obtain ⟨x, hx, ht⟩ := ht
            obtain ⟨j, hj⟩ := List.getElem?_of_mem hx
            split at ht
            · simp only [Bool.and_eq_true, decide_eq_true_eq, beq_iff_eq] at ht
              obtain ⟨rfl, ht⟩ := ht
              have := k1 j _ _ _ hj
              omega
            · simp only [Bool.and_eq_true, decide_eq_true_eq, beq_iff_eq] at ht
              obtain ⟨rfl, ht⟩ := ht
              have := k2 j _ _ hj
              omega
            · cases ht
          · simpa using ht

theorem checkTransfer_sound {io : Io} {src : Mem} {b : Bytes} {offs : List Nat} {objs : List KObj}
    {addr : Nat → Nat} {dst : Mem} {b' : Bytes}
    (h : checkTransfer io src b offs objs addr dst b' = true) :
    Transfer io src b offs objs addr dst b' := by
  unfold checkTransfer at h
  simp only [Bool.and_eq_true, decide_eq_true_eq, beq_iff_eq, List.all_eq_true, List.mem_range] at h
  obtain ⟨⟨⟨⟨⟨h1, h2⟩, h3⟩, h4⟩, h5⟩, h6⟩ := h
  have hb : ∀ {i a len par}, objs[i]? = some (.buffer a len par) →
      checkBuffer io src offs objs addr dst b' i = true := by
    intro i a len par hx
    exact h6 i (List.getElem?_eq_some_iff.mp hx).1
  refine ⟨h1, Option.isSome_iff_exists.mp h2, h3, ?_, ?_, h4, ?_, ?_⟩
  · intro k hk hc
    have := h5 k hk
    rw [Bool.or_eq_true] at this
    rcases this with ht | ht
    · exfalso
      unfold covered at ht
      rw [List.any_eq_true] at ht
      obtain ⟨o, ho, ht⟩ := ht
      obtain ⟨i, hi⟩ := List.getElem?_of_mem ho
      split at ht
      · rename_i x n hg
        simp only [Bool.and_eq_true, decide_eq_true_eq] at ht
        have := hc i o x n hi hg
        omega
      · cases ht
    · simpa using ht
  · intro i o a len par ho hx
    exact (checkBuffer_sound (hb hx) hx).1 o ho
  · intro i a len par hx
    exact (checkBuffer_sound (hb hx) hx).2.1
  · intro i a len par hx
    exact (checkBuffer_sound (hb hx) hx).2.2

/-! ### A kernel for the examples -/

/-- Where the buffer `i` goes. -/
def demoAddr (i : Nat) : Nat := 0x70000000 + 0x100 * i

/-- The receiver's copies of the buffers. -/
def demoDst (io : Io) (src : Mem) (objs : List KObj) : Mem :=
  (List.range objs.length).filterMap fun i => match (objs[i]? : Option KObj) with
    | some (KObj.buffer a len _) =>
      let c := (src.load a len).getD []
      some (demoAddr i, (List.range objs.length).foldl (fun c j => match (objs[j]? : Option KObj) with
        | some (KObj.buffer _ _ (some (i', off))) =>
          if i' = i then poke c off (leBytes (word io) (demoAddr j)) else c
        | _ => c) c)
    | _ => none

/-- The received parcel. -/
def demoData (io : Io) (b : Bytes) (offs : List Nat) (objs : List KObj) : Bytes :=
  (List.range objs.length).foldl (fun b i => match (objs[i]? : Option KObj), (offs[i]? : Option Nat) with
    | some (KObj.buffer ..), some o => poke b (o + 8) (leBytes (word io) (demoAddr i))
    | _, _ => b) b

/-- Is the parcel accepted and transferred by this kernel according to the specification? -/
def demoTransfer (w : Writer) : Bool :=
  match getObjects w.io w.bytes 0 w.offsets with
  | some objs => checkTransfer w.io w.mem w.bytes w.offsets objs demoAddr
      (demoDst w.io w.mem objs) (demoData w.io w.bytes w.offsets objs)
  | none => false

/-- The objects. -/
def demoObjs (w : Writer) : List KObj := (getObjects w.io w.bytes 0 w.offsets).getD []

theorem demoTransfer_sound {w : Writer} (h : demoTransfer w = true) :
    Transfer w.io w.mem w.bytes w.offsets (demoObjs w) demoAddr (demoDst w.io w.mem (demoObjs w))
      (demoData w.io w.bytes w.offsets (demoObjs w)) := by
  unfold demoTransfer at h
  split at h
  · rename_i objs ho
    have : demoObjs w = objs := by unfold demoObjs; rw [ho]; rfl
    rw [this]
    exact checkTransfer_sound h
  · cases h

/-- All hypotheses of `Sent` for particular calls. -/
def demoSent (e : Env) (io : Io) (p : Protocol) (m : Mem) (pre : List WOp) (op : WOp)
    (post : List WOp) : Bool :=
  match WOp.runAll e { io := io, protocol := p, mem := m } pre with
  | .error _ => false
  | .ok w0 => match op.run e w0 with
    | .error _ => false
    | .ok w1 => match WOp.runAll e w1 post with
      | .error _ => false
      | .ok w' =>
        ((pre ++ post).all fun | .overwriteInt32 .. => false | _ => true) &&
        (post.all fun | .memory _ => false | _ => true) &&
        (post.all fun op => op.parent == none) &&
        decide (w'.bytes.length < 2 ^ 32) && decide (w'.mem.Sane (256 ^ word io)) &&
        w'.io == io && demoTransfer w'

theorem demoSent_sound {e : Env} {io : Io} {p : Protocol} {m : Mem} {pre post : List WOp} {op : WOp}
    (h : demoSent e io p m pre op post = true) :
    ∃ w0 w1 w' dst b', Sent e io p m pre op post w0 w1 w' demoAddr dst b' := by
  unfold demoSent at h
  split at h
  · cases h
  rename_i w0 h0
  split at h
  · cases h
  rename_i w1 h1
  split at h
  · cases h
  rename_i w' h2
  simp only [Bool.and_eq_true, decide_eq_true_eq, beq_iff_eq, List.all_eq_true] at h
  obtain ⟨⟨⟨⟨⟨⟨a1, a2⟩, a3⟩, a4⟩, a5⟩, a6⟩, a7⟩ := h
  refine ⟨w0, w1, w', _, _, h0, h1, h2, ?_, ?_, a3, a4, a5, _, a6 ▸ demoTransfer_sound a7⟩
  · intro off v hc
    exact absurd (a1 _ hc) (by simp)
  · intro m hc
    exact absurd (a2 _ hc) (by simp)

/-- And what has been received is known. -/
theorem demoSent_exact {e : Env} {io : Io} {p : Protocol} {m : Mem} {pre post : List WOp} {op : WOp}
    (h : demoSent e io p m pre op post = true) :
    ∃ w0 w1 w', Sent e io p m pre op post w0 w1 w' demoAddr (demoDst io w'.mem (demoObjs w'))
      (demoData io w'.bytes w'.offsets (demoObjs w')) := by
  unfold demoSent at h
  split at h
  · cases h
  rename_i w0 h0
  split at h
  · cases h
  rename_i w1 h1
  split at h
  · cases h
  rename_i w' h2
  simp only [Bool.and_eq_true, decide_eq_true_eq, beq_iff_eq, List.all_eq_true] at h
  obtain ⟨⟨⟨⟨⟨⟨a1, a2⟩, a3⟩, a4⟩, a5⟩, a6⟩, a7⟩ := h
  refine ⟨w0, w1, w', h0, h1, h2, ?_, ?_, a3, a4, a5, _, a6 ▸ demoTransfer_sound a7⟩
  · intro off v hc
    exact absurd (a1 _ hc) (by simp)
  · intro m hc
    exact absurd (a2 _ hc) (by simp)

end Gb.Kernel
