import Verif.Lemmas.Grows
import Verif.Spec.Calls
/-
Why the kernel is able to fix up the parent buffers.
-/
set_option autoImplicit false

namespace Gb
open Kernel Writer

/-- `Obj.kernel` without the truncation of lengths and parents. -/
def Obj.pure (io : Io) : Obj → KObj
  | .loc _ o => .binder (o.addr % 256 ^ io.ptrSize) 0
  | .rem h => .handle (h % 2 ^ 32)
  | .fd n => .fd (n % 2 ^ 32)
  | .fda n par => .fda n par.index par.offset
  | .buf d s par => .buffer (d % 256 ^ io.ptrSize) s (par.map fun p => (p.index, p.offset))

/-- From `last`/`min` the climb gets to `target` with the minimum `m`. -/
inductive Reaches (objs : List KObj) (target m : Nat) : Nat → Nat → Prop
  | here : Reaches objs target m target m
  | step {last min a l p off} (h : objs[last]? = some (.buffer a l (some (p, off)))) (hp : p < last) :
      Reaches objs target m p (off + 8) → Reaches objs target m last min

namespace Reaches
variable {objs : List KObj} {target m last min : Nat}

theorem le (h : Reaches objs target m last min) : target ≤ last := by
  induction h with
  | here => exact Nat.le_refl _
  | step _ hp _ ih => omega

theorem climb (h : Reaches objs target m last min) :
    ∀ fuel, last < fuel → climb objs target fuel last min = some m := by
  induction h with
  | here =>
    intro fuel hf
    cases fuel with
    | zero => omega
    | succ n => simp [Kernel.climb]
  | @step last min a l p off ho hp h' ih =>
    intro fuel hf
    have := h'.le
    cases fuel with
    | zero => omega
    | succ n =>
      rw [Kernel.climb, if_neg (by omega), ho]
      exact ih n (by omega)

theorem mono (h : Reaches objs target m last min) (more : List KObj) :
    Reaches (objs ++ more) target m last min := by
  induction h with
  | here => exact .here
  | @step last min a l p off ho hp h' ih =>
    refine .step (a := a) (l := l) (off := off) ?_ hp ih
    have hl : last < objs.length := by
      rcases Nat.lt_or_ge last objs.length with h | h
      · exact h
      · rw [List.getElem?_eq_none h] at ho; cases ho
    rw [List.getElem?_append_left hl, ho]

theorem up {a l q off : Nat} (h : Reaches objs target m last min)
    (ho : objs[target]? = some (.buffer a l (some (q, off)))) (hq : q < target) :
    Reaches objs q (off + 8) last min := by
  induction h with
  | here => exact .step ho hq .here
  | step ho' hp _ ih => exact .step ho' hp ih

end Reaches

theorem parentLen_lt {done : List KObj} {i len : Nat} (h : parentLen done i = some len) :
    i < done.length := by
  unfold parentLen at h
  rcases Nat.lt_or_ge i done.length with h1 | h1
  · exact h1
  · rw [List.getElem?_eq_none h1] at h; cases h

theorem parentLen_mono {done : List KObj} {i len : Nat} (h : parentLen done i = some len)
    (more : List KObj) : parentLen (done ++ more) i = some len := by
  have := parentLen_lt h
  unfold parentLen at *
  rw [List.getElem?_append_left this]; exact h

theorem parentLen_snoc (done : List KObj) (a n : Nat) (par : Option (Nat × Nat)) (more : List KObj) :
    parentLen (done ++ (KObj.buffer a n par :: more)) done.length = some n := by
  simp [parentLen]

theorem fixups_append (done : List KObj) (last min : Nat) (xs ys : List KObj) :
    fixups done last min (xs ++ ys) =
      match fixups done last min xs with
      | some (l, m) => fixups (done ++ xs) l m ys
      | none => none := by
  induction xs generalizing done last min with
  | nil => simp [fixups]
  | cons x xs ih =>
    simp only [List.cons_append, fixups]
    cases stepFixup done last min x with
    | none => rfl
    | some r => simp only [ih, List.append_assoc, List.singleton_append]

/-- A buffer object with a parent. -/
theorem step_child {done : List KObj} {last min p off m len : Nat} (a n : Nat)
    (hlen : parentLen done p = some len) (hr : Reaches done p m last min) (hm : m ≤ off)
    (hoff : off + 8 ≤ len) :
    stepFixup done last min (.buffer a n (some (p, off))) = some (done.length, 0) := by
  simp only [stepFixup, hlen, hr.climb (last + 1) (by omega), Option.any_some]
  rw [if_pos (by simpa using hm), if_pos hoff]

/-- Buffer objects: only the parent matters. -/
theorem step_buffer {done : List KObj} {last min : Nat} {a n a' n' : Nat} {par : Option (Nat × Nat)} :
    stepFixup done last min (.buffer a n par) = stepFixup done last min (.buffer a' n' par) := by
  cases par <;> rfl

theorem step_buffer_eq {done : List KObj} {last min : Nat} {a n : Nat} {par : Option (Nat × Nat)}
    {r : Nat × Nat} (h : stepFixup done last min (.buffer a n par) = some r) : r = (done.length, 0) := by
  cases par with
  | none => simp only [stepFixup, Option.some.injEq] at h; exact h.symm
  | some q =>
    obtain ⟨p, off⟩ := q
    simp only [stepFixup] at h
    split at h
    · split at h
      · split at h
        · simp only [Option.some.injEq] at h; exact h.symm
        · cases h
      · cases h
    · cases h

/-- Index of the parent. -/
def Obj.parentIdx : Obj → Option Nat
  | .buf _ _ (some p) => some p.index
  | .fda _ p => some p.index
  | _ => none

/-- All parents are at `n` or later, before `t`. -/
def Inner (n t : Nat) (new : List Obj) : Prop :=
  ∀ x ∈ new, ∀ i, x.parentIdx = some i → n ≤ i ∧ i < t

/-- All parents are at `n` or later, before `t`, or at `j`. -/
def InnerOr (n t j : Nat) (new : List Obj) : Prop :=
  ∀ x ∈ new, ∀ i, x.parentIdx = some i → i = j ∨ (n ≤ i ∧ i < t)

theorem Inner.nil (n t : Nat) : Inner n t [] := by intro x hx; cases hx

theorem Inner.cons {n t : Nat} {x : Obj} {l : List Obj}
    (h1 : ∀ i, x.parentIdx = some i → n ≤ i ∧ i < t)
    (h2 : Inner n t l) : Inner n t (x :: l) := by
  intro y hy
  rcases List.mem_cons.mp hy with rfl | hy
  · exact h1
  · exact h2 y hy

theorem Inner.append {n n' t t' : Nat} {a b : List Obj} (ha : Inner n t a) (hb : Inner n' t' b)
    (h1 : n ≤ n') (h2 : t ≤ t') : Inner n t' (a ++ b) := by
  intro y hy i hi
  rcases List.mem_append.mp hy with hy | hy
  · have := ha y hy i hi; omega
  · have := hb y hy i hi; omega

theorem InnerOr.append {n n' t t' j : Nat} {a b : List Obj} (ha : InnerOr n t j a)
    (hb : InnerOr n' t' j b) (hn : n ≤ n') (ht : t ≤ t') : InnerOr n t' j (a ++ b) := by
  intro y hy i hi
  rcases List.mem_append.mp hy with hy | hy
  · have := ha y hy i hi; omega
  · have := hb y hy i hi; omega

theorem InnerOr.one (n t : Nat) (par : Parent) (off p s : Nat) :
    InnerOr n t par.index [.buf p s (some (par.plus off))] := by
  intro y hy i hi
  rw [List.mem_singleton] at hy
  subst hy
  cases hi
  exact .inl rfl

theorem InnerOr.nil (n t j : Nat) : InnerOr n t j [] := by intro x hx; cases hx

/-- Lengths of the buffers. -/
def LensOk (new : List Obj) : Prop := ∀ d s par, Obj.buf d s par ∈ new → s < 2 ^ 32

theorem LensOk.left {a b : List Obj} (h : LensOk (a ++ b)) : LensOk a :=
  fun d s par hm => h d s par (List.mem_append_left _ hm)
theorem LensOk.right {a b : List Obj} (h : LensOk (a ++ b)) : LensOk b :=
  fun d s par hm => h d s par (List.mem_append_right _ hm)

/-- What a list of fields does. -/
def FieldsFix (io : Io) (n : Nat) (par : Parent) (lo hi : Nat) (new : List Obj) : Prop :=
  LensOk new → ∀ done last min m len, done.length = n → parentLen done par.index = some len →
    par.offset + hi ≤ len → len < 2 ^ 32 → Reaches done par.index m last min →
    m ≤ par.offset + lo → lo ≤ hi →
    ∃ l' m' m2, fixups done last min (new.map (Obj.pure io)) = some (l', m') ∧
      Reaches (done ++ new.map (Obj.pure io)) par.index m2 l' m' ∧ m2 ≤ par.offset + hi

theorem FieldsFix.weaken {io : Io} {n : Nat} {par : Parent} {lo hi hi' lo' : Nat} {new : List Obj}
    (h : FieldsFix io n par lo hi new) (hh : hi ≤ hi') (hl : lo' ≤ lo) (hlh : lo ≤ hi) :
    FieldsFix io n par lo' hi' new := by
  intro hlens done last min m len hd hp hoff hlen hr hm _
  obtain ⟨l', m', m2, h1, h2, h3⟩ := h hlens done last min m len hd hp (by omega) hlen hr (by omega) hlh
  exact ⟨l', m', m2, h1, h2, by omega⟩

theorem appendFields_nil (io : Io) (n : Nat) (par : Parent) (hi : Nat) :
    FieldsFix io n par 0 hi [] := by
  intro _ done last min m len hd hp hoff hlen hr hm hle
  exact ⟨last, min, m, rfl, by simpa using hr, by omega⟩

/-- One object with a parent. -/
theorem FieldsFix.one (io : Io) (n : Nat) (par : Parent) (off p s : Nat) :
    FieldsFix io n par off (off + 8) [.buf p s (some (par.plus off))] := by
  intro _ done last min m len hd hp hoff hlen hr hm _
  have ho : (par.plus off).offset = par.offset + off := by
    simp only [Parent.plus]; rw [Nat.mod_eq_of_lt (by omega)]
  have hi : (par.plus off).index = par.index := rfl
  have hst := step_child (p % 256 ^ io.ptrSize) s hp hr hm (by omega)
  have hlt := parentLen_lt hp
  refine ⟨done.length, 0, par.offset + off + 8, ?_, ?_, by omega⟩
  · simp only [List.map_cons, List.map_nil, Obj.pure, Option.map_some, ho, hi, fixups, hst]
  · simp only [List.map_cons, List.map_nil, Obj.pure, Option.map_some, ho, hi]
    exact .step (a := p % 256 ^ io.ptrSize) (l := s) (by simp) hlt .here

theorem FieldsFix.append {io : Io} {n : Nat} {par : Parent} {lo mid hi : Nat} {a b : List Obj}
    (ha : FieldsFix io n par lo mid a) (hb : FieldsFix io (n + a.length) par mid hi b)
    (h1 : lo ≤ mid) (h2 : mid ≤ hi) : FieldsFix io n par lo hi (a ++ b) := by
  intro hlens done last min m len hd hp hoff hlen hr hm _
  obtain ⟨l1, m1, x1, f1, r1, b1⟩ := ha hlens.left done last min m len hd hp (by omega) hlen hr hm h1
  obtain ⟨l2, m2, x2, f2, r2, b2⟩ := hb hlens.right (done ++ a.map (Obj.pure io)) l1 m1 x1 len
    (by simp [hd]) (parentLen_mono hp _) hoff hlen r1 b1 h2
  refine ⟨l2, m2, x2, ?_, ?_, b2⟩
  · rw [List.map_append, fixups_append, f1]; exact f2
  · rw [List.map_append, ← List.append_assoc]; exact r2

mutual
theorem appendField_fix {e : Env} {w w' : Writer} {obj : Nat} {par : Parent} :
    (f : WField) → appendField e w obj par f = .ok w' →
      ∃ new, Grows false w w' new ∧ InnerOr w.offsets.length w'.offsets.length par.index new ∧ (wfField f →
        FieldsFix w.io w.offsets.length par f.offset (f.offset + 8) new)
  | .ptr off size _, h => by
    simp only [appendField] at h
    obtain ⟨p, _, h⟩ := bind_ok h
    simp only [appendBufferObject_eq, bind, Except.bind] at h
    cases h
    exact ⟨_, Grows.push false _ _, InnerOr.one _ _ _ _ _ _, fun _ => FieldsFix.one _ _ _ _ _ _⟩
  | .str off, h => by
    simp only [appendField] at h
    obtain ⟨p, _, h⟩ := bind_ok h
    obtain ⟨len, _, h⟩ := bind_ok h
    simp only [appendBufferObject_eq, bind, Except.bind] at h
    cases h
    exact ⟨_, Grows.push false _ _, InnerOr.one _ _ _ _ _ _, fun _ => FieldsFix.one _ _ _ _ _ _⟩
  | .vec off esize fields, h => by
    simp only [appendField] at h
    obtain ⟨p, _, h⟩ := bind_ok h
    obtain ⟨count, hcount, h⟩ := bind_ok h
    have hc := loadU32_lt hcount
    simp only [appendBufferObject_eq, bind] at h
    simp only [Except.bind] at h
    have loop : ∀ (n k idx : Nat) (w1 w' : Writer), List.foldlM (m := Except UB) (fun w i =>
        appendFields e w (p + esize * i % 2 ^ 32)
          { index := idx, offset := esize * i % 2 ^ 32 } fields) w1 (List.range' k n) = .ok w' →
        ∃ new, Grows false w1 w' new ∧ InnerOr w1.offsets.length w'.offsets.length idx new ∧
          (wfFields 0 esize fields → esize * (k + n) < 2 ^ 32 →
          FieldsFix w1.io w1.offsets.length { index := idx, offset := 0 } (esize * k)
            (esize * (k + n)) new) := by
      intro n
      induction n with
      | zero =>
        intro k idx w1 w' h
        cases h
        refine ⟨[], Grows.refl _ w1, InnerOr.nil _ _ _, fun _ _ => ?_⟩
        intro _ done last min m len hd hp hoff hlen hr hm _
        exact ⟨last, min, m, rfl, by simpa using hr, by simpa using hm⟩
      | succ n ih =>
        intro k idx w1 w' h
        rw [List.range'_succ, List.foldlM_cons] at h
        obtain ⟨w2, h2, h⟩ := bind_ok h
        obtain ⟨n1, g1, i1, f1⟩ := appendFields_fix fields h2
        obtain ⟨n2, g2, i2, f2⟩ := ih (k + 1) idx w2 w' h
        have hcnt := g1.count
        have hcnt2 := g2.count
        refine ⟨_, g1.trans g2, i1.append i2 (by omega) (by omega), ?_⟩
        intro hfs hsmall
        have f1 := f1 0 esize hfs (Nat.zero_le _)
        have e1 : esize * (k + (n + 1)) = esize * (k + 1) + esize * n := by
          rw [← Nat.mul_add]; congr 1; omega
        have e2 : esize * (k + 1) = esize * k + esize := by rw [Nat.mul_add, Nat.mul_one]
        have e3 : esize * (k + 1 + n) = esize * (k + (n + 1)) := by congr 1; omega
        have f2' := f2 hfs (by omega)
        rw [Nat.mod_eq_of_lt (by omega)] at f1
        have f1' : FieldsFix w1.io w1.offsets.length { index := idx, offset := 0 } (esize * k)
            (esize * (k + 1)) n1 := by
          intro hlens done last min m len hd hp hoff hlen hr hm hle
          obtain ⟨a, b, c, d, e, f⟩ := f1 hlens done last min m len hd hp (by simp only [] at *; omega) hlen hr (by simp only [] at *; omega) (by omega)
          exact ⟨a, b, c, d, e, by simp only [] at *; omega⟩
        rw [g1.io, g1.count] at f2'
        refine FieldsFix.append f1' (e3 ▸ f2') (by omega) (by omega)
    rw [List.range_eq_range'] at h
    obtain ⟨n, g, hin, f⟩ := loop _ _ _ _ _ h
    have hpc : (w.push (.buf p (count * esize % 2 ^ 64) (some (par.plus off)))).offsets.length =
        w.offsets.length + 1 := by simp [Writer.push]
    refine ⟨_, (Grows.push false w _).trans g, ?_, ?_⟩
    · have hcnt := g.count
      refine InnerOr.append (n' := w.offsets.length) (t := w'.offsets.length)
        (InnerOr.one _ _ _ _ _ _) ?_ (Nat.le_refl _) (Nat.le_refl _)
      intro x hx i hi
      rcases hin x hx i hi with h | h
      · exact .inr (by omega)
      · exact .inr (by omega)
    intro hwf
    simp only [wfField] at hwf
    obtain ⟨hes, hfs⟩ := hwf
    have hprod : count * esize < 2 ^ 64 := by
      have := Nat.mul_lt_mul'' hc hes
      omega
    have hbuf : count * esize % 2 ^ 64 = count * esize := Nat.mod_eq_of_lt hprod
    rw [hbuf] at f g ⊢
    simp only [WField.offset]
    intro hlens done last min m len hd hp hoff hlen hr hm hle
    have hs : count * esize < 2 ^ 32 := hlens p (count * esize) (some (par.plus off)) (by simp)
    obtain ⟨l1, m1, x1, f1, r1, b1⟩ := FieldsFix.one w.io _ par off p (count * esize)
      hlens.left done last min m len hd hp hoff hlen hr hm hle
    have f' := f hfs (by rw [Nat.zero_add, Nat.mul_comm]; exact hs)
    have hst : fixups done last min ([Obj.buf p (count * esize) (some (par.plus off))].map
        (Obj.pure w.io)) = some (done.length, 0) := by
      have h1 := f1
      simp only [List.map_cons, List.map_nil, fixups] at h1 ⊢
      cases hx : stepFixup done last min (Obj.pure w.io (.buf p (count * esize) (some (par.plus off)))) with
      | none => rw [hx] at h1; cases h1
      | some r =>
        obtain ⟨ra, rb⟩ := r
        simp only []
        have := step_buffer_eq hx
        rw [this]
    rw [hst] at f1
    cases f1
    have hio : (w.push (.buf p (count * esize) (some (par.plus off)))).io = w.io := rfl
    have hcnt : (w.push (.buf p (count * esize) (some (par.plus off)))).offsets.length =
        w.offsets.length + 1 := by simp [Writer.push]
    rw [hio, hcnt] at f'
    have hdone : done.length = w.offsets.length := hd
    obtain ⟨l2, m2, x2, f2, r2, b2⟩ := f' hlens.right
      (done ++ [Obj.buf p (count * esize) (some (par.plus off))].map (Obj.pure w.io)) done.length 0 0
      (count * esize) (by simp [hd]) (by
        rw [← hdone]
        simpa [Obj.pure] using parentLen_snoc done (p % 256 ^ w.io.ptrSize) (count * esize) _ []) (by
          simp only []; rw [Nat.zero_add, Nat.zero_add, Nat.mul_comm]; exact Nat.le_refl _) hs
      (by simp only []; rw [← hdone]; exact .here) (by simp) (by simp)
    refine ⟨l2, m2, par.offset + off + 8, ?_, ?_, by omega⟩
    · rw [List.map_append, fixups_append, hst]; exact f2
    · rw [List.map_append, ← List.append_assoc]
      have ho : (par.plus off).offset = par.offset + off := by
        simp only [Parent.plus]; rw [Nat.mod_eq_of_lt (by omega)]
      refine Reaches.up r2 (a := p % 256 ^ w.io.ptrSize) (l := count * esize) ?_ ?_
      · simp only []
        rw [← hdone, List.append_assoc, List.getElem?_append_right (Nat.le_refl _), Nat.sub_self]
        simp only [List.map_cons, List.map_nil, Obj.pure, Option.map_some, ho, List.cons_append,
          List.getElem?_cons_zero, List.nil_append]
        rfl
      · simp only []; rw [← hdone]; exact parentLen_lt hp
  | .vecNoType off, h => by
    simp only [appendField] at h
    obtain ⟨p, _, h⟩ := bind_ok h
    simp only [appendBufferObject_eq, bind, Except.bind] at h
    cases h
    exact ⟨_, Grows.push false _ _, InnerOr.one _ _ _ _ _ _, fun _ => FieldsFix.one _ _ _ _ _ _⟩

theorem appendFields_fix {e : Env} {w w' : Writer} {obj : Nat} {par : Parent} :
    (fs : List WField) → appendFields e w obj par fs = .ok w' →
      ∃ new, Grows false w w' new ∧ InnerOr w.offsets.length w'.offsets.length par.index new ∧
        ∀ lo size, wfFields lo size fs → lo ≤ size →
          FieldsFix w.io w.offsets.length par lo size new
  | [], h => by
    simp only [appendFields] at h
    cases h
    refine ⟨[], Grows.refl _ w, InnerOr.nil _ _ _, ?_⟩
    intro lo size _ _ _ done last min m len hd hp hoff hlen hr hm hle
    exact ⟨last, min, m, rfl, by simpa using hr, by omega⟩
  | f :: fs, h => by
    simp only [appendFields] at h
    obtain ⟨w1, hw1, h⟩ := bind_ok h
    obtain ⟨n1, g1, i1, f1⟩ := appendField_fix f hw1
    obtain ⟨n2, g2, i2, f2⟩ := appendFields_fix fs h
    have hcnt := g1.count
    have hcnt2 := g2.count
    refine ⟨_, g1.trans g2, i1.append i2 (by omega) (by omega), ?_⟩
    intro lo size hwf _
    simp only [wfFields] at hwf
    obtain ⟨h1, h2, h3, h4⟩ := hwf
    have f2 := f2 (f.offset + 8) size h4 h2
    have f1 := f1 h3
    rw [g1.io, g1.count] at f2
    exact FieldsFix.append (f1.weaken (Nat.le_refl _) h1 (by omega)) f2 (by omega) h2
end

/-- The objects added by one operation are acceptable after any objects, provided that the first
one is (if its parent was given by the caller). -/
def OpFix (io : Io) (n : Nat) (par : Option Parent) (new : List Obj) : Prop :=
  LensOk new → ∀ done last min, done.length = n →
    (∀ p, par = some p →
      ∃ r, stepFixup done last min (.buffer 0 0 (some (p.index, p.offset))) = some r) →
    ∃ r, fixups done last min (new.map (Obj.pure io)) = some r

theorem OpFix.nil (io : Io) (n : Nat) (par : Option Parent) : OpFix io n par [] :=
  fun _ _ last min _ _ => ⟨(last, min), rfl⟩

theorem OpFix.flat (io : Io) (n : Nat) (par : Option Parent) (x : Obj)
    (h : ∀ done last min, stepFixup done last min (x.pure io) = some (last, min)) :
    OpFix io n par [x] := by
  intro _ done last min _ _
  exact ⟨(last, min), by simp only [List.map_cons, List.map_nil, fixups, h]⟩

theorem first_ok {io : Io} {done : List KObj} {last min a s : Nat} {par : Option Parent}
    (h : ∀ p, par = some p →
      ∃ r, stepFixup done last min (.buffer 0 0 (some (p.index, p.offset))) = some r) :
    stepFixup done last min ((Obj.buf a s par).pure io) = some (done.length, 0) := by
  cases par with
  | none => rfl
  | some p =>
    obtain ⟨r, hr⟩ := h p rfl
    have := step_buffer_eq hr
    subst this
    simp only [Obj.pure, Option.map_some]
    rw [step_buffer (a' := 0) (n' := 0)]; exact hr

/-- A structure and its fields. -/
theorem OpFix.struct {io : Io} {n : Nat} {par : Option Parent} {p s : Nat} {new : List Obj}
    (hs : s < 2 ^ 32 → FieldsFix io (n + 1) { index := n, offset := 0 } 0 s new) :
    OpFix io n par (.buf p s par :: new) := by
  intro hlens done last min hd hpar
  have hs' : s < 2 ^ 32 := hlens p s par List.mem_cons_self
  have h1 := first_ok (io := io) (a := p) (s := s) hpar
  obtain ⟨l', m', _, hf, _⟩ := hs hs' (fun d s' par' hm => hlens d s' par' (List.mem_cons_of_mem _ hm))
    (done ++ [Obj.pure io (.buf p s par)]) done.length 0 0 s (by simp [hd])
    (by simp only []; rw [← hd]; exact parentLen_snoc done _ _ _ []) (by simp) hs'
    (by simp only []; rw [← hd]; exact .here) (by simp) (Nat.zero_le _)
  exact ⟨(l', m'), by simp only [List.map_cons, fixups, h1]; exact hf⟩

/-- A 16-byte (or larger) descriptor and the buffer it points to. -/
theorem OpFix.two (io : Io) (n a b s t : Nat) (hs : 8 ≤ s) :
    OpFix io n none [.buf a s none, .buf b t (some { index := n, offset := 0 })] := by
  refine OpFix.struct (par := none) (new := [.buf b t (some { index := n, offset := 0 })]) (fun hs' => ?_)
  exact (FieldsFix.one io (n + 1) { index := n, offset := 0 } 0 b t).weaken (by omega) (Nat.le_refl _)
    (Nat.zero_le _)

theorem length_stringObjs (idx : Nat) (ds : List (Nat × Nat)) :
    ∀ off, (stringObjs idx off ds).length = ds.length := by
  induction ds with
  | nil => intro _; rfl
  | cons d ds ih => intro off; simp only [stringObjs, List.length_cons, ih]

theorem stringObjs_fix (io : Io) (idx : Nat) (ds : List (Nat × Nat)) :
    ∀ (n k : Nat), 16 * (k + ds.length) < 2 ^ 32 →
      FieldsFix io n { index := idx, offset := 0 } (16 * k) (16 * (k + ds.length))
        (stringObjs idx (16 * k) ds) := by
  induction ds with
  | nil =>
    intro n k _
    intro _ done last min m len hd hp hoff hlen hr hm hle
    exact ⟨last, min, m, rfl, by simpa [stringObjs] using hr, by simpa using hm⟩
  | cons d ds ih =>
    intro n k hk
    obtain ⟨p, len⟩ := d
    simp only [List.length_cons] at hk ⊢
    have e1 : (16 * k + 16) % 2 ^ 32 = 16 * (k + 1) := by rw [Nat.mod_eq_of_lt (by omega)]; omega
    have e2 : k + (ds.length + 1) = k + 1 + ds.length := by omega
    simp only [stringObjs, e1, e2]
    have one := FieldsFix.one io n { index := idx, offset := 0 } (16 * k) p
      (if p ≠ 0 then (len + 1) % 2 ^ 32 else 0)
    have hpl : ({ index := idx, offset := 0 } : Parent).plus (16 * k) =
        { index := idx, offset := 16 * k } := by
      simp only [Parent.plus, Nat.zero_add]; rw [Nat.mod_eq_of_lt (by omega)]
    rw [hpl] at one
    exact FieldsFix.append (a := [_]) (one.weaken (hi' := 16 * (k + 1)) (by omega) (Nat.le_refl _) (by omega))
      (ih (n + 1) (k + 1) (by omega)) (by omega) (by omega)

/-- Descriptors of the strings, then the strings. -/
theorem OpFix.strings (io : Io) (n vec p : Nat) (ds : List (Nat × Nat)) :
    OpFix io n none ([.buf vec 16 none, .buf p (16 * ds.length) (some { index := n, offset := 0 })] ++
      stringObjs (n + 1) 0 ds) := by
  intro hlens done last min hd _
  have hl : 16 * ds.length < 2 ^ 32 := hlens.left p _ (some { index := n, offset := 0 }) (by simp)
  have hin := stringObjs_fix io (n + 1) ds (n + 2) 0 (by omega)
  simp only [Nat.mul_zero, Nat.zero_add] at hin
  obtain ⟨⟨l, m⟩, h1⟩ := OpFix.two io n vec p 16 (16 * ds.length) (by omega) hlens.left done last min hd
    (by intro p hp; cases hp)
  have h2 : (l, m) = (n + 1, 0) := by
    simp only [List.map_cons, List.map_nil, fixups] at h1
    split at h1
    · split at h1
      · rename_i hx
        have := step_buffer_eq hx
        cases this
        cases h1
        simp [hd]
      · cases h1
    · cases h1
  cases h2
  obtain ⟨l', m', _, hf, _⟩ := hin hlens.right
    (done ++ ([Obj.buf vec 16 none, .buf p (16 * ds.length) (some { index := n, offset := 0 })]).map
      (Obj.pure io)) (n + 1) 0 0 (16 * ds.length) (by simp [hd])
    (by
      have := parentLen_snoc (done ++ [Obj.pure io (.buf vec 16 none)]) (p % 256 ^ io.ptrSize)
        (16 * ds.length) (some (n, 0)) []
      simp only [List.length_append, List.length_cons, List.length_nil, hd, List.append_assoc,
        List.cons_append, List.nil_append] at this
      simpa [Obj.pure] using this) (by simp) hl .here (by simp) (Nat.zero_le _)
  refine ⟨(l', m'), ?_⟩
  rw [List.map_append, fixups_append, h1]
  exact hf

/-- An array of descriptors in the buffer which precedes it. -/
theorem step_fda {done : List KObj} {n len : Nat} {a nf off : Nat} {par : Option (Nat × Nat)}
    (hd : done.length = n) (hoff : off + 4 * nf ≤ len) :
    stepFixup (done ++ [.buffer a len par]) n 0 (.fda nf n off) = some (n, off + 4 * nf) := by
  have hp : parentLen (done ++ [.buffer a len par]) n = some len := by
    rw [← hd]; exact parentLen_snoc done a len par []
  have hc : climb (done ++ [.buffer a len par]) n (n + 1) n 0 = some 0 :=
    Reaches.here.climb (n + 1) (by omega)
  simp only [stepFixup, hp, hc, Option.any_some]
  rw [if_pos (by simp), if_pos hoff]

theorem OpFix.fds (io : Io) (n a nf ni : Nat) (par : Option Parent) (h : nf + ni < 2 ^ 32) :
    OpFix io n par [.buf a (12 + 4 * ((nf + ni) % 2 ^ 32)) par, .fda nf { index := n, offset := 12 }] := by
  intro _ done last min hd hpar
  have h1 := first_ok (io := io) (a := a) (s := 12 + 4 * ((nf + ni) % 2 ^ 32)) hpar
  have h2 := step_fda (a := a % 256 ^ io.ptrSize) (len := 12 + 4 * ((nf + ni) % 2 ^ 32)) (off := 12)
    (nf := nf) (par := par.map fun p => (p.index, p.offset)) hd
    (by rw [Nat.mod_eq_of_lt h]; omega)
  refine ⟨(n, 12 + 4 * nf), ?_⟩
  simp only [List.map_cons, List.map_nil, fixups, h1]
  rw [hd]
  simp only [Obj.pure]
  rw [h2]

theorem OpFix.fmq (io : Io) (n mq vb vt fa nf ni : Nat) (h : nf + ni < 2 ^ 32) :
    OpFix io n none [.buf mq 32 none,
      .buf vb vt (some { index := n, offset := 0 }),
      .buf fa (12 + 4 * ((nf + ni) % 2 ^ 32)) (some { index := n, offset := 16 }),
      .fda nf { index := n + 2, offset := 12 }] := by
  intro hlens done last min hd _
  have f1 := FieldsFix.one io (n + 1) { index := n, offset := 0 } 0 vb vt
  have f2 := FieldsFix.one io (n + 1 + 1) { index := n, offset := 0 } 16 fa
    (12 + 4 * ((nf + ni) % 2 ^ 32))
  have f12 := FieldsFix.append (a := [_]) (f1.weaken (hi' := 16) (by omega) (Nat.le_refl _) (Nat.zero_le _)) f2
    (Nat.zero_le _) (by omega)
  have hp1 : ({ index := n, offset := 0 } : Parent).plus 0 = { index := n, offset := 0 } := rfl
  have hp2 : ({ index := n, offset := 0 } : Parent).plus 16 = { index := n, offset := 16 } := rfl
  simp only [hp1, hp2, List.cons_append, List.nil_append] at f12
  have hst := OpFix.struct (par := none) (p := mq) (s := 32)
    (fun _ => f12.weaken (hi' := 32) (by omega) (Nat.le_refl _) (Nat.zero_le _))
    (fun d s p hm => by
      have hm' := List.mem_append_left [Obj.fda nf ({ index := n + 2, offset := 12 } : Parent)] hm
      exact hlens d s p hm')
    done last min hd (by intro p hp; cases hp)
  obtain ⟨⟨l, m⟩, hr⟩ := hst
  have hlm : (l, m) = (n + 2, 0) := by
    simp only [List.map_cons, List.map_nil, fixups] at hr
    split at hr
    · split at hr
      · split at hr
        · rename_i hx
          have := step_buffer_eq hx
          cases this
          cases hr
          simp [hd]
        · cases hr
      · cases hr
    · cases hr
  cases hlm
  have hsplit : ([Obj.buf mq 32 none, .buf vb vt (some { index := n, offset := 0 }),
      .buf fa (12 + 4 * ((nf + ni) % 2 ^ 32)) (some { index := n, offset := 16 }),
      .fda nf { index := n + 2, offset := 12 }] : List Obj) =
      [Obj.buf mq 32 none, .buf vb vt (some { index := n, offset := 0 }),
      .buf fa (12 + 4 * ((nf + ni) % 2 ^ 32)) (some { index := n, offset := 16 })] ++
      [.fda nf { index := n + 2, offset := 12 }] := rfl
  rw [hsplit, List.map_append, fixups_append, hr]
  simp only [List.map_cons, List.map_nil, fixups]
  have h2 := step_fda (done := done ++ [Obj.pure io (.buf mq 32 none),
      Obj.pure io (.buf vb vt (some { index := n, offset := 0 }))]) (n := n + 2)
    (a := fa % 256 ^ io.ptrSize) (len := 12 + 4 * ((nf + ni) % 2 ^ 32)) (off := 12)
    (nf := nf) (par := some (n, 16)) (by simp [hd])
    (by rw [Nat.mod_eq_of_lt h]; omega)
  simp only [List.append_assoc, List.cons_append, List.nil_append] at h2
  refine ⟨(n + 2, 12 + 4 * nf), ?_⟩
  simp only [Obj.pure, Option.map_some] at h2 ⊢
  rw [h2]

theorem appendStruct_fix {e : Env} {w w' : Writer} {p n : Nat} {fs : List WField}
    {par : Option Parent} (h : appendStruct e w p n fs par = .ok w') :
    ∃ new, Grows false w w' new ∧ (par = none → Inner w.offsets.length w'.offsets.length new) ∧
      (wfFields 0 n fs → OpFix w.io w.offsets.length par new) := by
  simp only [appendStruct, appendBufferObject_eq, bind, Except.bind] at h
  obtain ⟨new, g, hin, f⟩ := appendFields_fix fs h
  have hc : (w.push (.buf p n par)).offsets.length = w.offsets.length + 1 := by simp [Writer.push]
  refine ⟨_, (Grows.push false w _).trans g, ?_, ?_⟩
  · intro hp
    subst hp
    have hcnt := g.count
    refine Inner.append (n' := w.offsets.length) (t := w'.offsets.length)
      (Inner.cons (by intro i hi; cases hi) (Inner.nil _ _)) ?_ (Nat.le_refl _) (Nat.le_refl _)
    intro x hx i hi
    rcases hin x hx i hi with h | h
    · have : i = w.offsets.length := h
      omega
    · omega
  · intro hwf
    have f := f 0 n hwf (Nat.zero_le _)
    rw [hc] at f
    exact OpFix.struct (fun _ => f)

theorem Inner.flat (n t : Nat) (x : Obj) (h : x.parentIdx = none) : Inner n t [x] :=
  Inner.cons (by intro i hi; rw [h] at hi; cases hi) (Inner.nil _ _)

theorem Inner.two (n t a b s c : Nat) (ht : n < t) :
    Inner n t [.buf a s none, .buf b c (some { index := n, offset := 0 })] :=
  Inner.cons (by intro i hi; cases hi)
    (Inner.cons (by intro i hi; cases hi; exact ⟨Nat.le_refl _, ht⟩) (Inner.nil _ _))

theorem Inner.strings (n t idx : Nat) (ds : List (Nat × Nat)) :
    ∀ off, n ≤ idx → idx < t → Inner n t (stringObjs idx off ds) := by
  induction ds with
  | nil => intro _ _ _; exact Inner.nil _ _
  | cons d ds ih =>
    intro off h ht
    obtain ⟨p, l⟩ := d
    exact Inner.cons (by intro i hi; cases hi; exact ⟨h, ht⟩) (ih _ h ht)

/-- Every operation. -/
theorem run_fix {e : Env} {w w' : Writer} {op : WOp} (h : op.run e w = .ok w')
    (ha : op.isAppend = true) :
    ∃ new, Grows false w w' new ∧ (op.parent = none → Inner w.offsets.length w'.offsets.length new) ∧
      (op.Wf w.mem → OpFix w.io w.offsets.length op.parent new) := by
  have raw : ∀ {x : Except UB Bytes} {r : Bytes}, w.withBytes x = .ok w' → x = .ok (w.bytes ++ r) →
      ∃ new, Grows false w w' new ∧ (op.parent = none → Inner w.offsets.length w'.offsets.length new) ∧
        (op.Wf w.mem → OpFix w.io w.offsets.length op.parent new) := by
    intro x r h1 h2
    rw [withBytes_ok h2 h1]
    exact ⟨[], Grows.raw w r (by simp), fun _ => Inner.nil _ _, fun _ => OpFix.nil _ _ _⟩
  cases op with
  | bool v => exact raw h (bufAppendPadded_eq _ _ _ (by simp))
  | int8 v => exact raw h (bufAppendPadded_eq _ _ _ (by simp))
  | int16 v => exact raw h (bufAppendPadded_eq _ _ _ (by simp))
  | int32 v => exact raw h (bufAppendWord_eq _ _ _ _)
  | int64 v => exact raw h (bufAppendWord_eq _ _ _ _)
  | string8 s =>
    cases s with
    | none => cases h; exact ⟨[], Grows.refl _ w, fun _ => Inner.nil _ _, fun _ => OpFix.nil _ _ _⟩
    | some s => exact raw h (bufAppendString8_eq _ _ _)
  | string16 s =>
    simp only [WOp.run, appendString16] at h
    cases s with
    | none => exact raw h (bufAppendWord_eq _ _ _ _)
    | some s =>
      simp only [bufAppendString16] at h
      split at h
      · exact raw h (bufAppendUnits_eq _ _ _)
      · exact raw h (bufAppendString16Empty_eq _ _)
  | utf16 s =>
    simp only [WOp.run, appendUtf16] at h
    cases s with
    | none => exact raw h (bufAppendWord_eq _ _ _ _)
    | some s =>
      simp only [bufAppendUtf16] at h
      split at h
      · exact raw h (bufAppendUnits_eq _ _ _)
      · exact raw h (bufAppendString16Empty_eq _ _)
  | bytes d => exact raw (x := .ok (w.bytes ++ d)) h rfl
  | byteArray d => exact raw h (bufAppendByteArray_eq _ _ _)
  | parcelable d => exact raw h (bufAppendParcelable_eq _ _ _)
  | fd n d =>
    simp only [WOp.run, appendFd_eq] at h
    cases h
    exact ⟨_, (Grows.push false w _).trans (Grows.of_same rfl rfl rfl rfl rfl),
      fun _ => Inner.flat _ _ _ rfl,
      fun _ => OpFix.flat _ _ _ _ (fun _ _ _ => rfl)⟩
  | fds a par =>
    simp only [WOp.run] at h
    split at h
    · exact raw h (bufAppendWord_eq _ _ _ _)
    · rename_i ha0
      obtain ⟨nf, hnf, h⟩ := bind_ok h
      obtain ⟨ni, hni, h⟩ := bind_ok h
      have hpar : (WOp.fds a par).parent = par := by simp [WOp.parent, ha0]
      refine ⟨_, (appendFds_grows h).1, ?_, ?_⟩
      · rw [hpar]
        intro hp
        subst hp
        have hcnt := (appendFds_grows (al := true) h).1.count
        exact Inner.cons (by intro i hi; cases hi)
          (Inner.cons (by intro i hi; cases hi; simp only [List.length_cons] at *; omega) (Inner.nil _ _))
      · rw [hpar]
        intro hwf
        exact OpFix.fds _ _ _ _ _ _ (hwf nf ni hnf hni)
  | bufferObject b n par =>
    simp only [WOp.run, appendBufferObject_eq, Except.map] at h
    cases h
    refine ⟨_, Grows.push false w _, ?_, fun _ => OpFix.struct (new := []) (fun _ => appendFields_nil _ _ _ _)⟩
    intro hp
    rw [show par = none from hp]
    exact Inner.flat _ _ _ rfl
  | localObject o =>
    simp only [WOp.run, appendLocalObject_eq] at h
    cases h
    cases o with
    | none => exact ⟨_, Grows.raw w _ (by simp), fun _ => Inner.nil _ _, fun _ => OpFix.nil _ _ _⟩
    | some o => exact ⟨_, Grows.push false w _, fun _ => Inner.flat _ _ _ rfl,
      fun _ => OpFix.flat _ _ _ _ (fun _ _ _ => rfl)⟩
  | remoteObject o =>
    simp only [WOp.run, appendRemoteObject_eq] at h
    cases h
    cases o with
    | none => exact ⟨_, Grows.raw w _ (by simp), fun _ => Inner.nil _ _, fun _ => OpFix.nil _ _ _⟩
    | some o => exact ⟨_, Grows.push false w _, fun _ => Inner.flat _ _ _ rfl,
      fun _ => OpFix.flat _ _ _ _ (fun _ _ _ => rfl)⟩
  | hidlVec b c s =>
    obtain ⟨_, _, g⟩ := appendHidlVec_grows (al := false) h
    have hcnt : w'.offsets.length = w.offsets.length + 2 := g.count
    exact ⟨_, g, fun _ => Inner.two _ _ _ _ _ _ (by omega), fun _ => OpFix.two _ _ _ _ _ _ (by omega)⟩
  | hidlString s =>
    obtain ⟨_, _, g⟩ := appendHidlString_grows (al := false) h
    have hcnt : w'.offsets.length = w.offsets.length + 2 := g.count
    exact ⟨_, g, fun _ => Inner.two _ _ _ _ _ _ (by omega), fun _ => OpFix.two _ _ _ _ _ _ (by omega)⟩
  | hidlStringCopy s em =>
    obtain ⟨_, _, _, g⟩ := appendHidlStringCopy_grows (al := false) h
    have hcnt : w'.offsets.length = w.offsets.length + 2 := g.count
    exact ⟨_, g, fun _ => Inner.two _ _ _ _ _ _ (by omega), fun _ => OpFix.two _ _ _ _ _ _ (by omega)⟩
  | hidlStringVec v =>
    obtain ⟨_, g | ⟨_, ds, hd, _, g⟩⟩ := appendHidlStringVec_grows (al := false) h
    · have hcnt : w'.offsets.length = w.offsets.length + 2 := g.count
      exact ⟨_, g, fun _ => Inner.two _ _ _ _ _ _ (by omega), fun _ => OpFix.two _ _ _ _ _ _ (by omega)⟩
    · rw [← hd] at g
      have hcnt := g.count
      simp only [List.length_append, List.length_cons, List.length_nil] at hcnt
      exact ⟨_, g, fun _ => (Inner.two _ w'.offsets.length _ _ _ _ (by omega)).append
          (Inner.strings w.offsets.length _ _ _ _ (by omega) (by omega)) (Nat.le_refl _) (Nat.le_refl _),
        fun _ => OpFix.strings _ _ _ _ _⟩
  | struct p t par =>
    cases t with
    | none =>
      simp only [WOp.run, appendBufferObject_eq, Except.map] at h
      cases h
      refine ⟨_, Grows.push false w _, ?_, fun _ => OpFix.struct (new := []) (fun _ => appendFields_nil _ _ _ _)⟩
      intro hp
      rw [show par = none from hp]
      exact Inner.flat _ _ _ rfl
    | some t => exact appendStruct_fix h
  | structVec p c t =>
    cases t with
    | none =>
      simp only [WOp.run] at h
      obtain ⟨new, g, hi, f⟩ := appendStruct_fix h
      exact ⟨new, ((Grows.block e w _).trans (Grows.cleanup _ _)).trans g, fun _ => hi rfl,
        fun _ => f (by simp [wfFields, wfField, WField.offset])⟩
    | some t =>
      obtain ⟨new, g, hi, f⟩ := appendStruct_fix h
      refine ⟨new, ((Grows.block e w _).trans (Grows.cleanup _ _)).trans g, fun _ => hi rfl,
        fun hwf => f ?_⟩
      simp only [wfFields, wfField, WField.offset]
      exact ⟨by omega, by omega, hwf, trivial⟩
  | fmqDescriptor d =>
    obtain ⟨_, _, _, _, nf, ni, g, hs⟩ := appendFmqDescriptor_grows (al := false) h
    refine ⟨_, g, fun _ => ?_, fun hwf => OpFix.fmq _ _ _ _ _ _ _ _ (hs hwf)⟩
    have hcnt := g.count
    simp only [List.length_cons, List.length_nil] at hcnt
    exact Inner.cons (by intro i hi; cases hi) (Inner.cons (by intro i hi; cases hi; simp only []; omega)
      (Inner.cons (by intro i hi; cases hi; simp only []; omega)
      (Inner.cons (by intro i hi; cases hi; simp only []; omega) (Inner.nil _ _))))
  | malloc d =>
    simp only [WOp.run, malloc] at h
    cases h
    refine ⟨[], ?_, fun _ => Inner.nil _ _, fun _ => OpFix.nil _ _ _⟩
    split <;> exact Grows.of_same rfl rfl rfl rfl rfl
  | memdup b n =>
    simp only [WOp.run, dupMemory] at h
    obtain ⟨x, hx, rfl⟩ := map_ok h
    refine ⟨[], ?_, fun _ => Inner.nil _ _, fun _ => OpFix.nil _ _ _⟩
    split at hx
    · cases hx; exact Grows.refl _ w
    · split at hx
      · cases hx
        simp only [malloc]
        split <;> exact Grows.of_same rfl rfl rfl rfl rfl
      · cases hx
  | addCleanup f p =>
    simp only [WOp.run] at h
    cases h
    exact ⟨[], Grows.ite (Grows.refl _ w) (Grows.cleanup _ _), fun _ => Inner.nil _ _, fun _ => OpFix.nil _ _ _⟩
  | memory m => cases h; exact ⟨[], Grows.of_same rfl rfl rfl rfl rfl, fun _ => Inner.nil _ _, fun _ => OpFix.nil _ _ _⟩
  | overwriteInt32 off v => cases ha

/-! ### What success means -/

/-- Object `i`, if it has a parent, refers to an earlier buffer object and to a place inside of
its buffer. -/
def ChildOk (objs : List KObj) (i : Nat) : KObj → Prop
  | .buffer _ _ (some (p, off)) => p < i ∧ ∃ len, parentLen objs p = some len ∧ off + 8 ≤ len
  | .fda n p off => p < i ∧ ∃ len, parentLen objs p = some len ∧ off + 4 * n ≤ len
  | _ => True

theorem step_childOk {done : List KObj} {last min : Nat} {x : KObj} {r : Nat × Nat}
    (h : stepFixup done last min x = some r) : ChildOk done done.length x := by
  cases x with
  | buffer a n par =>
    cases par with
    | none => trivial
    | some q =>
      obtain ⟨p, off⟩ := q
      simp only [stepFixup] at h
      split at h
      · rename_i len hl
        split at h
        · split at h
          · exact ⟨parentLen_lt hl, len, hl, by assumption⟩
          · cases h
        · cases h
      · cases h
  | fda n p off =>
    simp only [stepFixup] at h
    split at h
    · rename_i len hl
      split at h
      · split at h
        · exact ⟨parentLen_lt hl, len, hl, by assumption⟩
        · cases h
      · cases h
    · cases h
  | _ => trivial

theorem ChildOk.mono {objs : List KObj} {i : Nat} {x : KObj} (h : ChildOk objs i x) (more : List KObj) :
    ChildOk (objs ++ more) i x := by
  cases x with
  | buffer a n par =>
    cases par with
    | none => trivial
    | some q => obtain ⟨h1, len, h2, h3⟩ := h; exact ⟨h1, len, parentLen_mono h2 more, h3⟩
  | fda n p off => obtain ⟨h1, len, h2, h3⟩ := h; exact ⟨h1, len, parentLen_mono h2 more, h3⟩
  | _ => trivial

theorem fixups_childOk {xs : List KObj} : ∀ {done : List KObj} {last min : Nat} {r : Nat × Nat},
    fixups done last min xs = some r → ∀ i x, xs[i]? = some x →
      ChildOk (done ++ xs) (done.length + i) x := by
  induction xs with
  | nil => intro done last min r _ i x hx; simp at hx
  | cons y ys ih =>
    intro done last min r h i x hx
    simp only [fixups] at h
    cases hs : stepFixup done last min y with
    | none => rw [hs] at h; cases h
    | some q =>
      obtain ⟨l, m⟩ := q
      rw [hs] at h
      cases i with
      | zero =>
        simp only [List.getElem?_cons_zero, Option.some.injEq] at hx
        subst hx
        exact (step_childOk hs).mono _
      | succ i =>
        rw [List.getElem?_cons_succ] at hx
        have := ih h i x hx
        simp only [List.length_append, List.length_cons, List.length_nil, List.append_assoc,
          List.cons_append, List.nil_append] at this
        rw [show done.length + (i + 1) = done.length + (0 + 1) + i from by omega]
        exact this

theorem two32_le (io : Io) : 2 ^ 32 ≤ 256 ^ io.ptrSize := by cases io <;> decide

theorem parentLen_pure {io : Io} {s : List Obj} {p len : Nat}
    (h : parentLen (s.map (Obj.pure io)) p = some len) : ∃ d par, Obj.buf d len par ∈ s := by
  unfold parentLen at h
  rw [List.getElem?_map] at h
  cases hx : s[p]? with
  | none => rw [hx] at h; cases h
  | some x =>
    rw [hx] at h
    cases x with
    | buf d n par =>
      simp only [Option.map_some, Obj.pure, Option.some.injEq] at h
      subst h
      exact ⟨d, par, List.mem_of_getElem? hx⟩
    | _ => simp [Obj.pure] at h

/-- The truncations don't matter. -/
theorem kernel_eq_pure {io : Io} {s : List Obj} {r : Nat × Nat}
    (h : fixups [] 0 0 (s.map (Obj.pure io)) = some r) (hl : LensOk s) (hn : s.length ≤ 2 ^ 32) :
    s.map (Obj.kernel io) = s.map (Obj.pure io) := by
  have h2 := two32_le io
  refine List.map_congr_left ?_
  intro x hx
  obtain ⟨i, hi, hxi⟩ := List.mem_iff_getElem.mp hx
  have hc := fixups_childOk h i (x.pure io) (by
    rw [List.getElem?_map, List.getElem?_eq_getElem hi, hxi]; rfl)
  rw [List.nil_append, List.length_nil, Nat.zero_add] at hc
  cases x with
  | buf d n par =>
    have hn' := hl d n par hx
    cases par with
    | none =>
      simp only [Obj.kernel, Obj.pure, Option.map_none]
      rw [Nat.mod_eq_of_lt (a := n) (by omega)]
    | some q =>
      simp only [Obj.pure, Option.map_some, ChildOk] at hc
      obtain ⟨hp, len, hpl, hoff⟩ := hc
      obtain ⟨d', par', hm⟩ := parentLen_pure hpl
      have := hl _ _ _ hm
      simp only [Obj.kernel, Obj.pure, Option.map_some]
      rw [Nat.mod_eq_of_lt (a := n) (by omega), Nat.mod_eq_of_lt (a := q.index) (by omega),
        Nat.mod_eq_of_lt (a := q.offset) (by omega)]
  | fda n q =>
    simp only [Obj.pure, ChildOk] at hc
    obtain ⟨hp, len, hpl, hoff⟩ := hc
    obtain ⟨d', par', hm⟩ := parentLen_pure hpl
    have := hl _ _ _ hm
    simp only [Obj.kernel, Obj.pure]
    rw [Nat.mod_eq_of_lt (a := n) (by omega), Nat.mod_eq_of_lt (a := q.index) (by omega),
      Nat.mod_eq_of_lt (a := q.offset) (by omega)]
  | _ => rfl

theorem Built.count_le {io : Io} {al : Bool} {b : Bytes} {o : List Nat} {n : Nat} {s : List Obj}
    (h : Built io al b o n s) : s.length ≤ b.length := by
  induction h with
  | nil => simp
  | raw r _ _ ih => simp only [List.length_append]; omega
  | obj x _ ih =>
    have := x.ksize_le io
    have h2 : 0 < x.ksize io := by cases x <;> cases io <;> simp [Obj.ksize] <;> decide
    simp only [List.length_append, List.length_cons, List.length_nil]; omega

theorem mem_le_sum {l : List Nat} {x : Nat} (h : x ∈ l) : x ≤ l.sum := by
  induction l with
  | nil => simp at h
  | cons y ys ih =>
    rw [List.sum_cons]
    rcases List.mem_cons.mp h with rfl | h
    · omega
    · have := ih h; omega

theorem Built.lensOk {io : Io} {al : Bool} {b : Bytes} {o : List Nat} {n : Nat} {s : List Obj}
    (h : Built io al b o n s) (hn : n < 2 ^ 32) : LensOk s := by
  intro d len par hm
  have h1 := h.bufs
  have h2 : align8 len ≤ (s.map Obj.bufSize).sum :=
    mem_le_sum (List.mem_map.mpr ⟨_, hm, rfl⟩)
  have h3 : len ≤ align8 len := by unfold align8; omega
  omega

theorem Grows.mono {al : Bool} {w w' : Writer} {new : List Obj} {s : List Obj} (g : Grows al w w' new)
    (hb : Built w.io al w.bytes w.offsets w.buffersSize s) :
    w.buffersSize ≤ w'.buffersSize ∧ w.bytes.length ≤ w'.bytes.length := by
  constructor
  · have h1 := hb.bufs
    have h2 := (g.built s hb).bufs
    rw [List.map_append, List.sum_append] at h2
    omega
  · obtain ⟨r, hr, _⟩ := g.tail
    rw [hr, List.length_append]; omega

/-- All the operations in sequence. -/
theorem runAll_fix {e : Env} {w' : Writer} {io : Io} (ops : List WOp) :
    ∀ (w : Writer) (s : List Obj) (r : Nat × Nat), w.io = io → WOp.runAll e w ops = .ok w' →
      (∀ op ∈ ops, op.isAppend = true) → WfCalls e w ops →
      w'.bytes.length < 2 ^ 32 → w'.buffersSize < 2 ^ 32 →
      Built io false w.bytes w.offsets w.buffersSize s →
      fixups [] 0 0 (s.map (Obj.pure io)) = some r →
      ∃ s' r', Built io false w'.bytes w'.offsets w'.buffersSize s' ∧
        fixups [] 0 0 (s'.map (Obj.pure io)) = some r' := by
  induction ops with
  | nil => intro w s r _ h _ _ _ _ hb hf; cases h; exact ⟨s, r, hb, hf⟩
  | cons op ops ih =>
    intro w s r hio h ha hwf hlen hbuf hb hf
    obtain ⟨w1, h1, h⟩ := bind_ok h
    obtain ⟨hw1, hw2, hw3⟩ := hwf
    obtain ⟨new, g, _, f⟩ := run_fix h1 (ha op List.mem_cons_self)
    have f := f hw1
    subst hio
    have hb1 := g.built s hb
    obtain ⟨rest, grest⟩ := runAll_grows (al := false) h
      (fun o ho => ha o (List.mem_cons_of_mem _ ho)) (by simp)
    have hm := grest.mono (s := s ++ new) (by rw [g.io]; exact hb1)
    have hm0 := g.mono hb
    have hl1 := hb1.lensOk (by omega)
    have hcount := hb.count_le
    have hol := hb.length_eq
    obtain ⟨r1, hr1⟩ := f hl1.right (s.map (Obj.pure w.io)) r.1 r.2 (by simp [hol]) (by
      intro p hp
      obtain ⟨objs, last, min, hg, hfx, q, hq⟩ := hw2 p hp
      rw [hb.placed.getObjects 0 (Nat.le_refl _)] at hg
      cases hg
      rw [kernel_eq_pure hf hl1.left (by omega)] at hfx hq
      rw [hf] at hfx
      cases hfx
      exact ⟨q, hq⟩)
    refine ih w1 (s ++ new) r1 g.io h (fun o ho => ha o (List.mem_cons_of_mem _ ho)) (hw3 w1 h1) hlen hbuf
      hb1 ?_
    rw [List.map_append, fixups_append, hf]
    rw [List.nil_append]
    exact hr1

end Gb
