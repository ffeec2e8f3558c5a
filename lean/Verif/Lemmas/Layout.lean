import Verif.Lemmas.Writer
import Verif.Model.WriterOps
import Verif.Spec.Kernel
/-
Structure of outgoing parcels: every writer operation appends raw data and whole objects.
-/
set_option autoImplicit false

namespace Gb
open Kernel

/-- Objects as written by the encoders. -/
inductive Obj
  | loc (proto : Protocol) (o : LocalRef)
  | rem (h : Nat)
  | fd (n : Nat)
  | fda (n : Nat) (par : Parent)
  | buf (d s : Nat) (par : Option Parent)
  deriving DecidableEq, Repr

namespace Obj

def bytes (io : Io) : Obj → Bytes
  | loc p o => encodeLocalObject io p (some o)
  | rem h => encodeRemoteObject io (some h)
  | fd n => encodeFdObject io n
  | fda n par => encodeFdaObject io n par
  | buf d s par => encodeBufferObject io d s par

/-- What the kernel makes of it. -/
def kernel (io : Io) : Obj → KObj
  | loc _ o => .binder (o.addr % 256 ^ io.ptrSize) 0
  | rem h => .handle (h % 2 ^ 32)
  | fd n => .fd (n % 2 ^ 32)
  | fda n par => .fda (n % 256 ^ io.ptrSize) (par.index % 256 ^ io.ptrSize)
      (par.offset % 256 ^ io.ptrSize)
  | buf d s par => .buffer (d % 256 ^ io.ptrSize) (s % 256 ^ io.ptrSize)
      (par.map fun p => (p.index % 256 ^ io.ptrSize, p.offset % 256 ^ io.ptrSize))

/-- Size of the kernel structure. -/
def ksize (io : Io) : Obj → Nat
  | fda .. => io.fdaSize
  | buf .. => io.bufferObjSize
  | _ => io.flatSize

def bufSize : Obj → Nat
  | buf _ s _ => align8 s
  | _ => 0

theorem ksize_le (io : Io) (x : Obj) : x.ksize io ≤ (x.bytes io).length := by
  cases x <;> simp [ksize, bytes, length_encodeBufferObject, length_encodeFdObject,
    length_encodeFdaObject, length_encodeLocalObject, length_encodeRemoteObject]

theorem bytes_mod (io : Io) (x : Obj) : (x.bytes io).length % 4 = 0 := by
  have h1 := flatSize_mod io
  have h2 := fdaSize_mod io
  have h3 := bufferObjSize_mod io
  cases x with
  | loc p o =>
    have := extra_mod p
    simp only [bytes, length_encodeLocalObject]; omega
  | _ => simp_all [bytes, length_encodeBufferObject, length_encodeFdObject,
    length_encodeFdaObject, length_encodeRemoteObject]

end Obj

theorem word_eq (io : Io) : word io = io.ptrSize := by cases io <;> rfl

/-- A field in the middle of a concatenation. -/
theorem fieldAt_mid (a m c : Bytes) {off n : Nat} (ho : off = a.length) (hn : n = m.length) :
    fieldAt (a ++ (m ++ c)) off n = leVal m := by
  subst ho hn
  simp [fieldAt]

theorem leVal_append_zeros (b : Bytes) (n : Nat) : leVal (b ++ List.replicate n 0) = leVal b := by
  induction b with
  | nil =>
    induction n with
    | zero => rfl
    | succ n ih =>
      simp only [List.nil_append, List.replicate_succ, leVal] at *
      simp [ih]
  | cons x xs ih => simp [leVal, ih]

theorem val_tBinder : leVal (leBytes 4 typeBinder) = tBinder := by decide
theorem val_tHandle : leVal (leBytes 4 typeHandle) = tHandle := by decide
theorem val_tFd : leVal (leBytes 4 typeFd) = tFd := by decide
theorem val_tFda : leVal (leBytes 4 typeFda) = tFda := by decide
theorem val_tPtr : leVal (leBytes 4 typePtr) = tPtr := by decide

/-- Fields of a buffer object derived from its parent. -/
def pflag : Option Parent → Nat
  | some _ => 1
  | none => 0
def pindex : Option Parent → Nat
  | some p => p.index
  | none => 0
def poffset : Option Parent → Nat
  | some p => p.offset
  | none => 0

theorem encodeBufferObject_eq (io : Io) (d s : Nat) (par : Option Parent) :
    encodeBufferObject io d s par = leBytes 4 typePtr ++ leBytes 4 (pflag par) ++
      leBytes io.ptrSize d ++ leBytes io.ptrSize s ++ leBytes io.ptrSize (pindex par) ++
      leBytes io.ptrSize (poffset par) := by
  cases par <;> simp only [encodeBufferObject, pflag, pindex, poffset]

theorem ptr_pos (io : Io) : 4 ≤ io.ptrSize := by cases io <;> decide

set_option maxRecDepth 4000 in
/-- The kernel finds an object written by the encoders. -/
theorem getObject_bytes (io : Io) (x : Obj) (a c : Bytes) :
    getObject io (a ++ (x.bytes io ++ c)) a.length = some (x.kernel io, x.ksize io) := by
  have hp := ptr_pos io
  have hk := x.ksize_le io
  have hfit : a.length + x.ksize io ≤ (a ++ (x.bytes io ++ c)).length := by
    simp only [List.length_append]; omega
  have field : ∀ (pre m post : Bytes) (o n : Nat), x.bytes io = pre ++ (m ++ post) →
      o = a.length + pre.length → n = m.length →
      fieldAt (a ++ (x.bytes io ++ c)) o n = leVal m := by
    intro pre m post o n hx ho hn
    rw [hx]
    have : a ++ (pre ++ (m ++ post) ++ c) = (a ++ pre) ++ (m ++ (post ++ c)) := by simp
    rw [this]
    exact fieldAt_mid _ _ _ (by simp [ho]) hn
  have hk4 : 4 ≤ x.ksize io := by
    cases x <;> simp [Obj.ksize, Io.flatSize, Io.fdaSize, Io.bufferObjSize] <;> omega
  have h4 : ¬ ¬ (a.length + 4 ≤ (a ++ (x.bytes io ++ c)).length) := by
    exact fun hn => hn (by omega)
  unfold getObject
  simp only [word_eq]
  rw [if_neg h4]
  cases x with
  | loc p o =>
    have t := field [] (leBytes 4 typeBinder) _ a.length 4
      (by simp only [Obj.bytes, encodeLocalObject, List.append_assoc, List.nil_append]; rfl) (by simp) (by simp)
    have t' : fieldAt (a ++ (Obj.bytes io (.loc p o) ++ c)) a.length 4 = tBinder := t.trans val_tBinder
    rw [t', if_pos (Or.inl rfl), if_pos]
    · have f1 := field (leBytes 4 typeBinder ++ leBytes 4 (0x7f ||| 0x100))
        (leBytes io.ptrSize o.addr) _ (a.length + 8) io.ptrSize
        (by simp only [Obj.bytes, encodeLocalObject, List.append_assoc]; rfl) (by simp) (by simp)
      have f2 := field (leBytes 4 typeBinder ++ leBytes 4 (0x7f ||| 0x100) ++
        leBytes io.ptrSize o.addr)
        (leBytes io.ptrSize 0) _ (a.length + 8 + io.ptrSize) io.ptrSize
        (by simp only [Obj.bytes, encodeLocalObject, List.append_assoc]; rfl) (by simp; omega) (by simp)
      rw [f1, f2]
      simp only [Obj.kernel, Obj.ksize, leVal_leBytes, Io.flatSize, Nat.zero_mod]
      congr 2; omega
    · simp only [Obj.ksize, Io.flatSize] at hfit; omega
  | rem h =>
    have t := field [] (leBytes 4 typeHandle) _ a.length 4
      (by simp only [Obj.bytes, encodeRemoteObject, List.append_assoc, List.nil_append]; rfl) (by simp) (by simp)
    have t' : fieldAt (a ++ (Obj.bytes io (.rem h) ++ c)) a.length 4 = tHandle := t.trans val_tHandle
    rw [t', if_neg (by decide), if_pos (Or.inl rfl), if_pos]
    · have f1 := field (leBytes 4 typeHandle ++ leBytes 4 0x100)
        (leBytes 4 h) _ (a.length + 8) 4
        (by simp only [Obj.bytes, encodeRemoteObject, List.append_assoc]; rfl) (by simp) (by simp)
      rw [f1]
      simp only [Obj.kernel, Obj.ksize, leVal_leBytes, Io.flatSize]
      congr 2; omega
    · simp only [Obj.ksize, Io.flatSize] at hfit; omega
  | fd h =>
    have t := field [] (leBytes 4 typeFd) _ a.length 4
      (by simp only [Obj.bytes, encodeFdObject, List.append_assoc, List.nil_append]; rfl) (by simp) (by simp)
    have t' : fieldAt (a ++ (Obj.bytes io (.fd h) ++ c)) a.length 4 = tFd := t.trans val_tFd
    rw [t', if_neg (by decide), if_neg (by decide), if_pos rfl, if_pos]
    · have f1 := field (leBytes 4 typeFd ++ leBytes 4 (0x7f ||| 0x100))
        (leBytes 4 h) _ (a.length + 8) 4
        (by simp only [Obj.bytes, encodeFdObject, List.append_assoc]; rfl) (by simp) (by simp)
      rw [f1]
      simp only [Obj.kernel, Obj.ksize, leVal_leBytes, Io.flatSize]
      congr 2; omega
    · simp only [Obj.ksize, Io.flatSize] at hfit; omega
  | fda n par =>
    have t := field [] (leBytes 4 typeFda) _ a.length 4
      (by simp only [Obj.bytes, encodeFdaObject, List.append_assoc, List.nil_append]; rfl) (by simp) (by simp)
    have t' : fieldAt (a ++ (Obj.bytes io (.fda n par) ++ c)) a.length 4 = tFda := t.trans val_tFda
    rw [t', if_neg (by decide), if_neg (by decide), if_neg (by decide), if_pos rfl, if_pos]
    · have f1 := field (leBytes 4 typeFda ++ leBytes 4 0)
        (leBytes io.ptrSize n) _ (a.length + 8) io.ptrSize
        (by simp only [Obj.bytes, encodeFdaObject, List.append_assoc]; rfl) (by simp) (by simp)
      have f2 := field (leBytes 4 typeFda ++ leBytes 4 0 ++ leBytes io.ptrSize n)
        (leBytes io.ptrSize par.index) _ (a.length + 8 + io.ptrSize) io.ptrSize
        (by simp only [Obj.bytes, encodeFdaObject, List.append_assoc]; rfl) (by simp; omega) (by simp)
      have f3 := field (leBytes 4 typeFda ++ leBytes 4 0 ++ leBytes io.ptrSize n ++
        leBytes io.ptrSize par.index)
        (leBytes io.ptrSize par.offset) [] (a.length + 8 + 2 * io.ptrSize) io.ptrSize
        (by simp only [Obj.bytes, encodeFdaObject, List.append_assoc, List.append_nil])
        (by simp; omega) (by simp)
      rw [f1, f2, f3]
      simp only [Obj.kernel, Obj.ksize, leVal_leBytes, Io.fdaSize]
    · simp only [Obj.ksize, Io.fdaSize] at hfit; omega
  | buf d s par =>
    have hb : Obj.bytes io (Obj.buf d s par) = leBytes 4 typePtr ++ (leBytes 4 (pflag par) ++
        (leBytes io.ptrSize d ++ (leBytes io.ptrSize s ++ (leBytes io.ptrSize (pindex par) ++
        (leBytes io.ptrSize (poffset par) ++ []))))) := by
      simp only [Obj.bytes, encodeBufferObject_eq, List.append_assoc, List.append_nil]
    generalize hw0 : leBytes 4 typePtr = w0 at hb
    generalize hw1 : leBytes 4 (pflag par) = w1 at hb
    generalize hw2 : leBytes io.ptrSize d = w2 at hb
    generalize hw3 : leBytes io.ptrSize s = w3 at hb
    generalize hw4 : leBytes io.ptrSize (pindex par) = w4 at hb
    generalize hw5 : leBytes io.ptrSize (poffset par) = w5 at hb
    have l0 : w0.length = 4 := by simp [← hw0]
    have l1 : w1.length = 4 := by simp [← hw1]
    have l2 : w2.length = io.ptrSize := by simp [← hw2]
    have l3 : w3.length = io.ptrSize := by simp [← hw3]
    have l4 : w4.length = io.ptrSize := by simp [← hw4]
    have l5 : w5.length = io.ptrSize := by simp [← hw5]
    have t' : fieldAt (a ++ (Obj.bytes io (.buf d s par) ++ c)) a.length 4 = tPtr := by
      rw [field [] w0 (w1 ++ (w2 ++ (w3 ++ (w4 ++ (w5 ++ []))))) a.length 4 (by rw [hb, List.nil_append])
        (by simp) l0.symm, ← hw0]
      exact val_tPtr
    rw [t', if_neg (by decide), if_neg (by decide), if_neg (by decide), if_neg (by decide),
      if_pos (rfl : tPtr = tPtr), if_pos]
    · have f0 := field w0 w1 (w2 ++ (w3 ++ (w4 ++ (w5 ++ [])))) (a.length + 4) 4
        (by rw [hb]) (by omega) l1.symm
      have f1 := field (w0 ++ w1) w2 (w3 ++ (w4 ++ (w5 ++ []))) (a.length + 8) io.ptrSize
        (by rw [hb]; simp only [List.append_assoc])
        (by simp only [List.length_append]; omega) l2.symm
      have f2 := field (w0 ++ w1 ++ w2) w3 (w4 ++ (w5 ++ [])) (a.length + 8 + io.ptrSize) io.ptrSize
        (by rw [hb]; simp only [List.append_assoc])
        (by simp only [List.length_append]; omega) l3.symm
      have f3 := field (w0 ++ w1 ++ w2 ++ w3) w4 (w5 ++ []) (a.length + 8 + 2 * io.ptrSize) io.ptrSize
        (by rw [hb]; simp only [List.append_assoc])
        (by simp only [List.length_append]; omega) l4.symm
      have f4 := field (w0 ++ w1 ++ w2 ++ w3 ++ w4) w5 [] (a.length + 8 + 3 * io.ptrSize) io.ptrSize
        (by rw [hb]; simp only [List.append_assoc])
        (by simp only [List.length_append]; omega) l5.symm
      rw [f0, f1, f2, f3, f4, ← hw1, ← hw2, ← hw3, ← hw4, ← hw5]
      simp only [Obj.kernel, Obj.ksize, leVal_leBytes, Io.bufferObjSize]
      cases par with
      | none => simp [pflag]
      | some p => simp [pflag, pindex, poffset]
    · simp only [Obj.ksize, Io.bufferObjSize] at hfit; omega

/-! ### Parcels as sequences of raw data and objects -/

/-- Parcels built from raw data (of aligned length, if `al`) and objects. -/
inductive Built (io : Io) (al : Bool) : Bytes → List Nat → Nat → List Obj → Prop
  | nil : Built io al [] [] 0 []
  | raw {b o n s} (r : Bytes) (h : al = true → r.length % 4 = 0) :
      Built io al b o n s → Built io al (b ++ r) o n s
  | obj {b o n s} (x : Obj) :
      Built io al b o n s → Built io al (b ++ x.bytes io) (o ++ [b.length]) (n + x.bufSize) (s ++ [x])

namespace Built
variable {io : Io} {al : Bool} {b : Bytes} {o : List Nat} {n : Nat} {s : List Obj}

theorem aligned (h : Built io true b o n s) : b.length % 4 = 0 := by
  induction h with
  | nil => rfl
  | raw r hr _ ih => have := hr rfl; simp only [List.length_append]; omega
  | obj x _ ih => have := x.bytes_mod io; simp only [List.length_append]; omega

theorem length_eq (h : Built io al b o n s) : o.length = s.length := by
  induction h with
  | nil => rfl
  | raw r hr _ ih => exact ih
  | obj x _ ih => simp [ih]

theorem bufs (h : Built io al b o n s) : n = (s.map Obj.bufSize).sum := by
  induction h with
  | nil => rfl
  | raw r hr _ ih => exact ih
  | obj x _ ih => simp [ih]

theorem weaken (h : Built io true b o n s) : Built io al b o n s := by
  induction h with
  | nil => exact .nil
  | raw r hr _ ih => exact .raw r (fun _ => hr rfl) ih
  | obj x _ ih => exact .obj x ih

end Built

/-- Each object occupies its place: `lo` is where the previous one ends. -/
inductive Placed (io : Io) (b : Bytes) : Nat → List Nat → List Obj → Prop
  | nil (lo : Nat) : Placed io b lo [] []
  | cons {lo o os x xs} (a c : Bytes) (hb : b = a ++ (x.bytes io ++ c)) (ho : o = a.length)
      (hlo : lo ≤ o) : Placed io b (o + (x.bytes io).length) os xs →
      Placed io b lo (o :: os) (x :: xs)

theorem Placed.append_right {io : Io} {b : Bytes} {lo : Nat} {o : List Nat} {s : List Obj}
    (h : Placed io b lo o s) (r : Bytes) : Placed io (b ++ r) lo o s := by
  induction h with
  | nil lo => exact .nil lo
  | cons a c hb ho hlo _ ih => exact .cons a (c ++ r) (by simp [hb]) ho hlo ih

theorem Placed.snoc {io : Io} {b : Bytes} {lo : Nat} {o : List Nat} {s : List Obj}
    (h : Placed io b lo o s) (hlo : lo ≤ b.length) (x : Obj) :
    Placed io (b ++ x.bytes io) lo (o ++ [b.length]) (s ++ [x]) := by
  induction h with
  | nil lo => exact .cons b [] (by simp) rfl hlo (.nil _)
  | cons a c hb ho hlo' _ ih =>
    refine .cons a (c ++ x.bytes io) (by simp [hb]) ho hlo' (ih ?_)
    rw [hb, ho]; simp only [List.length_append]; omega

theorem Built.placed {io : Io} {al : Bool} {b : Bytes} {o : List Nat} {n : Nat} {s : List Obj}
    (h : Built io al b o n s) : Placed io b 0 o s := by
  induction h with
  | nil => exact .nil 0
  | raw r _ _ ih => exact ih.append_right r
  | obj x _ ih => exact ih.snoc (Nat.zero_le _) x

theorem Built.offsets_mod {io : Io} {b : Bytes} {o : List Nat} {n : Nat} {s : List Obj}
    (h : Built io true b o n s) : ∀ x ∈ o, x % 4 = 0 := by
  induction h with
  | nil => simp
  | raw r _ _ ih => exact ih
  | obj x hb ih =>
    intro y hy
    rw [List.mem_append, List.mem_singleton] at hy
    rcases hy with hy | rfl
    · exact ih y hy
    · exact hb.aligned

theorem Placed.getObjects {io : Io} {b : Bytes} {lo : Nat} {o : List Nat} {s : List Obj}
    (h : Placed io b lo o s) :
    ∀ lo' ≤ lo, getObjects io b lo' o = some (s.map (Obj.kernel io)) := by
  induction h with
  | nil lo => intro _ _; rfl
  | @cons lo o os x xs a c hb ho hlo _ ih =>
    intro lo' hlo'
    have hg : getObject io b o = some (x.kernel io, x.ksize io) := by
      rw [hb, ho]; exact getObject_bytes io x a c
    have hi := ih (o + x.ksize io)
      (Nat.add_le_add_left (x.ksize_le io) o)
    simp only [Kernel.getObjects, hg, hi, List.map_cons, Option.map_some]
    rw [if_pos (by omega)]

end Gb
