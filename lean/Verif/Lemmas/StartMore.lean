import Verif.Lemmas.Start
import Verif.Spec.Call
/-
More reading functions which don't depend on where the reader has started.
-/
set_option autoImplicit false

namespace Gb

open Reader

theorem Res.map_startAt {α β : Type} (x : Res α) (f : α → β) (n : Nat) : (x.startAt n).map f = (x.map f).startAt n := by
  cases x <;> rfl

namespace Reader

theorem readUInt8_startAt (r : Reader) (n : Nat) : (r.startAt n).readUInt8 = r.readUInt8.startAt n := by
  unfold readUInt8
  exact ite_startAt _ _ _ _ _ n (deref_startAt r n _ _ _ _ fun _ => rfl) rfl

theorem readUInt16_startAt (r : Reader) (n : Nat) : (r.startAt n).readUInt16 = r.readUInt16.startAt n := by
  unfold readUInt16
  exact ite_startAt _ _ _ _ _ n (deref_startAt r n _ _ _ _ fun _ => rfl) rfl

theorem readString8_startAt (r : Reader) (n : Nat) : (r.startAt n).readString8 = r.readString8.startAt n := by
  unfold readString8
  refine ite_startAt _ _ _ _ _ n (ite_startAt _ _ _ _ _ n (ite_startAt _ _ _ _ _ n ?_ rfl) rfl) rfl
  exact deref_startAt r n _ _ _ _ fun _ => rfl

theorem readByteArray_startAt (r : Reader) (n : Nat) : (r.startAt n).readByteArray = r.readByteArray.startAt n := by
  unfold readByteArray
  refine ite_startAt _ _ _ _ _ n (deref_startAt r n _ _ _ _ fun b => ?_) rfl
  refine ite_startAt _ _ _ _ _ n rfl (ite_startAt _ _ _ _ _ n ?_ rfl)
  exact deref_startAt r n _ _ _ _ fun _ => rfl

theorem readFd_startAt (r : Reader) (n : Nat) : (r.startAt n).readFd = r.readFd.startAt n := by
  unfold readFd
  refine ite_startAt _ _ _ _ _ n (ite_startAt _ _ _ _ _ n (deref_startAt r n _ _ _ _ fun b => ?_) rfl) rfl
  exact ite_startAt _ _ _ _ _ n (deref_startAt r n _ _ _ _ fun _ => rfl) rfl

theorem read_startAt (r : Reader) (n : Nat) (t : C01.Ty) : t.read (r.startAt n) = (t.read r).startAt n := by
  cases t <;> simp only [C01.Ty.read, readBool, readUInt64, readNullableString16, readUInt32_startAt, readWord_startAt,
    readUInt8_startAt, readUInt16_startAt, readString8_startAt, readNullableUtf16_startAt, readByteArray_startAt,
    Res.map_startAt]

theorem readHidlVec_startAt (m : Mem) (r : Reader) (n : Nat) :
    readHidlVec m (r.startAt n) = (readHidlVec m r).startAt n := by
  unfold readHidlVec
  rw [readBufferObject_startAt]
  cases r.readBufferObject with
  | fail r => rfl
  | ub k => rfl
  | ok o r1 =>
    simp only [Res.startAt]
    refine ite_startAt _ _ _ _ _ n ?_ rfl
    refine loadMem_startAt _ _ _ n _ _ fun p => loadMem_startAt _ _ _ n _ _ fun c => ?_
    refine ite_startAt _ _ _ _ _ n ?_ (ite_startAt _ _ _ _ _ n rfl rfl)
    rw [readBufferObject_startAt]
    cases r1.readBufferObject with
    | fail r => rfl
    | ub k => rfl
    | ok o2 r2 => exact ite_startAt _ _ _ _ _ n rfl rfl

theorem readStringVecLoop_startAt (m : Mem) (s n : Nat) : ∀ (k i : Nat) (r : Reader),
    readStringVecLoop m s i k (r.startAt n) = (readStringVecLoop m s i k r).startAt n := by
  intro k
  induction k with
  | zero => intro i r; rfl
  | succ k ih =>
    intro i r
    unfold readStringVecLoop
    rw [readBufferObject_startAt]
    cases r.readBufferObject with
    | fail r => rfl
    | ub k => rfl
    | ok o r1 =>
      simp only [Res.startAt]
      rw [checkHidlString_startAt]
      cases checkHidlString m (s + 16 * i) (16 * i) o r1 with
      | fail r => rfl
      | ub k => rfl
      | ok x r2 =>
        cases x with
        | none => rfl
        | some x =>
          simp only [Res.startAt]
          rw [ih]
          cases readStringVecLoop m s (i + 1) k r2 with
          | fail r => rfl
          | ub k => rfl
          | ok y r3 => cases y <;> rfl

theorem readHidlStringVec_startAt (m : Mem) (r : Reader) (n : Nat) :
    readHidlStringVec m (r.startAt n) = (readHidlStringVec m r).startAt n := by
  unfold readHidlStringVec
  rw [readBufferObject_startAt]
  cases r.readBufferObject with
  | fail r => rfl
  | ub k => rfl
  | ok o r1 =>
    simp only [Res.startAt]
    refine ite_startAt _ _ _ _ _ n ?_ rfl
    refine loadMem_startAt _ _ _ n _ _ fun p => loadMem_startAt _ _ _ n _ _ fun c => ?_
    refine ite_startAt _ _ _ _ _ n rfl ?_
    rw [readBufferObject_startAt]
    cases r1.readBufferObject with
    | fail r => rfl
    | ub k => rfl
    | ok o2 r2 => exact ite_startAt _ _ _ _ _ n (readStringVecLoop_startAt _ _ _ _ _ _) rfl

end Reader

namespace Call

theorem Got.startAt {d : Delivery} {r r' : Reader} {x : Item} (h : x.Got d r r') (n : Nat) :
    x.Got d (r.startAt n) (r'.startAt n) := by
  cases x <;> simp only [Item.Got] at h ⊢
  case plain v => rw [read_startAt]; exact startAt_ok h n
  case object o => rw [readNullableObject_startAt]; exact startAt_ok h n
  case remote hd =>
    obtain ⟨h', h1, h2⟩ := h
    exact ⟨h', h1, by rw [readNullableObject_startAt]; exact startAt_ok h2 n⟩
  case file k dup =>
    obtain ⟨i, h1, h2⟩ := h
    exact ⟨i, h1, by rw [readFd_startAt]; exact startAt_ok h2 n⟩
  case hidlString => rw [readHidlString_startAt]; exact startAt_ok h n
  case hidlStringCopy => rw [readHidlString_startAt]; exact startAt_ok h n
  case hidlNull => rw [readHidlString_startAt]; exact startAt_ok h n
  case hidlStringVec => rw [readHidlStringVec_startAt]; exact startAt_ok h n
  case hidlVec =>
    obtain ⟨p, h1, h2⟩ := h
    exact ⟨p, by rw [readHidlVec_startAt]; exact startAt_ok h1 n, h2⟩
  case hidlVecEmpty =>
    obtain ⟨p, h1, h2⟩ := h
    exact ⟨p, by rw [readHidlVec_startAt]; exact startAt_ok h1 n, h2⟩

theorem GotAll.startAt {d : Delivery} (n : Nat) : ∀ {l : List Item} {r r' : Reader}, GotAll d r l r' →
    GotAll d (r.startAt n) l (r'.startAt n) := by
  intro l
  induction l with
  | nil => intro r r' h; cases h; rfl
  | cons x l ih =>
    intro r r' h
    obtain ⟨r1, h1, h2⟩ := h
    exact ⟨_, Got.startAt h1 n, ih h2⟩

end Call
end Gb
