import Verif.Model.Reader
/-
The reading functions don't depend on where the reader has started (only gbinder_reader_bytes_read does).
-/
set_option autoImplicit false

namespace Gb

/-- The same reader, started somewhere else. -/
def Reader.startAt (r : Reader) (n : Nat) : Reader := { r with start := n }

def Res.startAt {α : Type} (x : Res α) (n : Nat) : Res α :=
  match x with
  | .ok a r => .ok a (r.startAt n)
  | .fail r => .fail (r.startAt n)
  | .ub k => .ub k

namespace Reader

theorem deref_startAt {α : Type} (r : Reader) (n off len : Nat) (k k' : Bytes → Res α)
    (h : ∀ b, k' b = (k b).startAt n) : (r.startAt n).deref off len k' = (r.deref off len k).startAt n := by
  unfold deref
  have : (r.startAt n).buf = r.buf := rfl
  rw [this]
  cases slice r.buf off len with
  | none => rfl
  | some b => exact h b

theorem readWord_startAt (r : Reader) (n k : Nat) : (r.startAt n).readWord k = (r.readWord k).startAt n := by
  unfold readWord
  have : (r.startAt n).canRead k = r.canRead k := rfl
  rw [this]
  split
  · exact deref_startAt r n _ _ _ _ fun _ => rfl
  · rfl

theorem readUInt32_startAt (r : Reader) (n : Nat) : (r.startAt n).readUInt32 = r.readUInt32.startAt n :=
  readWord_startAt r n 4

theorem ite_startAt {α : Type} (c : Prop) [Decidable c] (a b a' b' : Res α) (n : Nat) (ha : a' = a.startAt n)
    (hb : b' = b.startAt n) : (if c then a' else b') = (if c then a else b).startAt n := by
  split <;> assumption

theorem readNullableUtf16_startAt (r : Reader) (n : Nat) :
    (r.startAt n).readNullableUtf16 = r.readNullableUtf16.startAt n := by
  unfold readNullableUtf16
  refine ite_startAt _ _ _ _ _ n (deref_startAt r n _ _ _ _ fun b => ?_) rfl
  refine ite_startAt _ _ _ _ _ n rfl (ite_startAt _ _ _ _ _ n (ite_startAt _ _ _ _ _ n ?_ rfl) rfl)
  refine ite_startAt _ _ _ _ _ n (deref_startAt r n _ _ _ _ fun b => ?_) rfl
  exact ite_startAt _ _ _ _ _ n rfl rfl

theorem readString16_startAt (r : Reader) (n : Nat) : (r.startAt n).readString16 = r.readString16.startAt n := by
  unfold readString16 readNullableString16
  rw [readNullableUtf16_startAt]
  cases r.readNullableUtf16 <;> rfl

theorem readNullableObject_startAt (r : Reader) (n : Nat) :
    (r.startAt n).readNullableObject = r.readNullableObject.startAt n := by
  unfold readNullableObject
  refine ite_startAt _ _ _ _ _ n (ite_startAt _ _ _ _ _ n ?_ rfl) rfl
  refine deref_startAt r n _ _ _ _ fun b => ?_
  refine ite_startAt _ _ _ _ _ n (deref_startAt r n _ _ _ _ fun _ => rfl) (ite_startAt _ _ _ _ _ n ?_ rfl)
  exact deref_startAt r n _ _ _ _ fun b => ite_startAt _ _ _ _ _ n rfl rfl

theorem readBufferObject_startAt (r : Reader) (n : Nat) :
    (r.startAt n).readBufferObject = r.readBufferObject.startAt n := by
  unfold readBufferObject
  refine ite_startAt _ _ _ _ _ n ?_ rfl
  have : decodeBufferObject (r.startAt n).io (r.startAt n).buf (r.startAt n).pos = decodeBufferObject r.io r.buf r.pos := rfl
  rw [this]
  cases decodeBufferObject r.io r.buf r.pos <;> rfl

theorem loadMem_startAt {α : Type} (m : Mem) (a len n : Nat) (k k' : Bytes → Res α)
    (h : ∀ b, k' b = (k b).startAt n) : loadMem m a len k' = (loadMem m a len k).startAt n := by
  unfold loadMem
  cases m.load a len with
  | none => rfl
  | some b => exact h b

theorem checkHidlString_startAt (m : Mem) (d o : Nat) (b : BufferObj) (r : Reader) (n : Nat) :
    checkHidlString m d o b (r.startAt n) = (checkHidlString m d o b r).startAt n := by
  unfold checkHidlString
  refine ite_startAt _ _ _ _ _ n ?_ rfl
  refine loadMem_startAt _ _ _ n _ _ fun p => loadMem_startAt _ _ _ n _ _ fun l => ?_
  refine ite_startAt _ _ _ _ _ n (loadMem_startAt _ _ _ n _ _ fun z => ?_) rfl
  refine ite_startAt _ _ _ _ _ n ?_ rfl
  cases m.cstr (leVal p) <;> rfl

theorem readHidlString_startAt (m : Mem) (r : Reader) (n : Nat) :
    readHidlString m (r.startAt n) = (readHidlString m r).startAt n := by
  unfold readHidlString
  rw [readBufferObject_startAt]
  cases r.readBufferObject with
  | fail r => rfl
  | ub k => rfl
  | ok o r1 =>
    simp only [Res.startAt]
    refine ite_startAt _ _ _ _ _ n ?_ rfl
    rw [readBufferObject_startAt]
    cases r1.readBufferObject with
    | fail r => rfl
    | ub k => rfl
    | ok o2 r2 => exact checkHidlString_startAt _ _ _ _ _ _

theorem startAt_ok {α : Type} {x : Res α} {a : α} {r : Reader} (h : x = .ok a r) (n : Nat) :
    x.startAt n = .ok a (r.startAt n) := by rw [h]; rfl

end Reader
end Gb
