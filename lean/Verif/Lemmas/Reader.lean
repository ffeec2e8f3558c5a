import Verif.Model.Reader
import Verif.Model.Writer
import Verif.Lemmas.Writer
/-
What each reading function does when the unread part of the buffer starts with a
known encoding.
-/
set_option autoImplicit false

namespace Gb
namespace Reader

/-- The unread part of the buffer is `x`. -/
structure Rest (r : Reader) (x : Bytes) : Prop where
  fin_eq : r.fin = r.buf.length
  pos_le : r.pos ≤ r.fin
  drop_eq : r.buf.drop r.pos = x

theorem Rest.remaining {r : Reader} {x : Bytes} (h : r.Rest x) : r.remaining = x.length := by
  have h1 := h.pos_le
  have h2 := h.fin_eq
  have h3 := congrArg List.length h.drop_eq
  simp only [List.length_drop] at h3
  simp only [Reader.remaining, if_pos h1]
  omega

theorem Rest.fin_pos {r : Reader} {x : Bytes} (h : r.Rest x) : r.fin = r.pos + x.length := by
  have h1 := h.pos_le
  have h2 := h.remaining
  simp only [Reader.remaining, if_pos h1] at h2
  omega

theorem Rest.slice {r : Reader} {a m x : Bytes} (h : r.Rest (a ++ (m ++ x))) :
    Gb.slice r.buf (r.pos + a.length) m.length = some m := by
  have hf := h.fin_pos
  have h2 := h.fin_eq
  simp only [List.length_append] at hf
  rw [slice_isSome (by omega), ← List.drop_drop, h.drop_eq]
  simp

theorem Rest.slice0 {r : Reader} {m x : Bytes} (h : r.Rest (m ++ x)) :
    Gb.slice r.buf r.pos m.length = some m := by
  have := Rest.slice (r := r) (a := []) (m := m) (x := x) h
  simpa using this

theorem Rest.advance {r : Reader} {m x : Bytes} {n : Nat} (h : r.Rest (m ++ x)) (hn : n = m.length) :
    (r.advance n).Rest x := by
  subst hn
  have hf := h.fin_pos
  simp only [List.length_append] at hf
  refine ⟨h.fin_eq, ?_, ?_⟩
  · simp only [Reader.advance]; omega
  · simp only [Reader.advance]
    rw [← List.drop_drop, h.drop_eq]
    simp

theorem deref_rest {α : Type} {r : Reader} {m x : Bytes} {n : Nat} (h : r.Rest (m ++ x))
    (hn : n = m.length) (k : Bytes → Res α) : r.deref r.pos n k = k m := by
  subst hn
  simp only [Reader.deref, h.slice0]

theorem deref_rest_at {α : Type} {r : Reader} {a m x : Bytes} {off n : Nat}
    (h : r.Rest (a ++ (m ++ x))) (ho : off = r.pos + a.length)
    (hn : n = m.length) (k : Bytes → Res α) : r.deref off n k = k m := by
  subst hn ho
  simp only [Reader.deref, h.slice]

theorem canRead_rest {r : Reader} {x : Bytes} {n : Nat} (h : r.Rest x) (hn : n ≤ x.length) :
    r.canRead n = true := by
  simp [Reader.canRead, h.remaining, hn]

theorem readWord_rest {r : Reader} {x : Bytes} {n v : Nat} (h : r.Rest (leBytes n v ++ x))
    (hv : v < 256 ^ n) : r.readWord n = .ok v (r.advance n) := by
  unfold Reader.readWord
  rw [canRead_rest h (by simp)]
  simp only [if_true]
  rw [deref_rest h (by simp), leVal_leBytes_of_lt hv]

theorem readUInt32_rest {r : Reader} {x : Bytes} {v : Nat} (h : r.Rest (leBytes 4 v ++ x))
    (hv : v < 2 ^ 32) : r.readUInt32 = .ok v (r.advance 4) := readWord_rest h hv

theorem readUInt64_rest {r : Reader} {x : Bytes} {v : Nat} (h : r.Rest (leBytes 8 v ++ x))
    (hv : v < 2 ^ 64) : r.readUInt64 = .ok v (r.advance 8) := readWord_rest h hv

theorem readBool_rest {r : Reader} {x : Bytes} {b : Bool}
    (h : r.Rest (((if b then 1 else 0) :: [0, 0, 0]) ++ x)) :
    r.readBool = .ok b (r.advance 4) := by
  have h' : r.Rest (leBytes 4 (if b then 1 else 0) ++ x) := by
    cases b <;> exact h
  have hlt : (if b then 1 else 0) < 2 ^ 32 := by cases b <;> decide
  simp only [Reader.readBool, readUInt32_rest h' hlt, Res.map, Res.bind]
  cases b <;> rfl

theorem readUInt8_rest {r : Reader} {x : Bytes} {v : Nat}
    (h : r.Rest ((leBytes 1 v ++ [0, 0, 0]) ++ x)) (hv : v < 2 ^ 8) :
    r.readUInt8 = .ok v (r.advance 4) := by
  unfold Reader.readUInt8
  rw [canRead_rest h (by simp; omega)]
  simp only [if_true]
  rw [List.append_assoc] at h
  rw [deref_rest h (by simp), leVal_leBytes_of_lt (by simpa using hv)]

theorem readUInt16_rest {r : Reader} {x : Bytes} {v : Nat}
    (h : r.Rest ((leBytes 2 v ++ [0, 0]) ++ x)) (hv : v < 2 ^ 16) :
    r.readUInt16 = .ok v (r.advance 4) := by
  unfold Reader.readUInt16
  rw [canRead_rest h (by simp; omega)]
  simp only [if_true]
  rw [List.append_assoc] at h
  rw [deref_rest h (by simp), leVal_leBytes_of_lt (by simpa using hv)]

theorem takeWhile_nz {s y : Bytes} (hs : (0 : Byte) ∉ s) :
    (s ++ (0 :: y)).takeWhile (· ≠ 0) = s := by
  induction s with
  | nil => simp
  | cons a s ih =>
    simp only [List.mem_cons, not_or] at hs
    have ha : a ≠ 0 := fun hh => hs.1 hh.symm
    simp only [List.cons_append, List.takeWhile_cons, ha, ne_eq, not_false_eq_true, decide_true,
      if_true]
    rw [ih hs.2]

theorem replicate_pos_cons {n : Nat} (h : 0 < n) (z : Byte) :
    List.replicate n z = z :: List.replicate (n - 1) z := by
  cases n with
  | zero => omega
  | succ n => simp [List.replicate_succ]

theorem readString8_rest {r : Reader} {s x : Bytes} (hs : (0 : Byte) ∉ s)
    (h : r.Rest ((s ++ List.replicate (align4 (s.length + 1) - s.length) 0) ++ x)) :
    r.readString8 = .ok s (r.advance (align4 (s.length + 1))) := by
  have hb := le_align4 (s.length + 1)
  have hf := h.fin_pos
  simp only [List.length_append, List.length_replicate] at hf
  have hscan : scanNul r.buf r.pos r.fin = s.length := by
    unfold scanNul
    rw [h.drop_eq, hf, Nat.add_sub_cancel_left, List.take_of_length_le (by simp; omega),
      replicate_pos_cons (by omega), List.append_assoc, List.cons_append, takeWhile_nz hs]
  unfold Reader.readString8
  rw [if_pos (Or.inl (by rw [h.fin_eq]; exact Nat.le_refl _))]
  simp only [hscan]
  rw [if_pos (by omega), if_pos (by omega)]
  rw [List.append_assoc] at h
  exact deref_rest h rfl _

theorem unitsOf_utf16Bytes (us : List Nat) (hu : ∀ u ∈ us, u < 65536) (rest : Bytes) :
    unitsOf (utf16Bytes us ++ rest) = us ++ unitsOf rest := by
  induction us with
  | nil => rfl
  | cons u us ih =>
    have hu0 : u < 256 ^ 2 := hu u (by simp)
    have ih' := ih (fun v hv => hu v (by simp [hv]))
    have hv := leVal_leBytes_of_lt hu0
    simp only [utf16Bytes, List.flatMap_cons] at *
    simp only [leBytes, List.cons_append, List.nil_append, unitsOf] at *
    rw [ih', hv]

/-- The encoding of a non-NULL string16 with the given units. -/
def encUnits (us : List Nat) : Bytes :=
  leBytes 4 us.length ++ (utf16Bytes us ++
    List.replicate (align4 ((us.length + 1) * 2) - 2 * us.length) 0)

theorem length_encUnits (us : List Nat) :
    (encUnits us).length = 4 + align4 ((us.length + 1) * 2) := by
  have hb := le_align4 ((us.length + 1) * 2)
  simp only [encUnits, List.length_append, length_leBytes, length_utf16Bytes, List.length_replicate]
  omega

theorem readNullableUtf16_rest {r : Reader} {us : List Nat} {x : Bytes}
    (hu : ∀ u ∈ us, u < 65536) (hl : (us.length + 1) * 2 < 2 ^ 31)
    (h : r.Rest (encUnits us ++ x)) :
    r.readNullableUtf16 = .ok (some us) (r.advance (encUnits us).length) := by
  have hb := le_align4 ((us.length + 1) * 2)
  have hf := h.fin_pos
  have hle := length_encUnits us
  simp only [List.length_append] at hf
  unfold Reader.readNullableUtf16
  rw [if_pos (by omega)]
  have h1 : r.Rest (leBytes 4 us.length ++ ((utf16Bytes us ++
    List.replicate (align4 ((us.length + 1) * 2) - 2 * us.length) 0) ++ x)) := by
    simpa only [encUnits, List.append_assoc] using h
  rw [deref_rest h1 (by simp)]
  have hv : leVal (leBytes 4 us.length) = us.length :=
    leVal_leBytes_of_lt (by have : (256 : Nat) ^ 4 = 2 ^ 32 := by decide
                            omega)
  simp only [hv]
  rw [if_neg (by omega), if_pos (by omega), if_pos hl, if_pos (by omega)]
  obtain ⟨k, hk⟩ : ∃ k, align4 ((us.length + 1) * 2) - 2 * us.length = 2 + k :=
    ⟨align4 ((us.length + 1) * 2) - 2 * us.length - 2, by omega⟩
  have h2 : r.Rest (leBytes 4 us.length ++ ((utf16Bytes us ++ [0, 0]) ++
      (List.replicate k 0 ++ x))) := by
    rw [hk, Nat.add_comm 2 k, List.replicate_succ', List.replicate_succ'] at h1
    have e : List.replicate k (0 : Byte) ++ [0] ++ [0] = [0, 0] ++ List.replicate k 0 := by
      rw [← List.replicate_succ', ← List.replicate_succ']
      simp [List.replicate_succ]
    rw [e] at h1
    simpa only [List.append_assoc] using h1
  rw [deref_rest_at h2 (by simp) (by simp [length_utf16Bytes]; omega)]
  have hu0 : unitsOf (utf16Bytes us ++ [0, 0]) = us ++ [0] := by
    rw [unitsOf_utf16Bytes us hu]; rfl
  simp only [hu0, List.drop_left, List.take_left, if_true, hle]
  rw [Nat.add_comm 4]

theorem readNullableUtf16_null {r : Reader} {x : Bytes} (h : r.Rest (leBytes 4 0xffffffff ++ x)) :
    r.readNullableUtf16 = .ok none (r.advance 4) := by
  have hf := h.fin_pos
  simp only [List.length_append, length_leBytes] at hf
  unfold Reader.readNullableUtf16
  rw [if_pos (by omega), deref_rest h (by simp)]
  rfl

theorem readNullableUtf16_empty {r : Reader} {x : Bytes}
    (h : r.Rest ([0, 0, 0, 0, 0, 0, 0xff, 0xff] ++ x)) :
    r.readNullableUtf16 = .ok (some []) (r.advance 8) := by
  have hf := h.fin_pos
  simp only [List.length_append, List.length_cons, List.length_nil] at hf
  have h1 : r.Rest ([0, 0, 0, 0] ++ ([0, 0] ++ ([0xff, 0xff] ++ x))) := h
  unfold Reader.readNullableUtf16
  rw [if_pos (by omega), deref_rest h1 (by simp)]
  simp only [show leVal [0, 0, 0, 0] = 0 from rfl]
  rw [if_neg (by decide), if_pos (by decide), if_pos (by decide), if_pos (by simp [align4]; omega)]
  rw [deref_rest_at h1 (by simp) (by simp)]
  rfl

theorem readByteArray_none {r : Reader} {x : Bytes} (h : r.Rest (leBytes 4 0xffffffff ++ x)) :
    r.readByteArray = .ok [] (r.advance 4) := by
  unfold Reader.readByteArray
  rw [canRead_rest h (by simp)]
  simp only [if_true]
  rw [deref_rest h (by simp)]
  rfl

theorem readByteArray_rest {r : Reader} {d x : Bytes} (hd : 0 < d.length) (hl : d.length < 2 ^ 31)
    (h : r.Rest ((leBytes 4 d.length ++ (d ++
      List.replicate (align4 d.length - d.length) 0xff)) ++ x)) :
    r.readByteArray = .ok d (r.advance (4 + align4 d.length)) := by
  have hb := le_align4 d.length
  unfold Reader.readByteArray
  rw [canRead_rest h (by simp)]
  simp only [if_true]
  have h1 : r.Rest (leBytes 4 d.length ++ (d ++ (
      List.replicate (align4 d.length - d.length) 0xff ++ x))) := by
    simpa only [List.append_assoc] using h
  rw [deref_rest h1 (by simp)]
  have hv : leVal (leBytes 4 d.length) = d.length :=
    leVal_leBytes_of_lt (by have : (256 : Nat) ^ 4 = 2 ^ 32 := by decide
                            omega)
  simp only [hv]
  rw [if_neg (by omega), canRead_rest h (by simp only [List.length_append, length_leBytes]; omega)]
  simp only [if_true]
  rw [deref_rest_at h1 (by simp) rfl]

end Reader
end Gb
