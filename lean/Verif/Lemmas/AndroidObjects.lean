import Verif.Spec.AndroidObjects
import Verif.Spec.References
import Verif.Lemmas.Delivered
import Verif.Lemmas.Android
/-
References to objects as Android reads them.
-/
set_option autoImplicit false

namespace Gb
open Writer Reader Kernel

/-- Bytes outside of objects: those appended between `w0` and `w1`, except for the object which may be there. -/
theorem outside {io : Io} {w0 w1 w' : Writer} {d : Bytes} {o1 : List Nat} {n k : Nat} {s rest : List Obj} {al : Bool}
    (hb : Built io al w0.bytes w0.offsets n s) (hw : w1.bytes = w0.bytes ++ d) (ho1 : w1.offsets = w0.offsets ++ o1)
    (g : Grows false w1 w' rest)
    (hx : ∀ o ∈ o1, ∀ x sz, getObject io w'.bytes o = some (x, sz) → o + sz ≤ k)
    (h1 : w0.bytes.length ≤ k) (h2 : k < w1.bytes.length) :
    ∀ (i : Nat) off x sz, w'.offsets[i]? = some off → getObject io w'.bytes off = some (x, sz) →
      k < off ∨ off + sz ≤ k := by
  obtain ⟨r, hr, _⟩ := g.tail
  obtain ⟨o, ho⟩ := g.offs
  intro i off x sz hi hg
  have hm := List.mem_of_getElem? hi
  rw [ho, ho1] at hm
  rcases List.mem_append.mp hm with hm | hm
  · rcases List.mem_append.mp hm with hm | hm
    · obtain ⟨j, hj⟩ := List.mem_iff_getElem?.mp hm
      obtain ⟨y, a, c, hbb, hoff⟩ := hb.placed.get hj
      have hgo : getObject io w'.bytes off = some (y.kernel io, y.ksize io) := by
        rw [hr, hw, hbb, hoff, show a ++ (y.bytes io ++ c) ++ d ++ r = a ++ (y.bytes io ++ (c ++ d ++ r)) by
          simp [List.append_assoc]]
        exact getObject_bytes io y a _
      rw [hgo] at hg
      cases hg
      have hk := y.ksize_le io
      have hl := congrArg List.length hbb
      simp only [List.length_append] at hl
      right
      omega
    · exact .inr (hx off hm x sz hg)
  · have := g.late o ho off hm
    left
    omega

theorem num_same {b b' : Bytes} {p n : Nat} (h : ∀ k, p ≤ k → k < p + n → b'[k]? = b[k]?) :
    Android.num b' p n = Android.num b p n := by
  induction n generalizing p with
  | zero => rfl
  | succ n ih =>
    simp only [Android.num, Android.byte]
    rw [h p (Nat.le_refl _) (by omega), ih fun k h1 h2 => h k (by omega) (by omega)]

theorem num_field (b : Bytes) {p n : Nat} (h : p + n ≤ b.length) : Android.num b p n = fieldAt b p n :=
  C80.num_eq b p n h

end Gb
