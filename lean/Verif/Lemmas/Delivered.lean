import Verif.Lemmas.Transfer
import Verif.Lemmas.Plain
/-
Plain data between the objects of a parcel isn't changed when the parcel is transferred.
-/
set_option autoImplicit false

namespace Gb
open Writer Reader Kernel

theorem Placed.get {io : Io} {b : Bytes} {lo : Nat} {o : List Nat} {s : List Obj} (h : Placed io b lo o s) :
    ∀ {i off : Nat}, o[i]? = some off → ∃ (x : Obj) (a c : Bytes),
      b = a ++ (x.bytes io ++ c) ∧ off = a.length := by
  induction h with
  | nil => intro i off hi; cases i <;> cases hi
  | @cons lo o os x xs a c hb ho hlo _ ih =>
    intro i off hi
    cases i with
    | zero => cases hi; exact ⟨x, a, c, hb, ho⟩
    | succ i => exact ih (by simpa using hi)

/-- The bytes which were appended by calls which don't append objects, at the receiving end. -/
theorem kept {io : Io} {src dst : Mem} {w0 w' : Writer} {d b' : Bytes} {n : Nat} {s rest : List Obj}
    {objs : List KObj} {addr : Nat → Nat} {al : Bool} (hio : w0.io = io)
    (hb : Built io al w0.bytes w0.offsets n s)
    (g : Grows false { w0 with bytes := w0.bytes ++ d } w' rest)
    (t : Transfer io src w'.bytes w'.offsets objs addr dst b') :
    ∃ y, b'.drop w0.bytes.length = d ++ y := by
  obtain ⟨r, hr, _⟩ := g.tail
  obtain ⟨o, ho⟩ := g.offs
  simp only at hr ho
  have hkeep : ∀ k, w0.bytes.length ≤ k → k < w0.bytes.length + d.length → b'[k]? = w'.bytes[k]? := by
    intro k h1 h2
    refine t.data k (by rw [hr]; simp; omega) ?_
    intro i off x sz hi hg
    by_cases hlt : i < w0.offsets.length
    · rw [ho, List.getElem?_append_left hlt] at hi
      obtain ⟨y, a, c, hbb, hoff⟩ := hb.placed.get hi
      have hgo : getObject io w'.bytes off = some (y.kernel io, y.ksize io) := by
        rw [hr, hbb, hoff, show a ++ (y.bytes io ++ c) ++ d ++ r = a ++ (y.bytes io ++ (c ++ d ++ r)) by
          simp [List.append_assoc]]
        exact getObject_bytes io y a _
      rw [hgo] at hg
      cases hg
      have hk := y.ksize_le io
      have hl := congrArg List.length hbb
      simp only [List.length_append] at hl
      right
      omega
    · rw [ho, List.getElem?_append_right (by omega)] at hi
      have := g.late o ho off (List.mem_of_getElem? hi)
      simp only [List.length_append] at this
      left
      omega
  refine ⟨(b'.drop w0.bytes.length).drop d.length, ?_⟩
  have hlen : w0.bytes.length + d.length ≤ b'.length := by rw [t.size, hr]; simp
  have htd : (b'.drop w0.bytes.length).take d.length = d := by
    have h1 : (w'.bytes.drop w0.bytes.length).take d.length = d := by
      rw [hr, List.append_assoc, List.drop_left, List.take_left]
    exact (take_drop_congr (n := d.length) hkeep).trans h1
  conv => lhs; rw [← List.take_append_drop d.length (b'.drop w0.bytes.length)]
  rw [htd]

theorem C01.readAll_pos (r : Reader) (vs : List C01.Value) (x : Bytes) (h : ∀ v ∈ vs, v.Ok)
    (hr : r.Rest (vs.flatMap C01.Value.enc ++ x)) :
    C01.readAll r (vs.map C01.Value.ty) =
      .ok (vs.map C01.Value.seen) (r.advance (vs.flatMap C01.Value.enc).length) := by
  induction vs generalizing r with
  | nil => rfl
  | cons v vs ih =>
    rw [List.flatMap_cons, List.append_assoc] at hr
    have h1 := ih (r.advance v.enc.length) (fun u hu => h u (by simp [hu])) (hr.advance rfl)
    simp only [List.map_cons, C01.readAll, C01.read_eq r v _ (h v (by simp)) hr, Res.bind, h1, Res.map,
      List.flatMap_cons, List.length_append]
    simp only [Reader.advance, Nat.add_assoc]

end Gb
