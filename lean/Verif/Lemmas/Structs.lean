import Verif.Spec.Structs
import Verif.Lemmas.FmqDesc
/-
HIDL structures as Android reads them.
-/
set_option autoImplicit false

namespace Gb.C84
open Writer Reader Kernel Android

/-! ### Stages of writing -/

def Start (io : Io) (v : Writer) : Prop := v.io = io ∧ ∃ s, Built io false v.bytes v.offsets v.buffersSize s

def Ends (v w' : Writer) : Prop := ∃ rest, Grows false v w' rest

theorem Start.grows {io : Io} {v v1 : Writer} {new : List Obj} (h : Start io v) (g : Grows false v v1 new) :
    Start io v1 := by
  obtain ⟨h1, s, h2⟩ := h
  refine ⟨g.io.trans h1, s ++ new, ?_⟩
  have := g.built s (by rw [h1]; exact h2)
  rwa [h1] at this

theorem Ends.grows {v v1 w' : Writer} {new : List Obj} (h : Ends v1 w') (g : Grows false v v1 new) : Ends v w' := by
  obtain ⟨r, h⟩ := h
  exact ⟨_, g.trans h⟩

theorem Ends.le {v w' : Writer} (h : Ends v w') : v.offsets.length ≤ w'.offsets.length := by
  obtain ⟨r, h⟩ := h
  have := h.count
  omega

section
variable {e : Env} {io : Io} {w' : Writer} {objs : List KObj} {addr : Nat → Nat} {dst : Mem} {b' : Bytes}

theorem placed (t : Transfer io w'.mem w'.bytes w'.offsets objs addr dst b') {v : Writer} {x : Obj}
    (hs : Start io v) (he : Ends (v.push x) w') :
    objs[v.offsets.length]? = some (x.kernel io) ∧ w'.offsets[v.offsets.length]? = some v.bytes.length := by
  obtain ⟨hio, s, hs⟩ := hs
  obtain ⟨rest, g⟩ := he
  have hb := ((Grows.push false v x).trans g).built s (by rw [hio]; exact hs)
  rw [hio] at hb
  have hfound := t.found
  unfold accepts at hfound
  split at hfound
  · rw [hb.placed.getObjects 0 (Nat.le_refl _)] at hfound
    simp only [Option.some.injEq] at hfound
    have hsl := hs.length_eq
    constructor
    · rw [← hfound, hsl, List.map_append, List.getElem?_append_right (by simp)]
      simp
    · obtain ⟨o, ho⟩ := g.offs
      rw [ho]
      simp [Writer.push]
  · cases hfound

theorem placed_buf (t : Transfer io w'.mem w'.bytes w'.offsets objs addr dst b') {v : Writer} {p n : Nat} {q : Parent}
    (hs : Start io v) (he : Ends (v.push (.buf p n (some q))) w') (hp : p < 256 ^ io.ptrSize) (hn : n < 2 ^ 32)
    (hi : q.index < 2 ^ 32) (ho : q.offset < 2 ^ 32) :
    objs[v.offsets.length]? = some (.buffer p n (some (q.index, q.offset))) ∧
      w'.offsets[v.offsets.length]? = some v.bytes.length := by
  have h := placed t hs he
  have := pow_ge io
  simp only [Obj.kernel, Option.map_some] at h
  rwa [Nat.mod_eq_of_lt hp, Nat.mod_eq_of_lt (by omega), Nat.mod_eq_of_lt (by omega), Nat.mod_eq_of_lt (by omega)] at h

theorem placed_parent (t : Transfer io w'.mem w'.bytes w'.offsets objs addr dst b') {v : Writer} {p n : Nat} {q : Parent}
    (hs : Start io v) (he : Ends (v.push (.buf p n (some q))) w')
    (hi : q.index < 2 ^ 32) (ho : q.offset < 2 ^ 32) :
    ∃ a l, objs[v.offsets.length]? = some (.buffer a l (some (q.index, q.offset))) := by
  have h := (placed t hs he).1
  have := pow_ge io
  simp only [Obj.kernel, Option.map_some] at h
  rw [Nat.mod_eq_of_lt (show q.index < _ by omega), Nat.mod_eq_of_lt (show q.offset < _ by omega)] at h
  exact ⟨_, _, h⟩

/-- Parents come first. -/
theorem parent_lt (t : Transfer io w'.mem w'.bytes w'.offsets objs addr dst b') {j i : Nat} {x : KObj}
    (hj : objs[j]? = some x) (hx : kparent x = some i) : i < j := by
  obtain ⟨r, hfix⟩ := t.fixed
  have hc := fixups_childOk hfix j x hj
  cases x with
  | buffer a l par =>
    cases par with
    | none => cases hx
    | some q => cases hx; simpa using hc.1
  | fda n q off => cases hx; simpa using hc.1
  | _ => cases hx

/-! ### Who refers to whom -/

theorem push_length (v : Writer) (x : Obj) : (v.push x).offsets.length = v.offsets.length + 1 := by simp [Writer.push]

/-- The object `j` refers to the buffer of the structure, or to an object which is newer than that. -/
def Kid (objs : List KObj) (n : Nat) (par : Parent) (fs : List WField) (j : Nat) : Prop :=
  ∃ a l i o, objs[j]? = some (.buffer a l (some (i, o))) ∧
    ((i = par.index ∧ ∃ f ∈ fs, o = (par.offset + f.off) % 2 ^ 32) ∨ n ≤ i)

theorem items_grows {buf size idx : Nat} {fs : List WField} : ∀ (l : List Nat) (v v1 : Writer),
    l.foldlM (m := Except UB) (fun w i => appendFields e w (buf + size * i % 2 ^ 32)
      { index := idx, offset := size * i % 2 ^ 32 } fs) v = .ok v1 → ∃ new, Grows false v v1 new
  | [], v, v1, h => by cases h; exact ⟨_, Grows.refl false v⟩
  | i :: l, v, v1, h => by
    rw [List.foldlM_cons] at h
    obtain ⟨v2, h2, h⟩ := bind_ok h
    obtain ⟨n1, g1⟩ := appendFields_grows (al := false) fs h2
    obtain ⟨n2, g2⟩ := items_grows l v2 v1 h
    exact ⟨_, g1.trans g2⟩

theorem items_kids {buf size idx : Nat} {fs : List WField}
    (hf : ∀ v obj par v1, appendFields e v obj par fs = .ok v1 → Start io v → Ends v1 w' →
      par.index < v.offsets.length → ∀ j, v.offsets.length ≤ j → j < v1.offsets.length →
      Kid objs v.offsets.length par fs j) : ∀ (n : Nat) (v v1 : Writer),
    (List.range n).foldlM (m := Except UB) (fun w i => appendFields e w (buf + size * i % 2 ^ 32)
      { index := idx, offset := size * i % 2 ^ 32 } fs) v = .ok v1 → Start io v → Ends v1 w' →
    idx < v.offsets.length → ∀ j, v.offsets.length ≤ j → j < v1.offsets.length →
    ∃ a l i o, objs[j]? = some (.buffer a l (some (i, o))) ∧
      ((i = idx ∧ ∃ k < n, ∃ f ∈ fs, o = (size * k % 2 ^ 32 + f.off) % 2 ^ 32) ∨ v.offsets.length ≤ i)
  | 0, v, v1, h, _, _, _, j, h1, h2 => by cases h; omega
  | n + 1, v, v1, h, hs, he, hi, j, h1, h2 => by
    rw [List.range_succ, List.foldlM_append] at h
    obtain ⟨v2, hv2, h⟩ := bind_ok h
    rw [List.foldlM_cons] at h
    obtain ⟨v3, hv3, h⟩ := bind_ok h
    cases h
    obtain ⟨n1, g1⟩ := items_grows _ _ _ hv2
    obtain ⟨n2, g2⟩ := appendFields_grows (al := false) fs hv3
    have hc := g1.count
    by_cases hj : j < v2.offsets.length
    · obtain ⟨a, l, i, o, h3, h4⟩ := items_kids hf n v v2 hv2 hs (he.grows g2) hi j h1 hj
      refine ⟨a, l, i, o, h3, ?_⟩
      rcases h4 with ⟨h4, k, hk, h5⟩ | h4
      · exact .inl ⟨h4, k, by omega, h5⟩
      · exact .inr h4
    · obtain ⟨a, l, i, o, h3, h4⟩ := hf v2 _ _ v1 hv3 (hs.grows g1) he (by simp only; omega) j (by omega) h2
      refine ⟨a, l, i, o, h3, ?_⟩
      rcases h4 with ⟨h4, h5⟩ | h4
      · exact .inl ⟨h4, n, by omega, h5⟩
      · exact .inr (by omega)

mutual
theorem field_kids (t : Transfer io w'.mem w'.bytes w'.offsets objs addr dst b') (hfew : w'.offsets.length < 2 ^ 32)
    {w w1 : Writer} {obj : Nat} {par : Parent} : (f : WField) → appendField e w obj par f = .ok w1 →
    Start io w → Ends w1 w' → par.index < w.offsets.length → ∀ j, w.offsets.length ≤ j → j < w1.offsets.length →
    Kid objs w.offsets.length par [f] j
  | .ptr off size _, h, hs, he, hi, j, h1, h2 => by
    simp only [appendField] at h
    obtain ⟨p, _, h⟩ := bind_ok h
    simp only [appendBufferObject_eq, bind, Except.bind] at h
    cases h
    have hl := he.le
    rw [push_length] at h2 hl
    cases (show j = w.offsets.length by omega)
    obtain ⟨a, l, h3⟩ := placed_parent t hs he (by simp only [Parent.plus]; omega) (Nat.mod_lt _ (by omega))
    exact ⟨a, l, _, _, h3, .inl ⟨rfl, _, List.mem_singleton.mpr rfl, rfl⟩⟩
  | .str off, h, hs, he, hi, j, h1, h2 => by
    simp only [appendField] at h
    obtain ⟨p, _, h⟩ := bind_ok h
    obtain ⟨n, _, h⟩ := bind_ok h
    simp only [appendBufferObject_eq, bind, Except.bind] at h
    cases h
    have hl := he.le
    rw [push_length] at h2 hl
    cases (show j = w.offsets.length by omega)
    obtain ⟨a, l, h3⟩ := placed_parent t hs he (by simp only [Parent.plus]; omega) (Nat.mod_lt _ (by omega))
    exact ⟨a, l, _, _, h3, .inl ⟨rfl, _, List.mem_singleton.mpr rfl, rfl⟩⟩
  | .vec off size fields, h, hs, he, hi, j, h1, h2 => by
    simp only [appendField] at h
    obtain ⟨p, _, h⟩ := bind_ok h
    obtain ⟨n, _, h⟩ := bind_ok h
    simp only [appendBufferObject_eq, bind, Except.bind] at h
    obtain ⟨new, g⟩ := items_grows _ _ _ h
    have gp := Grows.push false w (.buf p (n * size % 2 ^ 64) (some (par.plus off)))
    have hl := he.le
    by_cases hj : j = w.offsets.length
    · subst hj
      obtain ⟨a, l, h3⟩ := placed_parent t hs (he.grows g) (by simp only [Parent.plus]; omega) (Nat.mod_lt _ (by omega))
      exact ⟨a, l, _, _, h3, .inl ⟨rfl, _, List.mem_singleton.mpr rfl, rfl⟩⟩
    · obtain ⟨a, l, i, o, h3, h4⟩ := items_kids
        (fun v obj par v1 h hs he hi => fields_kids t hfew fields h hs he hi) n _ _ h (hs.grows gp) he
        (by rw [push_length]; omega) j (by rw [push_length]; omega) h2
      refine ⟨a, l, i, o, h3, .inr ?_⟩
      rw [push_length] at h4
      rcases h4 with ⟨h4, _⟩ | h4 <;> omega
  | .vecNoType off, h, hs, he, hi, j, h1, h2 => by
    simp only [appendField] at h
    obtain ⟨p, _, h⟩ := bind_ok h
    simp only [appendBufferObject_eq, bind, Except.bind] at h
    cases h
    have hl := he.le
    rw [push_length] at h2 hl
    cases (show j = w.offsets.length by omega)
    obtain ⟨a, l, h3⟩ := placed_parent t hs he (by simp only [Parent.plus]; omega) (Nat.mod_lt _ (by omega))
    exact ⟨a, l, _, _, h3, .inl ⟨rfl, _, List.mem_singleton.mpr rfl, rfl⟩⟩

theorem fields_kids (t : Transfer io w'.mem w'.bytes w'.offsets objs addr dst b') (hfew : w'.offsets.length < 2 ^ 32)
    {w w1 : Writer} {obj : Nat} {par : Parent} : (fs : List WField) → appendFields e w obj par fs = .ok w1 →
    Start io w → Ends w1 w' → par.index < w.offsets.length → ∀ j, w.offsets.length ≤ j → j < w1.offsets.length →
    Kid objs w.offsets.length par fs j
  | [], h, _, _, _, j, h1, h2 => by
    simp only [appendFields] at h
    cases h
    omega
  | f :: fs, h, hs, he, hi, j, h1, h2 => by
    simp only [appendFields] at h
    obtain ⟨w2, hf, h⟩ := bind_ok h
    obtain ⟨n1, g1⟩ := appendField_grows (al := false) f hf
    obtain ⟨n2, g2⟩ := appendFields_grows (al := false) fs h
    have hc := g1.count
    by_cases hj : j < w2.offsets.length
    · obtain ⟨a, l, i, o, h3, h4⟩ := field_kids t hfew f hf hs (he.grows g2) hi j h1 hj
      refine ⟨a, l, i, o, h3, ?_⟩
      rcases h4 with ⟨h4, g, hg, h5⟩ | h4
      · cases List.mem_singleton.mp hg
        exact .inl ⟨h4, f, by simp, h5⟩
      · exact .inr h4
    · obtain ⟨a, l, i, o, h3, h4⟩ := fields_kids t hfew fs h (hs.grows g1) he (by omega) j (by omega) h2
      refine ⟨a, l, i, o, h3, ?_⟩
      rcases h4 with ⟨h4, g, hg, h5⟩ | h4
      · exact .inl ⟨h4, g, by simp [hg], h5⟩
      · exact .inr (by omega)
end

end
end Gb.C84
