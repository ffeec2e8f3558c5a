import Verif.Lemmas.TransferCheck
import Verif.Spec.References
/-
A way to check that a particular parcel with references to objects meets the specification, for examples.
-/
set_option autoImplicit false

namespace Gb.Kernel

/-- References to objects become handles: the pointers, as they are. -/
def demoRefs (b : Bytes) (offs : List Nat) (objs : List KObj) : Bytes :=
  (List.range objs.length).foldl (fun b i => match (objs[i]? : Option KObj), (offs[i]? : Option Nat) with
    | some (KObj.binder ptr _), some o => poke (poke b o (leBytes 4 tHandle)) (o + 8) (leBytes 4 ptr)
    | _, _ => b) b

def checkRefs (io : Io) (b : Bytes) (offs : List Nat) (objs : List KObj) (b' : Bytes) : Bool :=
  getObjects io b 0 offs == some objs && b'.length == b.length &&
  ((List.range b.length).all fun k => covered io b offs k || b'[k]? == b[k]?) &&
  (List.range objs.length).all fun i => match objs[i]?, offs[i]? with
    | some (KObj.binder ptr _), some o => fieldAt b' o 4 == tHandle && fieldAt b' (o + 8) 4 == ptr
    | some (KObj.handle h), some o => fieldAt b' o 4 == tHandle && fieldAt b' (o + 8) 4 == h
    | _, _ => true

theorem checkRefs_sound {io : Io} {b : Bytes} {offs : List Nat} {objs : List KObj} {b' : Bytes}
    (h : checkRefs io b offs objs b' = true) : References io b offs objs id some b' := by
  unfold checkRefs at h
  simp only [Bool.and_eq_true, beq_iff_eq, List.all_eq_true, List.mem_range] at h
  obtain ⟨⟨⟨h1, h2⟩, h3⟩, h4⟩ := h
  refine ⟨h1, h2, ?_, ?_, fun _ _ h => h, ?_⟩
  · intro k hk hc
    have := h3 k hk
    rw [Bool.or_eq_true] at this
    rcases this with ht | ht
    · exfalso
      unfold covered at ht
      rw [List.any_eq_true] at ht
      obtain ⟨o, ho, ht⟩ := ht
      obtain ⟨i, hi⟩ := List.getElem?_of_mem ho
      split at ht
      · rename_i x n hg
        simp only [Bool.and_eq_true, decide_eq_true_eq] at ht
        have := hc i o x n hi hg
        omega
      · cases ht
    · simpa using ht
  · intro i o ptr cookie ho hx _
    have := h4 i (List.getElem?_eq_some_iff.mp hx).1
    rw [hx, ho] at this
    simpa using this
  · intro i o hd ho hx _
    have := h4 i (List.getElem?_eq_some_iff.mp hx).1
    rw [hx, ho] at this
    simpa using this

/-- Is the parcel transferred according to both specifications? -/
def demoBoth (w : Writer) : Bool :=
  let b' := demoRefs (demoData w.io w.bytes w.offsets (demoObjs w)) w.offsets (demoObjs w)
  checkTransfer w.io w.mem w.bytes w.offsets (demoObjs w) demoAddr (demoDst w.io w.mem (demoObjs w)) b' &&
  checkRefs w.io w.bytes w.offsets (demoObjs w) b'

theorem demoBoth_sound {w : Writer} (h : demoBoth w = true) : ∃ dst b',
    Transfer w.io w.mem w.bytes w.offsets (demoObjs w) demoAddr dst b' ∧
    References w.io w.bytes w.offsets (demoObjs w) id some b' := by
  unfold demoBoth at h
  simp only [Bool.and_eq_true] at h
  exact ⟨_, _, checkTransfer_sound h.1, checkRefs_sound h.2⟩

end Gb.Kernel
