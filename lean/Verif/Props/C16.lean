import Verif.Lemmas.Copy
import Verif.Spec.Demo
/-
C16. Copying a received parcel is faithful.

`Copy.Whole` (Spec/Copy.lean): the received parcel consists of whole objects at the offsets
reported by the driver, with data in between.
-/
set_option autoImplicit false

namespace Gb.C16
open Writer Kernel Copy

theorem counted_eq {io : Io} {data : Bytes} {o : Nat} (h : fieldAt data o 4 ≠ tFda) :
    countedAt io data o = buffers io data o := by
  unfold countedAt buffers
  cases hg : getObject io data o with
  | none => rfl
  | some y =>
    obtain ⟨x, sz⟩ := y
    have := (sizes_of_getObject .aidl hg).2.2.2.2.2
    cases x with
    | fda n i off => exact absurd (this.mpr ⟨n, i, off, rfl⟩) h
    | _ => simp [countedSize, extra, align8]

theorem counted_ge (io : Io) (data : Bytes) (o : Nat) :
    buffers io data o ≤ countedAt io data o := by
  unfold countedAt buffers
  cases hg : getObject io data o with
  | none => exact Nat.le_refl _
  | some y =>
    obtain ⟨x, sz⟩ := y
    cases x <;> simp [countedSize, extra, align8]

theorem sum_le {l : List Nat} {f g : Nat → Nat} (h : ∀ x, f x ≤ g x) :
    (l.map f).sum ≤ (l.map g).sum := by
  induction l with
  | nil => exact Nat.le_refl _
  | cons a l ih => simp only [List.map_cons, List.sum_cons]; have := h a; omega

theorem sum_congr {l : List Nat} {f g : Nat → Nat} (h : ∀ x ∈ l, f x = g x) :
    (l.map f).sum = (l.map g).sum := by
  rw [List.map_congr_left h]

/-- Without a converter nothing is translated. -/
theorem untouched_none {io : Io} {p : Protocol} {data : Bytes} {objs : List Nat} (k : Nat) :
    Untouched io p (convFn none) data objs k := by
  intro o _ l hl
  exact absurd hl.2 (by simp [convFn])

/-- C16 in general: the part of the buffer behind the first `off` bytes is appended. Objects stay
where they are relative to the rest. The copy keeps the received buffer. -/
theorem C16_append (e : Env) (w : Writer) (src : RxBuffer) (off : Nat)
    (convert : Option (Nat → Option LocalRef))
    (h : Whole w.io src.protocol src.data off src.objects) :
    ∃ w' out, appendContents e w src off convert = .ok w' ∧
      w'.bytes = w.bytes ++ out ∧ out.length = src.data.length - off ∧
      w'.offsets = w.offsets ++ src.objects.map (fun o => w.bytes.length + (o - off)) ∧
      (∀ k, Untouched w.io src.protocol (convFn convert) src.data src.objects (off + k) →
        out[k]? = src.data[off + k]?) ∧
      (∀ o ∈ src.objects, ∀ l, Translated (convFn convert) src.data o l →
        getObject w.io w'.bytes (w.bytes.length + (o - off)) =
          some (.binder (l.addr % 256 ^ word w.io) 0, 8 + 2 * word w.io)) ∧
      w'.buffersSize = w.buffersSize + (src.objects.map (countedAt w.io src.data)).sum ∧
      .unrefBuffer src.id ∈ w'.cleanup ∧ w'.cleanup = w.cleanup ++ (.unrefBuffer src.id ::
        translatedRefs (convFn convert) src.data src.objects) := by
  obtain ⟨off', w1, out, hf, g1, g2, g3, g4, g5, g6, g7, g8, g9, g10, g11⟩ :=
    copyObjects (e := e) convert src.objects (w := addCleanup w (.unrefBuffer src.id)) h
  have hcl : w1.cleanup = w.cleanup ++ (.unrefBuffer src.id ::
      translatedRefs (convFn convert) src.data src.objects) := by
    rw [g9]; simp [addCleanup]
  have hol : off ≤ src.data.length := whole_le h
  have hfin : (if off' < src.data.length then { w1 with bytes := w1.bytes ++ src.data.drop off' } else w1) =
      { w1 with bytes := w1.bytes ++ src.data.drop off' } := by
    split
    · rfl
    · rw [List.drop_eq_nil_of_le (by omega)]; simp
  refine ⟨{ w1 with bytes := w1.bytes ++ src.data.drop off' }, out ++ src.data.drop off', ?_, ?_, ?_, g7,
    ?_, ?_, g8, ?_, hcl⟩
  · unfold appendContents
    simp only [hf, bind, Except.bind]
    rw [hfin]
  · simp only [g6, addCleanup, List.append_assoc]
  · simp only [List.length_append, List.length_drop]; omega
  · intro k hun
    by_cases hk : k < out.length
    · rw [List.getElem?_append_left hk]
      exact g10 k hk hun
    · rw [List.getElem?_append_right (by omega), List.getElem?_drop]
      congr 1
      omega
  · intro o ho l hl
    obtain ⟨a, c, hac, hal⟩ := g11 o ho l hl
    have := getObject_bytes w.io (.loc src.protocol l) (w.bytes ++ a) (c ++ src.data.drop off')
    simp only [Obj.bytes, Obj.kernel, Obj.ksize, List.length_append] at this
    have hfl : w.io.flatSize = 8 + 2 * word w.io := by rw [word_eq]; unfold Io.flatSize; omega
    rw [hfl, ← word_eq] at this
    rw [← this]
    congr 1
    · simp only [g6, hac, addCleanup, List.append_assoc]
    · omega
  · simp only [hcl]; simp

/-- C16 for copies without conversion: the same bytes, the same offsets. What the writer
contained is released. -/
theorem C16_copy (e : Env) (w : Writer) (src : RxBuffer)
    (h : Whole w.io src.protocol src.data 0 src.objects) :
    ∃ w', setContents e w src none = .ok (w.cleanup, w') ∧
      w'.bytes = src.data ∧ w'.offsets = src.objects ∧ .unrefBuffer src.id ∈ w'.cleanup := by
  obtain ⟨w', out, h1, h2, h3, h4, h5, _, _, h8, _⟩ := C16_append e
    { w with bytes := [], offsets := [], buffersSize := 0, cleanup := [] } src 0 none h
  refine ⟨w', ?_, ?_, ?_, h8⟩
  · unfold setContents
    simp only [h1, bind, Except.bind]
  · rw [h2, List.nil_append]
    apply List.ext_getElem?
    intro k
    have := h5 k (untouched_none _)
    rwa [Nat.zero_add] at this
  · rw [h4]; simp

/-- C16 with a converter: objects stay where they were, those translated are replaced with
local objects, all other bytes are the same. -/
theorem C16_convert (e : Env) (w : Writer) (src : RxBuffer) (f : Nat → Option LocalRef)
    (h : Whole w.io src.protocol src.data 0 src.objects) :
    ∃ w', setContents e w src (some f) = .ok (w.cleanup, w') ∧
      w'.bytes.length = src.data.length ∧ w'.offsets = src.objects ∧
      (∀ k, Untouched w.io src.protocol f src.data src.objects k → w'.bytes[k]? = src.data[k]?) ∧
      (∀ o ∈ src.objects, ∀ l, Translated f src.data o l →
        getObject w.io w'.bytes o = some (.binder (l.addr % 256 ^ word w.io) 0, 8 + 2 * word w.io)) := by
  obtain ⟨w', out, h1, h2, h3, h4, h5, h6, _, h8, _⟩ := C16_append e
    { w with bytes := [], offsets := [], buffersSize := 0, cleanup := [] } src 0 (some f) h
  refine ⟨w', ?_, ?_, ?_, ?_, ?_⟩
  · unfold setContents
    simp only [h1, bind, Except.bind]
  · rw [h2, List.nil_append, h3, Nat.sub_zero]
  · rw [h4]; simp
  · intro k hk
    rw [h2, List.nil_append]
    have := h5 k (by rw [Nat.zero_add]; exact hk)
    rwa [Nat.zero_add] at this
  · intro o ho l hl
    have := h6 o ho l hl
    simpa using this

/-- C16, size of the buffers: as many bytes as the kernel needs, if there are no arrays of
descriptors; at least as many in general. -/
theorem C16_buffers_partial (e : Env) (w w' : Writer) (src : RxBuffer)
    (convert : Option (Nat → Option LocalRef)) (cl : List CleanupItem)
    (h : Whole w.io src.protocol src.data 0 src.objects)
    (hw : setContents e w src convert = .ok (cl, w')) :
    (src.objects.map (buffers w.io src.data)).sum ≤ w'.buffersSize ∧
    (NoFda w.io src.data src.objects →
      w'.buffersSize = (src.objects.map (buffers w.io src.data)).sum) := by
  obtain ⟨w1, out, h1, _, _, _, _, _, h7, _⟩ := C16_append e
    { w with bytes := [], offsets := [], buffersSize := 0, cleanup := [] } src 0 convert h
  have : w1 = w' := by
    unfold setContents at hw
    simp only [h1, bind, Except.bind] at hw
    cases hw
    rfl
  subst this
  rw [h7]
  refine ⟨?_, fun hn => ?_⟩
  · rw [Nat.zero_add]; exact sum_le (fun o => counted_ge _ _ o)
  · rw [Nat.zero_add]
    exact sum_congr (fun o ho => counted_eq (hn o ho))

/-- A received parcel: an integer, an array of five descriptors which belongs to a buffer. -/
def fdaParcel : RxBuffer where
  id := 1
  protocol := .hidl
  data := leBytes 4 7 ++ encodeBufferObject .io32 0x1000 20 none ++
    encodeFdaObject .io32 5 { index := 0, offset := 0 }
  objects := [4, 28]

/-- C16 fails for arrays of descriptors: eight times three bytes are counted which nobody needs
(the original parcel had 24). -/
theorem C16_fails_buffers : ∃ (e : Env) (w w' : Writer) (src : RxBuffer) (cl : List CleanupItem),
    Whole w.io src.protocol src.data 0 src.objects ∧
    setContents e w src none = .ok (cl, w') ∧
    (src.objects.map (buffers w.io src.data)).sum = 24 ∧ w'.buffersSize = 48 := by
  have hw : Whole .io32 .hidl fdaParcel.data 0 fdaParcel.objects :=
    ⟨by decide, _, _, rfl, by decide, _, _, rfl, by unfold Whole; decide⟩
  obtain ⟨w', h1, _⟩ := C16_copy Demo.env { io := .io32, protocol := .hidl, mem := [] } fdaParcel hw
  have hv : (setContents Demo.env { io := .io32, protocol := .hidl, mem := [] } fdaParcel none).map
      (fun x => x.2.buffersSize) = .ok 48 := by decide +kernel
  rw [h1] at hv
  exact ⟨_, _, w', _, _, hw, h1, by decide +kernel, by simpa [Except.map] using hv⟩

/-- A parcel with a handle, data in between, a buffer. -/
def demoParcel : RxBuffer where
  id := 1
  protocol := .aidl3
  data := leBytes 4 7 ++ (encodeRemoteObject .io64 (some 5) ++ leBytes 4 12) ++ leBytes 4 9 ++
    encodeBufferObject .io64 0x1000 20 none ++ leBytes 4 1
  objects := [4, 36]

/-- The handle is translated. -/
example : Whole .io64 .aidl3 demoParcel.data 0 demoParcel.objects ∧
    NoFda .io64 demoParcel.data demoParcel.objects ∧
    Translated (fun h => if h = 5 then some { addr := 0x5550, stability := 12 } else none)
      demoParcel.data 4 { addr := 0x5550, stability := 12 } ∧
    Untouched .io64 .aidl3 (fun h => if h = 5 then some { addr := 0x5550, stability := 12 } else none)
      demoParcel.data demoParcel.objects 32 := by
  refine ⟨⟨by decide, _, _, rfl, by decide, _, _, rfl, by unfold Whole; decide⟩, ?_, ⟨by decide +kernel, by decide +kernel⟩, ?_⟩
  · intro o ho
    simp only [demoParcel, List.mem_cons, List.not_mem_nil, or_false] at ho
    rcases ho with rfl | rfl <;> decide +kernel
  · intro o ho l hl
    simp only [demoParcel, List.mem_cons, List.not_mem_nil, or_false] at ho
    rcases ho with rfl | rfl
    · simp [word]
    · exact absurd hl.1 (by decide +kernel)

end Gb.C16
