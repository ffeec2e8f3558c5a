import Verif.Lemmas.Transfer
import Verif.Spec.Copy
/-
Copying received parcels.
-/
set_option autoImplicit false

namespace Gb
open Writer Kernel Copy

/-- What object_data_size makes of an object. -/
def countedSize (io : Io) : KObj → Nat
  | .buffer _ len _ => len
  | .fda n _ _ => n * 4 % 256 ^ io.ptrSize
  | _ => 0

/-- An object as the kernel sees it, and as gbinder_io.c does. -/
theorem sizes_of_getObject {io : Io} {b : Bytes} {o sz : Nat} {x : KObj} (p : Protocol)
    (h : getObject io b o = some (x, sz)) :
    u32At b o = some (fieldAt b o 4) ∧ objectSize io p b o = some (sz + annotation p x) ∧
    objectDataSize io b o = some (countedSize io x) ∧ o + sz ≤ b.length ∧
    (fieldAt b o 4 = tHandle → x = .handle (fieldAt b (o + 8) 4) ∧ sz = io.flatSize ∧
      u32At b (o + 8) = some (fieldAt b (o + 8) 4)) ∧
    (fieldAt b o 4 = tFda ↔ ∃ n i off, x = .fda n i off) := by
  have hp := ptr_pos io
  have h4 : 4 ≤ io.ptrSize := by cases io <;> decide
  unfold getObject at h
  simp only [word_eq] at h
  split at h
  · cases h
  rename_i hf4
  have hf4 : o + 4 ≤ b.length := by omega
  have hu := u32At_field hf4
  have e1 : tBinder = typeBinder := by decide
  have e2 : tWeakBinder = typeWeakBinder := by decide
  have e3 : tHandle = typeHandle := by decide
  have e4 : tWeakHandle = typeWeakHandle := by decide
  have e5 : tFd = typeFd := by decide
  have e6 : tFda = typeFda := by decide
  have e7 : tPtr = typePtr := by decide
  have hfl : io.flatSize = 8 + 2 * io.ptrSize := by unfold Io.flatSize; omega
  have hfd : io.fdaSize = 8 + 3 * io.ptrSize := rfl
  have hbo : io.bufferObjSize = 8 + 4 * io.ptrSize := rfl
  refine ⟨hu, ?_⟩
  unfold objectSize objectDataSize
  rw [hu]
  simp only [bind, Option.bind, ← e1, ← e2, ← e3, ← e4, ← e5, ← e6, ← e7]
  split at h
  · rename_i hty
    split at h
    · cases h
      rw [if_pos (by rcases hty with h | h <;> simp [h])]
      have hne : fieldAt b o 4 ≠ tPtr ∧ fieldAt b o 4 ≠ tFda ∧ fieldAt b o 4 ≠ tHandle := by
        rcases hty with h | h <;> rw [h] <;> decide
      rw [if_neg hne.1, if_neg hne.2.1]
      refine ⟨?_, rfl, by assumption, fun hc => absurd hc hne.2.2, ⟨fun hc => absurd hc hne.2.1, ?_⟩⟩
      · rw [hfl]; cases p <;> rfl
      · rintro ⟨n, i, off, h⟩; cases h
    · cases h
  split at h
  · rename_i hty
    split at h
    · rename_i hfit
      cases h
      rw [if_pos (by rcases hty with h | h <;> simp [h])]
      have hne : fieldAt b o 4 ≠ tPtr ∧ fieldAt b o 4 ≠ tFda := by
        rcases hty with h | h <;> rw [h] <;> decide
      rw [if_neg hne.1, if_neg hne.2]
      refine ⟨?_, rfl, hfit, fun hc => ⟨rfl, hfl.symm, u32At_field (by omega)⟩,
        ⟨fun hc => absurd hc hne.2, ?_⟩⟩
      · rw [hfl]; cases p <;> rfl
      · rintro ⟨n, i, off, h⟩; cases h
    · cases h
  rename_i hn1 hn2
  rw [if_neg (by
    intro hc
    rcases hc with hc | hc | hc | hc
    · exact hn1 (.inl hc)
    · exact hn1 (.inr hc)
    · exact hn2 (.inl hc)
    · exact hn2 (.inr hc))]
  have hnh : fieldAt b o 4 ≠ tHandle := fun hc => hn2 (.inl hc)
  split at h
  · rename_i hty
    split at h
    · rename_i hfit
      cases h
      rw [if_pos hty, if_neg (by rw [hty]; decide), if_neg (by rw [hty]; decide)]
      refine ⟨?_, rfl, hfit, fun hc => absurd hc hnh, ⟨fun hc => ?_, ?_⟩⟩
      · rw [hfl]; cases p <;> rfl
      · rw [hty] at hc; exact absurd hc (by decide)
      · rintro ⟨n, i, off, h⟩; cases h
    · cases h
  rename_i hn3
  rw [if_neg hn3]
  split at h
  · rename_i hty
    split at h
    · rename_i hfit
      cases h
      rw [if_pos hty, if_neg (by rw [hty]; decide), if_pos hty, uptrAt_field (by omega)]
      refine ⟨?_, rfl, hfit, fun hc => absurd hc hnh, ⟨fun _ => ⟨_, _, _, rfl⟩, fun _ => hty⟩⟩
      rw [hfd]; cases p <;> rfl
    · cases h
  rename_i hn4
  rw [if_neg hn4]
  split at h
  · rename_i hty
    split at h
    · rename_i hfit
      cases h
      rw [if_pos hty, if_pos hty, uptrAt_field (by omega)]
      refine ⟨?_, rfl, hfit, fun hc => absurd hc hnh, ⟨fun hc => absurd hc hn4, ?_⟩⟩
      · rw [hbo]; cases p <;> rfl
      · rintro ⟨n, i, off, h⟩; cases h
    · cases h
  · cases h

/-- The function behind a converter. -/
def convFn (convert : Option (Nat → Option LocalRef)) : Nat → Option LocalRef :=
  convert.getD (fun _ => none)

theorem copyObject_eq {e : Env} {w : Writer} {src : RxBuffer} {off o sz : Nat} {x : KObj}
    (convert : Option (Nat → Option LocalRef)) (h1 : off ≤ o)
    (h2 : getObject w.io src.data o = some (x, sz))
    (h3 : o + sz + annotation src.protocol x ≤ src.data.length) :
    ∃ piece cl, copyObject e src convert (off, w) o = .ok (o + sz + annotation src.protocol x,
      { w with bytes := w.bytes ++ ((src.data.drop off).take (o - off) ++ piece)
               offsets := w.offsets ++ [w.bytes.length + (o - off)]
               cleanup := w.cleanup ++ cl
               buffersSize := w.buffersSize + align8 (countedSize w.io x) }) ∧
      piece.length = sz + annotation src.protocol x ∧
      ((∀ l, ¬ Translated (convFn convert) src.data o l) →
        piece = (src.data.drop o).take (sz + annotation src.protocol x) ∧ cl = []) ∧
      (∀ l, Translated (convFn convert) src.data o l →
        sz = w.io.flatSize ∧ annotation src.protocol x = src.protocol.extra ∧
        piece = encodeLocalObject w.io src.protocol (some l) ∧ cl = [.unrefLocal l.addr]) := by
  obtain ⟨hty, hos, hds, hfit, hh, _⟩ := sizes_of_getObject src.protocol h2
  have e3 : tHandle = typeHandle := by decide
  -- the data before the object
  have hgap : (if off < o then { w with bytes := w.bytes ++ (src.data.drop off).take (o - off) } else w) =
      { w with bytes := w.bytes ++ (src.data.drop off).take (o - off) } := by
    split
    · rfl
    · rw [show o - off = 0 by omega]; simp
  have hoff : (if off < o then o else off) = o := by split <;> omega
  have hlen : (w.bytes ++ (src.data.drop off).take (o - off)).length = w.bytes.length + (o - off) := by
    rw [List.length_append, List.length_take, List.length_drop]
    omega
  -- the decision
  have hdec : decodeBinderHandle src.data o =
      .ok (if fieldAt src.data o 4 = tHandle then some (fieldAt src.data (o + 8) 4) else none) := by
    simp only [decodeBinderHandle, hty, ← e3]
    by_cases ht : fieldAt src.data o 4 = tHandle
    · rw [if_pos ht, if_pos ht, (hh ht).2.2]
    · rw [if_neg ht, if_neg ht]
  have hbind : ∀ f : Nat → Option LocalRef,
      (if fieldAt src.data o 4 = tHandle then some (fieldAt src.data (o + 8) 4) else none).bind f =
      if fieldAt src.data o 4 = tHandle then f (fieldAt src.data (o + 8) 4) else none := by
    intro f
    split <;> rfl
  unfold copyObject
  simp only [hgap, hoff, hos, hds, recordOffset]
  cases hd : (if fieldAt src.data o 4 = tHandle then convFn convert (fieldAt src.data (o + 8) 4) else none) with
  | none =>
    have hnt : ∀ l, ¬ Translated (convFn convert) src.data o l := by
      rintro l ⟨ht1, ht2⟩
      rw [if_pos ht1, ht2] at hd
      cases hd
    refine ⟨(src.data.drop o).take (sz + annotation src.protocol x), [], ?_, ?_, fun _ => ⟨rfl, rfl⟩,
      fun l hl => absurd hl (hnt l)⟩
    · have hs : slice src.data o (sz + annotation src.protocol x) =
          some ((src.data.drop o).take (sz + annotation src.protocol x)) := slice_of_le (by omega)
      cases convert with
      | none =>
        simp only [bind, Except.bind, hs, hlen]
        simp [Nat.add_assoc]
      | some f =>
        simp only [convFn, Option.getD_some] at hd
        simp only [bind, Except.bind, hdec, hbind, hd]
        simp only [hs, hlen]
        simp [Nat.add_assoc]
    · rw [List.length_take, List.length_drop]; omega
  | some l0 =>
    have ht : Translated (convFn convert) src.data o l0 := by
      unfold Translated
      split at hd
      · rename_i ht; exact ⟨ht, hd⟩
      · cases hd
    have hx := hh ht.1
    have hann : annotation src.protocol x = src.protocol.extra := by
      rw [hx.1]; cases src.protocol <;> rfl
    have hle := length_encodeLocalObject w.io src.protocol (some l0)
    refine ⟨encodeLocalObject w.io src.protocol (some l0), [.unrefLocal l0.addr], ?_, ?_, ?_, ?_⟩
    · cases convert with
      | none => simp [convFn] at hd
      | some f =>
        simp only [convFn, Option.getD_some] at hd
        simp only [bind, Except.bind, hdec, hbind, hd]
        rw [putObject_eq]
        · simp only [addCleanup, hlen, hle, hann, hx.2.1]
          simp [Nat.add_assoc]
        · have := flatSize_le w.io
          have h28 : w.io.flatSize + src.protocol.extra ≤ 28 := by
            cases w.io <;> cases src.protocol <;> decide
          simp only [maxBinderObjectSize]
          omega
    · rw [hle, hann, hx.2.1]
    · intro hc; exact absurd ht (hc l0)
    · intro l hl
      have : l = l0 := by
        have := hl.2.symm.trans ht.2
        cases this; rfl
      subst this
      exact ⟨hx.2.1, hann, rfl, rfl⟩

/-- The list of local objects referenced by the copy. -/
def translatedRefs (f : Nat → Option LocalRef) (data : Bytes) (objects : List Nat) : List CleanupItem :=
  objects.filterMap fun o =>
    if fieldAt data o 4 = tHandle then (f (fieldAt data (o + 8) 4)).map (fun l => .unrefLocal l.addr)
    else none

/-- Size counted for an object by append_contents. -/
def countedAt (io : Io) (data : Bytes) (o : Nat) : Nat :=
  match getObject io data o with
  | some (x, _) => align8 (countedSize io x)
  | none => 0

theorem whole_le {io : Io} {p : Protocol} {data : Bytes} : ∀ {objs : List Nat} {off : Nat},
    Whole io p data off objs → off ≤ data.length
  | [], _, h => h
  | o :: rest, off, h => by
    obtain ⟨h1, x, sz, h2, h3⟩ := h
    have := whole_le h3
    omega

theorem whole_ge {io : Io} {p : Protocol} {data : Bytes} : ∀ {objs : List Nat} {off : Nat},
    Whole io p data off objs → ∀ o ∈ objs, off ≤ o
  | [], _, _, o, ho => by cases ho
  | a :: rest, off, h, o, ho => by
    obtain ⟨h1, x, sz, h2, h3⟩ := h
    rcases List.mem_cons.mp ho with rfl | ho
    · exact h1
    · have := whole_ge h3 o ho
      omega

theorem copyObjects {e : Env} {src : RxBuffer} (convert : Option (Nat → Option LocalRef)) :
    ∀ (objs : List Nat) {off : Nat} {w : Writer}, Whole w.io src.protocol src.data off objs →
    ∃ off' w' out, objs.foldlM (copyObject e src convert) (off, w) = .ok (off', w') ∧
      off' ≤ src.data.length ∧ w'.io = w.io ∧ w'.protocol = w.protocol ∧ w'.mem = w.mem ∧
      out.length + off = off' ∧ w'.bytes = w.bytes ++ out ∧
      w'.offsets = w.offsets ++ objs.map (fun o => w.bytes.length + (o - off)) ∧
      w'.buffersSize = w.buffersSize + (objs.map (countedAt w.io src.data)).sum ∧
      w'.cleanup = w.cleanup ++ translatedRefs (convFn convert) src.data objs ∧
      (∀ k < out.length, Untouched w.io src.protocol (convFn convert) src.data objs (off + k) →
        out[k]? = src.data[off + k]?) ∧
      (∀ o ∈ objs, ∀ l, Translated (convFn convert) src.data o l →
        ∃ a c, out = a ++ (encodeLocalObject w.io src.protocol (some l) ++ c) ∧ a.length + off = o) := by
  intro objs
  induction objs with
  | nil =>
    intro off w h
    refine ⟨off, w, [], rfl, h, rfl, rfl, rfl, by simp, by simp, by simp, by simp, ?_, ?_, ?_⟩
    · simp [translatedRefs]
    · intro k hk; cases hk
    · intro o ho; cases ho
  | cons o rest ih =>
    intro off w h
    obtain ⟨h1, x, sz, h2, h3⟩ := h
    have hle := whole_le h3
    obtain ⟨piece, cl, hc, hpl, hu, ht⟩ := copyObject_eq (e := e) convert h1 h2 hle
    obtain ⟨off', w', out, hf, g1, g2, g3, g4, g5, g6, g7, g8, g9, g10, g11⟩ :=
      ih (off := o + sz + annotation src.protocol x) (w := { w with
        bytes := w.bytes ++ ((src.data.drop off).take (o - off) ++ piece)
        offsets := w.offsets ++ [w.bytes.length + (o - off)]
        cleanup := w.cleanup ++ cl
        buffersSize := w.buffersSize + align8 (countedSize w.io x) }) h3
    have hgl : ((src.data.drop off).take (o - off)).length = o - off := by
      rw [List.length_take, List.length_drop]; omega
    have hge := whole_ge h3
    refine ⟨off', w', ((src.data.drop off).take (o - off) ++ piece) ++ out, ?_, g1, g2, g3, g4, ?_, ?_, ?_,
      ?_, ?_, ?_, ?_⟩
    · rw [List.foldlM_cons, hc]
      exact hf
    · simp only [List.length_append, hgl, hpl]; omega
    · rw [g6]; simp only [List.append_assoc]
    · rw [g7]
      simp only [List.map_cons, List.append_assoc, List.singleton_append, List.append_cancel_left_eq,
        List.cons.injEq, true_and]
      apply List.map_congr_left
      intro o2 ho2
      have := hge o2 ho2
      simp only [List.length_append, hgl, hpl]
      omega
    · rw [g8]
      simp only [List.map_cons, List.sum_cons]
      have : countedAt w.io src.data o = align8 (countedSize w.io x) := by
        unfold countedAt; rw [h2]
      rw [this]; omega
    · rw [g9]
      simp only [translatedRefs, List.filterMap_cons]
      by_cases hex : ∃ l, Translated (convFn convert) src.data o l
      · obtain ⟨l, hl⟩ := hex
        rw [(ht l hl).2.2.2, if_pos hl.1, hl.2]
        simp
      · have hnt : ∀ l, ¬ Translated (convFn convert) src.data o l := fun l hl => hex ⟨l, hl⟩
        rw [(hu hnt).2]
        have : (if fieldAt src.data o 4 = tHandle then
            (convFn convert (fieldAt src.data (o + 8) 4)).map (fun l => CleanupItem.unrefLocal l.addr)
            else none) = none := by
          split
          · rename_i h4
            cases hcv : convFn convert (fieldAt src.data (o + 8) 4) with
            | none => rfl
            | some l => exact absurd ⟨h4, hcv⟩ (hnt l)
          · rfl
        rw [this]
        simp
    · intro k hk hun
      have hun' : Untouched w.io src.protocol (convFn convert) src.data rest (off + k) :=
        fun o2 ho2 => hun o2 (List.mem_cons_of_mem _ ho2)
      by_cases hk1 : k < o - off
      · rw [List.append_assoc, List.getElem?_append_left (by omega), List.getElem?_take,
          if_pos hk1, List.getElem?_drop]
      · by_cases hk2 : k < o - off + piece.length
        · rw [List.append_assoc, List.getElem?_append_right (by omega), hgl,
            List.getElem?_append_left (by omega)]
          have hnt : ∀ l, ¬ Translated (convFn convert) src.data o l := by
            intro l hl
            refine hun o List.mem_cons_self l hl ⟨by omega, ?_⟩
            obtain ⟨hz, ha, _⟩ := ht l hl
            have hfl : w.io.flatSize = 8 + 2 * word w.io := by rw [word_eq]; unfold Io.flatSize; omega
            have hex : src.protocol.extra = if src.protocol = .aidl3 then 4 else 0 := by
              cases src.protocol <;> rfl
            omega
          rw [(hu hnt).1, List.getElem?_take, if_pos (by omega), List.getElem?_drop]
          congr 1
          omega
        · rw [List.getElem?_append_right (by simp only [List.length_append, hgl]; omega)]
          simp only [List.length_append, hgl] at hk ⊢
          have := g10 (k - (o - off + piece.length)) (by omega) (by
            rw [show o + sz + annotation src.protocol x + (k - (o - off + piece.length)) = off + k by omega]
            exact hun')
          rw [this]
          congr 1
          omega
    · intro o2 ho2 l hl
      rcases List.mem_cons.mp ho2 with rfl | ho2
      · obtain ⟨_, _, hpe, _⟩ := ht l hl
        exact ⟨_, out, by rw [List.append_assoc, hpe], by omega⟩
      · obtain ⟨a, c, hac, hal⟩ := g11 o2 ho2 l hl
        refine ⟨(src.data.drop off).take (o - off) ++ piece ++ a, c, by rw [hac]; simp only [List.append_assoc], ?_⟩
        simp only [List.length_append, hgl, hpl]
        omega

end Gb
