import Verif.Model.Parcels
import Verif.Lemmas.Mem
/-
The writer registers what it allocates.
-/
set_option autoImplicit false

namespace Gb
open Writer

/-- Memory to be freed. -/
def CleanupItem.addr : CleanupItem → Option Nat
  | .free a => some a
  | _ => none

/-- A descriptor to be closed. -/
def CleanupItem.fd : CleanupItem → Option Nat
  | .closeFd n => some n
  | _ => none

/-- Anything else. -/
def CleanupItem.call : CleanupItem → Option CleanupItem
  | .free _ => none
  | .closeFd _ => none
  | c => some c

/-- Those of the items which `f` tells about. -/
def these {α : Type} (f : CleanupItem → Option α) (l : List CleanupItem) : List α := l.filterMap f

/-- What the writer has allocated between `w` and `w'` is registered for being freed, and so are the
descriptors and callbacks; nothing that had been registered is forgotten. -/
def Owns (e : Env) (w w' : Writer) (fds : List Nat) (calls : List CleanupItem) : Prop :=
  ∃ (new : Mem) (items : List CleanupItem), w'.mem = new ++ w.mem ∧ w'.cleanup = w.cleanup ++ items ∧
    (∀ a, a ≠ 0 → (new.map (·.1)).count a = (these CleanupItem.addr items).count a) ∧
    these CleanupItem.fd items = fds ∧ these CleanupItem.call items = calls ∧
    ((∀ m n, e.alloc m n ≠ 0 ∧ e.alloc m n ∉ m.map (·.1)) →
      ∀ m : Mem, (m.map (·.1)).Nodup → (∀ a ∈ m.map (·.1), a ≠ 0) → m = w.mem →
        (w'.mem.map (·.1)).Nodup ∧ ∀ a ∈ w'.mem.map (·.1), a ≠ 0)

theorem these_append {α : Type} (f : CleanupItem → Option α) (a b : List CleanupItem) :
    these f (a ++ b) = these f a ++ these f b := by simp [these]

theorem Owns.same {e : Env} {w w' : Writer} (h : w'.mem = w.mem) (hc : w'.cleanup = w.cleanup) : Owns e w w' [] [] :=
  ⟨[], [], by rw [h]; rfl, by rw [hc]; simp, fun _ _ => rfl, rfl, rfl, by
    intro _ m h1 h2 hm; rw [h, ← hm]; exact ⟨h1, h2⟩⟩

theorem Owns.trans {e : Env} {w w1 w2 : Writer} {f1 f2 : List Nat} {c1 c2 : List CleanupItem} (h1 : Owns e w w1 f1 c1)
    (h2 : Owns e w1 w2 f2 c2) : Owns e w w2 (f1 ++ f2) (c1 ++ c2) := by
  obtain ⟨n1, i1, hm1, hc1, ha1, hf1, hu1, hn1⟩ := h1
  obtain ⟨n2, i2, hm2, hc2, ha2, hf2, hu2, hn2⟩ := h2
  refine ⟨n2 ++ n1, i1 ++ i2, by rw [hm2, hm1, List.append_assoc], by rw [hc2, hc1, List.append_assoc], ?_, ?_, ?_, ?_⟩
  · intro a ha
    rw [these_append, List.map_append, List.count_append, List.count_append, ha1 a ha, ha2 a ha]
    omega
  · rw [these_append, hf1, hf2]
  · rw [these_append, hu1, hu2]
  · intro ha m h1 h2 hm
    obtain ⟨h3, h4⟩ := hn1 ha m h1 h2 hm
    exact hn2 ha _ h3 h4 rfl

theorem Owns.trans0 {e : Env} {w w1 w2 : Writer} (h1 : Owns e w w1 [] []) (h2 : Owns e w1 w2 [] []) : Owns e w w2 [] [] :=
  h1.trans h2

/-- A block which is registered at once. -/
theorem Owns.block (e : Env) (w : Writer) (d : Bytes) :
    Owns e w (addCleanup (newBlock e w d).2 (.free (newBlock e w d).1)) [] [] :=
  ⟨[(e.alloc w.mem d.length, d)], [.free (e.alloc w.mem d.length)], rfl, rfl, fun _ _ => rfl, rfl, rfl, by
    intro ha m h1 h2 hm
    subst hm
    obtain ⟨h3, h4⟩ := ha w.mem d.length
    refine ⟨List.nodup_cons.2 ⟨h4, h1⟩, ?_⟩
    intro a hm
    rcases List.mem_cons.1 hm with hm | hm
    · rw [hm]; exact h3
    · exact h2 a hm⟩

theorem Owns.null {e : Env} {w w' : Writer} (hm : w'.mem = w.mem) (hc : w'.cleanup = w.cleanup ++ [.free 0]) :
    Owns e w w' [] [] := by
  refine ⟨[], [.free 0], by rw [hm]; rfl, hc, fun a ha => ?_, rfl, rfl, by
    intro _ m h1 h2 hm'; rw [hm, ← hm']; exact ⟨h1, h2⟩⟩
  show 0 = [0].count a
  rw [List.count_eq_zero_of_not_mem]
  simpa using ha

theorem withBytes_owns {e : Env} {w w' : Writer} {x : Except UB Bytes} (h : w.withBytes x = .ok w') : Owns e w w' [] [] := by
  refine .same (withBytes_mem h) ?_
  unfold Writer.withBytes at h
  obtain ⟨b, _, h⟩ := map_ok h
  rw [← h]

/-- Memory which has been copied is registered unless there's nothing to copy. -/
theorem memdup_owns {e : Env} {w w' : Writer} {b n a : Nat} (halloc : ∀ m k, e.alloc m k ≠ 0)
    (h : Writer.memdup e w b n = .ok (a, w')) :
    Owns e w (if a ≠ 0 then addCleanup w' (.free a) else w') [] [] ∧
      Owns e w (addCleanup w' (.free a)) [] [] ∧ (a = 0 → w' = w) := by
  unfold Writer.memdup at h
  split at h
  · cases h
    refine ⟨.same rfl rfl, .null rfl rfl, fun _ => rfl⟩
  · split at h
    · rename_i bs _
      cases h
      have : (newBlock e w bs).1 ≠ 0 := halloc _ _
      refine ⟨?_, .block e w bs, fun h => absurd h this⟩
      rw [if_pos (halloc _ _)]
      exact .block e w bs
    · cases h

theorem memdup_cleanup {e : Env} {w w' : Writer} {b n a : Nat} (h : Writer.memdup e w b n = .ok (a, w')) :
    w'.cleanup = w.cleanup := by
  unfold Writer.memdup at h
  split at h
  · cases h; rfl
  · split at h
    · cases h; rfl
    · cases h

theorem appendFds_owns {e : Env} {w w' : Writer} {f : Option (Nat × Nat × Nat)} {par : Option Parent}
    (h : appendFds e w f par = .ok w') : Owns e w w' [] [] := by
  refine .same (appendFds_mem h) ?_
  unfold appendFds at h
  cases f with
  | none =>
    unfold Writer.withBytes at h
    obtain ⟨b, _, h⟩ := map_ok h
    rw [← h]
  | some x =>
    obtain ⟨a, nf, ni⟩ := x
    simp only [] at h
    obtain ⟨w1, h1, h⟩ := bind_ok h
    simp only [appendBufferObject_eq, bind, Except.bind] at h
    have h2 := appendFdaObject_ok h
    unfold Writer.withBytes at h1
    obtain ⟨b, _, h1⟩ := map_ok h1
    rw [h2, ← h1]
    rfl

mutual
theorem appendField_cleanup {e : Env} {w w' : Writer} {obj : Nat} {par : Parent} :
    (f : WField) → appendField e w obj par f = .ok w' → w'.cleanup = w.cleanup
  | .ptr off size _, h => by
    simp only [appendField] at h
    obtain ⟨p, _, h⟩ := bind_ok h
    simp only [appendBufferObject_eq, bind, Except.bind] at h
    cases h
    rfl
  | .str off, h => by
    simp only [appendField] at h
    obtain ⟨p, _, h⟩ := bind_ok h
    obtain ⟨n, _, h⟩ := bind_ok h
    simp only [appendBufferObject_eq, bind, Except.bind] at h
    cases h
    rfl
  | .vec off esize fields, h => by
    simp only [appendField] at h
    obtain ⟨p, _, h⟩ := bind_ok h
    obtain ⟨n, _, h⟩ := bind_ok h
    simp only [appendBufferObject_eq, bind, Except.bind] at h
    have loop : ∀ (l : List Nat) (idx : Nat) (w1 w' : Writer), List.foldlM (m := Except UB) (fun w i =>
        appendFields e w (p + esize * i % 2 ^ 32)
          { index := idx, offset := esize * i % 2 ^ 32 } fields) w1 l = .ok w' →
        w'.cleanup = w1.cleanup := by
      intro l
      induction l with
      | nil => intro idx w1 w' h; cases h; rfl
      | cons i l ih =>
        intro idx w1 w' h
        rw [List.foldlM_cons] at h
        obtain ⟨w2, h2, h⟩ := bind_ok h
        rw [ih idx w2 w' h, appendFields_cleanup fields h2]
    rw [loop _ _ _ _ h]
    rfl
  | .vecNoType off, h => by
    simp only [appendField] at h
    obtain ⟨p, _, h⟩ := bind_ok h
    simp only [appendBufferObject_eq, bind, Except.bind] at h
    cases h
    rfl

theorem appendFields_cleanup {e : Env} {w w' : Writer} {obj : Nat} {par : Parent} :
    (fs : List WField) → appendFields e w obj par fs = .ok w' → w'.cleanup = w.cleanup
  | [], h => by simp only [appendFields] at h; cases h; rfl
  | f :: fs, h => by
    simp only [appendFields] at h
    obtain ⟨w1, h1, h⟩ := bind_ok h
    rw [appendFields_cleanup fs h, appendField_cleanup f h1]
end

theorem appendStruct_owns {e : Env} {w w' : Writer} {p n : Nat} {fs : List WField}
    {par : Option Parent} (h : appendStruct e w p n fs par = .ok w') : Owns e w w' [] [] := by
  refine .same (appendStruct_mem h) ?_
  simp only [appendStruct, appendBufferObject_eq, bind, Except.bind] at h
  rw [appendFields_cleanup fs h]
  rfl

theorem appendHidlString_owns {e : Env} {w w' : Writer} {a : Nat}
    (h : appendHidlString e w a = .ok w') : Owns e w w' [] [] := by
  obtain ⟨len, hm, h⟩ := bind_ok h
  have g := Owns.block e w (hidlStringBytes a len true)
  by_cases ha : a = 0
  · simp only [appendBufferObject_eq, bind, Except.bind, ha, ne_eq, not_true_eq_false, if_false] at h
    cases h
    rw [ha] at g
    exact g.trans0 (.same rfl rfl)
  · simp only [appendBufferObject_eq, bind, Except.bind, ha, ne_eq, not_false_eq_true, if_true] at h
    cases h
    exact g.trans0 (.same rfl rfl)

theorem appendStringBuffers_cleanup {e : Env} {idx : Nat} (ds : List (Nat × Nat)) :
    ∀ {w w' : Writer} {off : Nat}, appendStringBuffers e idx w off ds = .ok w' → w'.cleanup = w.cleanup := by
  induction ds with
  | nil => intro w w' off h; cases h; rfl
  | cons d ds ih =>
    intro w w' off h
    unfold appendStringBuffers at h
    by_cases hp : d.1 = 0
    · simp only [appendBufferObject_eq, bind, Except.bind, hp, ne_eq, not_true_eq_false, if_false] at h
      rw [ih h]; rfl
    · simp only [appendBufferObject_eq, bind, Except.bind, hp, ne_eq, not_false_eq_true, if_true] at h
      rw [ih h]; rfl

theorem malloc_owns (e : Env) (w : Writer) (d : Bytes) : Owns e w (w.malloc e d).2 [] [] := by
  unfold Writer.malloc
  split
  · exact .null rfl rfl
  · exact .block e w d

/-- Every call except `memory`. -/
theorem run_owns {e : Env} (halloc : ∀ m k, e.alloc m k ≠ 0) {w w' : Writer} {op : WOp} (h : op.run e w = .ok w')
    (hm : ∀ m, op ≠ .memory m) : Owns e w w' op.dup op.callback := by
  cases op <;> simp only [WOp.run] at h
  case bool => exact withBytes_owns h
  case int8 => exact withBytes_owns h
  case int16 => exact withBytes_owns h
  case int32 => exact withBytes_owns h
  case int64 => exact withBytes_owns h
  case string8 s =>
    cases s with
    | none => cases h; exact .same rfl rfl
    | some s => exact withBytes_owns h
  case string16 => exact withBytes_owns h
  case utf16 => exact withBytes_owns h
  case bytes => exact withBytes_owns h
  case byteArray => exact withBytes_owns h
  case parcelable => exact withBytes_owns h
  case fd n d =>
    rw [appendFd_eq] at h
    cases h
    cases d with
    | none => exact .same rfl (by simp [push])
    | some d => exact ⟨[], [.closeFd d], rfl, rfl, fun _ _ => rfl, rfl, rfl,
        fun _ m h1 h2 hm => hm ▸ ⟨h1, h2⟩⟩
  case fds a par =>
    split at h
    · exact appendFds_owns h
    · obtain ⟨nf, _, h⟩ := bind_ok h
      obtain ⟨ni, _, h⟩ := bind_ok h
      exact appendFds_owns h
  case bufferObject => rw [appendBufferObject_eq] at h; cases h; exact .same rfl rfl
  case localObject o => rw [appendLocalObject_eq] at h; cases h; cases o <;> exact .same rfl rfl
  case remoteObject o => rw [appendRemoteObject_eq] at h; cases h; cases o <;> exact .same rfl rfl
  case hidlVec b c s =>
    obtain ⟨⟨buf, w1⟩, hm, h⟩ := bind_ok h
    simp only [appendBufferObject_eq, bind, Except.bind] at h
    have g2 := (memdup_owns halloc hm).1
    cases h
    exact (g2.trans0 (Owns.block e _ _)).trans0 (.same rfl rfl)
  case hidlString a => exact appendHidlString_owns h
  case hidlStringCopy a em =>
    unfold appendHidlStringCopy at h
    split at h
    · exact appendHidlString_owns h
    · split at h
      · cases h
      · exact appendHidlString_owns h
      · rename_i s _ _
        exact (Owns.block e w (s ++ [0])).trans0 (appendHidlString_owns h)
  case hidlStringVec l =>
    obtain ⟨ds, hd, h⟩ := bind_ok h
    by_cases hlen : 0 < l.length
    · simp only [appendBufferObject_eq, bind, Except.bind, hlen, if_true] at h
      generalize hn1 : newBlock e w _ = n1 at h
      have g1 : Owns e w (addCleanup n1.2 (.free n1.1)) [] [] := by rw [← hn1]; exact .block e w _
      generalize hn2 : newBlock e _ _ = n2 at h
      have g2 : Owns e w (addCleanup n2.2 (.free n2.1)) [] [] := by
        rw [← hn2]; exact g1.trans0 (.block e _ _)
      split at h
      · have hc := appendStringBuffers_cleanup _ h
        have := (appendStringBuffers_grows (al := true) h).2
        exact g2.trans0 (.same this hc)
      · cases h
        exact g2.trans0 (.same rfl rfl)
    · simp only [appendBufferObject_eq, bind, Except.bind, hlen, if_false, ne_eq,
        not_true_eq_false] at h
      cases h
      exact (Owns.block e w _).trans0 (.same rfl rfl)
  case struct p t par =>
    cases t with
    | none => simp only [appendBufferObject_eq] at h; cases h; exact .same rfl rfl
    | some t => exact appendStruct_owns h
  case structVec p c t =>
    cases t with
    | none => exact (Owns.block e w _).trans0 (appendStruct_owns h)
    | some t => exact (Owns.block e w _).trans0 (appendStruct_owns h)
  case fmqDescriptor d =>
    obtain ⟨_, _, h⟩ := bind_ok h
    obtain ⟨_, _, h⟩ := bind_ok h
    obtain ⟨_, _, h⟩ := bind_ok h
    obtain ⟨_, _, h⟩ := bind_ok h
    obtain ⟨_, _, h⟩ := bind_ok h
    obtain ⟨_, _, h⟩ := bind_ok h
    obtain ⟨_, _, h⟩ := bind_ok h
    obtain ⟨⟨v, w1⟩, h1, h⟩ := bind_ok h
    obtain ⟨⟨f, w2⟩, h2, h⟩ := bind_ok h
    simp only [appendBufferObject_eq, bind, Except.bind] at h
    have g2 : Owns e w (if v ≠ 0 then addCleanup (addCleanup w2 (.free f)) (.free v)
        else addCleanup w2 (.free f)) [] [] := by
      obtain ⟨a1, a2, a3⟩ := memdup_owns halloc h1
      obtain ⟨b1, b2, b3⟩ := memdup_owns halloc h2
      split
      · -- the order of registration isn't that of allocation
        obtain ⟨n1, i1, hm1, hc1, ha1, hf1, hu1, hn1⟩ := a2
        obtain ⟨n2, i2, hm2, hc2, ha2, hf2, hu2, hn2⟩ := b2
        simp only [addCleanup] at hm1 hc1 hm2 hc2
        refine ⟨n2 ++ n1, i2 ++ i1, ?_, ?_, ?_, ?_, ?_, ?_⟩
        · show w2.mem = _
          rw [hm2, hm1, List.append_assoc]
        · show w2.cleanup ++ [CleanupItem.free f] ++ [CleanupItem.free v] = _
          have h0 : w1.cleanup = w.cleanup ∧ i1 = [.free v] := by
            have := memdup_cleanup h1
            rw [this] at hc1 ⊢
            exact ⟨rfl, (List.append_cancel_left hc1).symm⟩
          rw [hc2, h0.1, h0.2, List.append_assoc]
        · intro a ha
          rw [these_append, List.map_append, List.count_append, List.count_append, ha1 a ha, ha2 a ha]
        · rw [these_append, hf1, hf2]; rfl
        · rw [these_append, hu1, hu2]; rfl
        · intro ha m h1 h2 hm
          obtain ⟨h3, h4⟩ := hn1 ha m h1 h2 hm
          exact hn2 ha _ h3 h4 rfl
      · rename_i hv
        have : v = 0 := Classical.not_not.1 hv
        rw [a3 this] at b2
        exact b2
    refine Owns.trans0 ?_ (appendFds_owns h)
    exact (g2.trans0 (Owns.block e _ _)).trans0 (.same rfl rfl)
  case malloc d =>
    cases h
    exact malloc_owns e w d
  case memdup b n =>
    obtain ⟨x, h1, h⟩ := map_ok h
    subst h
    unfold dupMemory at h1
    split at h1
    · cases h1; exact .same rfl rfl
    · split at h1
      · cases h1
        exact malloc_owns e w _
      · cases h1
  case addCleanup f p =>
    cases h
    cases f with
    | zero => exact .same rfl rfl
    | succ f => exact ⟨[], [.user (f + 1) p], rfl, rfl, fun _ _ => rfl, rfl, rfl,
        fun _ m h1 h2 hm => hm ▸ ⟨h1, h2⟩⟩
  case memory m => exact absurd rfl (hm m)
  case overwriteInt32 off v =>
    unfold overwriteInt32 at h
    split at h
    · exact withBytes_owns h
    · cases h; exact .same rfl rfl

theorem putObject_cleanup {e : Env} {w w' : Writer} {n : Nat} {b : Bytes} (h : putObject e w n b = .ok w') :
    w'.mem = w.mem ∧ w'.cleanup = w.cleanup := by
  unfold putObject at h
  simp only [] at h
  split at h
  · cases h; exact ⟨rfl, rfl⟩
  · cases h

/-- One object of a received parcel. -/
theorem copyObject_owns {e : Env} {src : RxBuffer} {convert : Option (Nat → Option LocalRef)} {st st' : Nat × Writer}
    {o : Nat} (h : copyObject e src convert st o = .ok st') :
    st'.2.mem = st.2.mem ∧
      st'.2.cleanup = st.2.cleanup ++ ([o] : List Nat).filterMap (Parcels.refOf src convert) := by
  obtain ⟨off, w⟩ := st
  unfold copyObject at h
  simp only [] at h
  have hw : ∀ (w1 : Writer) (b : Bytes), (if off < o then { w with bytes := b } else w) = w1 →
      w1.mem = w.mem ∧ w1.cleanup = w.cleanup := by
    intro w1 b hb
    rw [← hb]
    split <;> exact ⟨rfl, rfl⟩
  generalize hw1 : (if off < o then { w with bytes := _ } else w) = w1 at h
  obtain ⟨hm1, hc1⟩ := hw w1 _ hw1
  rw [List.filterMap_cons]
  cases convert with
  | none =>
    have hn : Parcels.refOf src none o = none := rfl
    rw [hn]
    simp only [bind, Except.bind] at h
    cases hd : objectDataSize w.io src.data o with
    | none => rw [hd] at h; cases h
    | some d =>
      simp only [hd] at h
      split at h
      · cases h
      · split at h
        · cases h
        · cases h
          simp [recordOffset, hm1, hc1]
  | some f =>
    simp only [bind, Except.bind] at h
    cases hx : decodeBinderHandle src.data o with
    | error u => rw [hx] at h; cases h
    | ok x =>
      simp only [hx] at h
      cases hd : objectDataSize w.io src.data o with
      | none => rw [hd] at h; cases h
      | some d =>
        simp only [hd] at h
        cases hl : x.bind f with
        | none =>
          simp only [hl] at h
          have hn : Parcels.refOf src (some f) o = none := by
            simp only [Parcels.refOf, hx]
            cases x with
            | none => rfl
            | some x => have hl' : f x = none := hl; simp [hl']
          rw [hn]
          split at h
          · cases h
          · split at h
            · cases h
            · cases h
              simp [recordOffset, hm1, hc1]
        | some y =>
          simp only [hl] at h
          have hn : Parcels.refOf src (some f) o = some (.unrefLocal y.addr) := by
            simp only [Parcels.refOf, hx]
            cases x with
            | none => cases hl
            | some x => have hl' : f x = some y := hl; simp [hl']
          rw [hn]
          split at h
          · cases h
          · rename_i w3 h3
            have := putObject_cleanup h3
            cases h
            simp [addCleanup, this, recordOffset, hm1, hc1]

theorem copyObjects_owns {e : Env} {src : RxBuffer} {convert : Option (Nat → Option LocalRef)} (l : List Nat) :
    ∀ {st st' : Nat × Writer}, l.foldlM (copyObject e src convert) st = .ok st' →
    st'.2.mem = st.2.mem ∧ st'.2.cleanup = st.2.cleanup ++ l.filterMap (Parcels.refOf src convert) := by
  induction l with
  | nil => intro st st' h; cases h; simp
  | cons o l ih =>
    intro st st' h
    rw [List.foldlM_cons] at h
    obtain ⟨s1, h1, h⟩ := bind_ok h
    obtain ⟨a1, a2⟩ := copyObject_owns h1
    obtain ⟨b1, b2⟩ := ih h
    refine ⟨by rw [b1, a1], ?_⟩
    rw [b2, a2, List.append_assoc, ← List.filterMap_append]
    rfl

/-- The references taken together with the data of a received parcel. -/
theorem appendContents_owns {e : Env} {w w' : Writer} {src : RxBuffer} {off : Nat}
    {convert : Option (Nat → Option LocalRef)} (h : w.appendContents e src off convert = .ok w') :
    w'.mem = w.mem ∧ w'.cleanup = w.cleanup ++ Parcels.refsOf src convert := by
  unfold appendContents at h
  obtain ⟨st, hs, h⟩ := bind_ok h
  obtain ⟨h1, h2⟩ := copyObjects_owns _ hs
  have : w'.mem = st.2.mem ∧ w'.cleanup = st.2.cleanup := by
    cases h
    split <;> exact ⟨rfl, rfl⟩
  rw [this.1, this.2, h1, h2]
  simp [addCleanup, Parcels.refsOf]

theorem refs_calls (src : RxBuffer) (convert : Option (Nat → Option LocalRef)) :
    these CleanupItem.addr (Parcels.refsOf src convert) = [] ∧
    these CleanupItem.fd (Parcels.refsOf src convert) = [] ∧
    these CleanupItem.call (Parcels.refsOf src convert) = Parcels.refsOf src convert := by
  have key : ∀ c ∈ Parcels.refsOf src convert, (∃ n, c = .unrefBuffer n) ∨ ∃ n, c = .unrefLocal n := by
    intro c hc
    rcases List.mem_cons.1 hc with hc | hc
    · exact .inl ⟨_, hc⟩
    · obtain ⟨o, _, ho⟩ := List.mem_filterMap.1 hc
      unfold Parcels.refOf at ho
      split at ho
      · cases ho
      · split at ho
        · obtain ⟨x, _, hx⟩ := Option.map_eq_some_iff.1 ho
          exact .inr ⟨_, hx.symm⟩
        · cases ho
  generalize Parcels.refsOf src convert = l at key
  induction l with
  | nil => exact ⟨rfl, rfl, rfl⟩
  | cons c l ih =>
    obtain ⟨h1, h2, h3⟩ := ih fun c hc => key c (List.mem_cons_of_mem _ hc)
    simp only [these] at h1 h2 h3
    rcases key c List.mem_cons_self with ⟨n, rfl⟩ | ⟨n, rfl⟩ <;>
      exact ⟨h1, h2, congrArg (_ :: ·) h3⟩

end Gb
