import Verif.Lemmas.Layout
/-
Effect of the writer operations on the structure of the parcel.
-/
set_option autoImplicit false

namespace Gb
open Kernel Writer

namespace Writer

/-- Append an object. -/
def push (w : Writer) (x : Obj) : Writer :=
  { w with bytes := w.bytes ++ x.bytes w.io, offsets := w.offsets ++ [w.bytes.length],
           buffersSize := w.buffersSize + x.bufSize }

/-- Append raw data. -/
def pushRaw (w : Writer) (r : Bytes) : Writer := { w with bytes := w.bytes ++ r }

theorem appendBufferObject_eq (e : Env) (w : Writer) (p s : Nat) (par : Option Parent) :
    appendBufferObject e w p s par = .ok (w.offsets.length, w.push (.buf p s par)) := by
  have h : (encodeBufferObject w.io p s par).length ≤
      maxBufferObjectSize + e.slack (w.bytes.length + maxBufferObjectSize) := by
    have := bufferObjSize_le w.io
    rw [length_encodeBufferObject]; omega
  simp only [appendBufferObject, putObject_eq e w _ _ h, bind, Except.bind, recordOffset, push,
    Obj.bytes, Obj.bufSize]

theorem appendFdaObject_ok {e : Env} {w w' : Writer} {n : Nat} {par : Parent}
    (h : appendFdaObject e w n par = .ok w') : w' = w.push (.fda n par) := by
  have hf : (encodeFdaObject w.io n par).length ≤
      maxBinderObjectSize + e.slack (w.bytes.length + maxBinderObjectSize) := by
    simp only [appendFdaObject, putObject, bind, Except.bind] at h
    split at h
    · cases h
    · rename_i heq
      split at heq
      · assumption
      · cases heq
  simp only [appendFdaObject, putObject_eq e w _ _ hf, bind, Except.bind, recordOffset] at h
  cases h
  rfl

theorem appendLocalObject_eq (e : Env) (w : Writer) (o : Option LocalRef) :
    appendLocalObject e w o = .ok (match o with
      | some o => w.push (.loc w.protocol o)
      | none => w.pushRaw (encodeLocalObject w.io w.protocol none)) := by
  have h : (encodeLocalObject w.io w.protocol o).length ≤
      maxBinderObjectSize + e.slack (w.bytes.length + maxBinderObjectSize) := by
    have := flatSize_le w.io w.protocol
    rw [length_encodeLocalObject]; omega
  cases o <;>
    simp only [appendLocalObject, putObject_eq e w _ _ h, bind, Except.bind, recordOffset, push,
      pushRaw, Obj.bytes, Obj.bufSize, Nat.add_zero]

theorem appendRemoteObject_eq (e : Env) (w : Writer) (o : Option Nat) :
    appendRemoteObject e w o = .ok (match o with
      | some o => w.push (.rem o)
      | none => w.pushRaw (encodeRemoteObject w.io none)) := by
  have h : (encodeRemoteObject w.io o).length ≤
      maxBinderObjectSize + e.slack (w.bytes.length + maxBinderObjectSize) := by
    have := flatSize_le w.io w.protocol
    rw [length_encodeRemoteObject]; omega
  cases o <;>
    simp only [appendRemoteObject, putObject_eq e w _ _ h, bind, Except.bind, recordOffset, push,
      pushRaw, Obj.bytes, Obj.bufSize, Nat.add_zero]

theorem appendFd_eq (e : Env) (w : Writer) (n : Nat) (dup : Option Nat) :
    appendFd e w n dup = .ok { w.push (.fd (dup.getD n)) with
      cleanup := w.cleanup ++ (match dup with | some d => [.closeFd d] | none => []) } := by
  have h : ∀ m, (encodeFdObject w.io m).length ≤
      maxBinderObjectSize + e.slack (w.bytes.length + maxBinderObjectSize) := by
    intro m
    have := flatSize_le w.io w.protocol
    rw [length_encodeFdObject]; omega
  cases dup <;>
    simp only [appendFd, putObject_eq e w _ _ (h _), bind, Except.bind, recordOffset, push,
      Obj.bytes, Obj.bufSize, Nat.add_zero, Option.getD, List.append_nil]

end Writer

/-- `w'` is `w` with `new` objects (and any raw data, aligned if `al`) appended. -/
structure Grows (al : Bool) (w w' : Writer) (new : List Obj) : Prop where
  io : w'.io = w.io
  proto : w'.protocol = w.protocol
  count : w'.offsets.length = w.offsets.length + new.length
  tail : ∃ r, w'.bytes = w.bytes ++ r ∧ (al = true → r.length % 4 = 0)
  offs : ∃ o, w'.offsets = w.offsets ++ o
  late : ∀ o, w'.offsets = w.offsets ++ o → ∀ x ∈ o, w.bytes.length ≤ x
  built : ∀ s, Built w.io al w.bytes w.offsets w.buffersSize s →
    Built w.io al w'.bytes w'.offsets w'.buffersSize (s ++ new)

namespace Grows
variable {al : Bool} {w w' w'' : Writer} {new new' : List Obj}

theorem trans (h1 : Grows al w w' new) (h2 : Grows al w' w'' new') :
    Grows al w w'' (new ++ new') where
  io := h2.io.trans h1.io
  proto := h2.proto.trans h1.proto
  count := by rw [h2.count, h1.count, List.length_append]; omega
  tail := by
    obtain ⟨r1, e1, a1⟩ := h1.tail
    obtain ⟨r2, e2, a2⟩ := h2.tail
    refine ⟨r1 ++ r2, by rw [e2, e1, List.append_assoc], fun h => ?_⟩
    have := a1 h
    have := a2 h
    simp only [List.length_append]; omega
  offs := by
    obtain ⟨r1, e1⟩ := h1.offs
    obtain ⟨r2, e2⟩ := h2.offs
    exact ⟨r1 ++ r2, by rw [e2, e1, List.append_assoc]⟩
  late := by
    intro o ho x hx
    obtain ⟨r1, e1⟩ := h1.offs
    obtain ⟨r2, e2⟩ := h2.offs
    obtain ⟨b1, eb, _⟩ := h1.tail
    rw [e2, e1, List.append_assoc] at ho
    rw [← List.append_cancel_left ho] at hx
    rcases List.mem_append.mp hx with hx | hx
    · exact h1.late r1 e1 x hx
    · have := h2.late r2 e2 x hx
      rw [eb, List.length_append] at this
      omega
  built := by
    intro s hs
    have h := h2.built (s ++ new) (by rw [h1.io]; exact h1.built s hs)
    rw [h1.io, List.append_assoc] at h
    exact h

/-- Nothing appended; memory and cleanup list may change. -/
theorem of_same (h1 : w'.io = w.io) (h2 : w'.protocol = w.protocol) (h3 : w'.bytes = w.bytes)
    (h4 : w'.offsets = w.offsets) (h5 : w'.buffersSize = w.buffersSize) : Grows al w w' [] where
  io := h1
  proto := h2
  count := by rw [h4]; rfl
  tail := ⟨[], by rw [h3, List.append_nil], fun _ => rfl⟩
  offs := ⟨[], by rw [h4, List.append_nil]⟩
  late := by
    intro o ho x hx
    rw [h4] at ho
    rw [List.self_eq_append_right.mp ho] at hx
    cases hx
  built := by intro s hs; rw [h3, h4, h5, List.append_nil]; exact hs

theorem refl (al : Bool) (w : Writer) : Grows al w w [] := of_same rfl rfl rfl rfl rfl

theorem push (al : Bool) (w : Writer) (x : Obj) : Grows al w (w.push x) [x] where
  io := rfl
  proto := rfl
  count := by simp [Writer.push]
  tail := ⟨_, rfl, fun _ => x.bytes_mod w.io⟩
  offs := ⟨_, rfl⟩
  late := by
    intro o ho y hy
    rw [← List.append_cancel_left ho] at hy
    simp only [List.mem_cons, List.not_mem_nil, or_false] at hy
    omega
  built := fun _ hs => hs.obj x

theorem raw (w : Writer) (r : Bytes) (h : al = true → r.length % 4 = 0) :
    Grows al w (w.pushRaw r) [] where
  io := rfl
  proto := rfl
  count := by simp [pushRaw]
  tail := ⟨r, rfl, h⟩
  offs := ⟨[], by simp [pushRaw]⟩
  late := by
    intro o ho y hy
    rw [List.self_eq_append_right.mp ho] at hy
    cases hy
  built := by intro s hs; rw [List.append_nil]; exact hs.raw r h

theorem cleanup (w : Writer) (c : CleanupItem) : Grows al w (addCleanup w c) [] :=
  of_same rfl rfl rfl rfl rfl

theorem block (e : Env) (w : Writer) (d : Bytes) : Grows al w (newBlock e w d).2 [] :=
  of_same rfl rfl rfl rfl rfl

theorem memdup {e : Env} {w w' : Writer} {b n a : Nat} (h : Writer.memdup e w b n = .ok (a, w')) :
    Grows al w w' [] := by
  unfold Writer.memdup at h
  split at h
  · cases h; exact refl al w
  · split at h
    · cases h; exact block e w _
    · cases h

end Grows

/-- Unpacking `do` blocks. -/
theorem bind_ok {ε α β : Type} {x : Except ε α} {f : α → Except ε β} {b : β}
    (h : (x >>= f) = .ok b) : ∃ a, x = .ok a ∧ f a = .ok b := by
  cases x with
  | error e => cases h
  | ok a => exact ⟨a, rfl, h⟩

theorem map_ok {ε α β : Type} {x : Except ε α} {f : α → β} {b : β}
    (h : x.map f = .ok b) : ∃ a, x = .ok a ∧ f a = b := by
  cases x with
  | error e => cases h
  | ok a => cases h; exact ⟨a, rfl, rfl⟩

theorem withBytes_ok {w w' : Writer} {x : Except UB Bytes} {r : Bytes}
    (hx : x = .ok (w.bytes ++ r)) (h : w.withBytes x = .ok w') : w' = w.pushRaw r := by
  subst hx; cases h; rfl

/-! ### Per operation -/

theorem appendFds_grows {al : Bool} {e : Env} {w w' : Writer} {a nf ni : Nat} {par : Option Parent}
    (h : appendFds e w (some (a, nf, ni)) par = .ok w') :
    Grows al w w' [.buf a (12 + 4 * ((nf + ni) % 2 ^ 32)) par,
      .fda nf { index := w.offsets.length, offset := 12 }] ∧ w'.mem = w.mem := by
  simp only [appendFds, withBytes, bufAppendWord_eq, Except.map, bind, Except.bind,
    appendBufferObject_eq] at h
  have h2 := appendFdaObject_ok h
  subst h2
  refine ⟨?_, rfl⟩
  have g1 := Grows.raw (al := al) w (leBytes 8 (12 + 4 * ((nf + ni) % 2 ^ 32))) (by simp)
  exact (g1.trans (Grows.push al _ _)).trans (Grows.push al _ _)

/-- A descriptor followed by its data. -/
theorem Grows.two {al : Bool} {w w4 : Writer} (g : Grows al w w4 []) (vec n buf tot : Nat) :
    Grows al w ((w4.push (.buf vec n none)).push
      (.buf buf tot (some { index := w4.offsets.length, offset := 0 })))
      [.buf vec n none, .buf buf tot (some { index := w.offsets.length, offset := 0 })] := by
  have hc : w4.offsets.length = w.offsets.length := g.count
  rw [hc]
  exact (g.trans (Grows.push al _ _)).trans (Grows.push al _ _)

theorem Grows.ite {al : Bool} {w w1 w2 : Writer} {c : Prop} [Decidable c] {new : List Obj}
    (h1 : Grows al w w1 new) (h2 : Grows al w w2 new) : Grows al w (if c then w1 else w2) new := by
  split <;> assumption

theorem appendHidlVec_grows {al : Bool} {e : Env} {w w' : Writer} {b c s : Nat}
    (h : appendHidlVec e w b c s = .ok w') :
    ∃ vec buf, Grows al w w' [.buf vec 16 none,
      .buf buf (c * s % 2 ^ 32) (some { index := w.offsets.length, offset := 0 })] := by
  obtain ⟨⟨buf, w1⟩, hm, h⟩ := bind_ok h
  simp only [appendBufferObject_eq, bind, Except.bind] at h
  have g1 := Grows.memdup (al := al) hm
  have g2 : Grows al w (if buf ≠ 0 then addCleanup w1 (.free buf) else w1) [] :=
    Grows.ite (g1.trans (Grows.cleanup _ _)) g1
  cases h
  exact ⟨_, _, Grows.two ((g2.trans (Grows.block e _ _)).trans (Grows.cleanup _ _)) _ _ _ _⟩

theorem appendHidlString_grows {al : Bool} {e : Env} {w w' : Writer} {a : Nat}
    (h : appendHidlString e w a = .ok w') :
    ∃ hs n, Grows al w w' [.buf hs 16 none,
      .buf a n (some { index := w.offsets.length, offset := 0 })] := by
  obtain ⟨len, hm, h⟩ := bind_ok h
  have g3 := (((Grows.refl al w).trans (Grows.block e _ (hidlStringBytes a len true))).trans
    (Grows.cleanup _ (.free (newBlock e w (hidlStringBytes a len true)).1)))
  by_cases ha : a = 0
  · simp only [appendBufferObject_eq, bind, Except.bind, ha, ne_eq, not_true_eq_false, if_false] at h g3
    cases h
    subst ha
    exact ⟨_, _, g3.two _ _ _ _⟩
  · simp only [appendBufferObject_eq, bind, Except.bind, ha, ne_eq, not_false_eq_true, if_true] at h
    cases h
    exact ⟨_, _, g3.two _ _ _ _⟩

theorem appendHidlStringCopy_grows {al : Bool} {e : Env} {w w' : Writer} {a em : Nat}
    (h : appendHidlStringCopy e w a em = .ok w') :
    ∃ hs p n, Grows al w w' [.buf hs 16 none,
      .buf p n (some { index := w.offsets.length, offset := 0 })] := by
  unfold appendHidlStringCopy at h
  split at h
  · obtain ⟨hs, n, g⟩ := appendHidlString_grows (al := al) h
    exact ⟨_, _, _, g⟩
  · split at h
    · cases h
    · obtain ⟨hs, n, g⟩ := appendHidlString_grows (al := al) h
      exact ⟨_, _, _, g⟩
    · rename_i s _ _
      obtain ⟨hs, n, g⟩ := appendHidlString_grows (al := al) h
      have g0 : Grows al w (strdup e w s).2 [] := Grows.of_same rfl rfl rfl rfl rfl
      exact ⟨_, _, _, g0.trans g⟩

/-- The objects appended for the strings of a vector. -/
def stringObjs (idx : Nat) : Nat → List (Nat × Nat) → List Obj
  | _, [] => []
  | off, (p, len) :: rest =>
    .buf p (if p ≠ 0 then (len + 1) % 2 ^ 32 else 0) (some { index := idx, offset := off }) ::
      stringObjs idx ((off + 16) % 2 ^ 32) rest

theorem appendStringBuffers_grows {al : Bool} {e : Env} {idx : Nat} {ds : List (Nat × Nat)} :
    ∀ {w w' : Writer} {off : Nat}, appendStringBuffers e idx w off ds = .ok w' →
      Grows al w w' (stringObjs idx off ds) ∧ w'.mem = w.mem := by
  induction ds with
  | nil => intro w w' off h; cases h; exact ⟨Grows.refl al w, rfl⟩
  | cons d ds ih =>
    obtain ⟨p, len⟩ := d
    intro w w' off h
    simp only [appendStringBuffers] at h
    by_cases hp : p = 0
    · subst hp
      simp only [appendBufferObject_eq, bind, Except.bind, ne_eq, not_true_eq_false, if_false] at h
      obtain ⟨h1, h2⟩ := ih h
      exact ⟨(Grows.push al w _).trans h1, h2⟩
    · simp only [appendBufferObject_eq, bind, Except.bind, ne_eq, hp, not_false_eq_true, if_true] at h
      obtain ⟨h1, h2⟩ := ih h
      refine ⟨?_, h2⟩
      have := (Grows.push al w (.buf p ((len + 1) % 2 ^ 32) (some { index := idx, offset := off }))).trans h1
      simp only [stringObjs, ne_eq, hp, not_false_eq_true, if_true]
      exact this

theorem hidlStringDescs_length {m : Mem} {l : List Nat} :
    ∀ {ds}, hidlStringDescs m l = .ok ds → ds.length = l.length := by
  induction l with
  | nil => intro ds h; cases h; rfl
  | cons p ps ih =>
    intro ds h
    simp only [hidlStringDescs] at h
    obtain ⟨d, _, h⟩ := bind_ok h
    obtain ⟨ds', h', h⟩ := bind_ok h
    cases h
    simp [ih h']

theorem appendHidlStringVec_grows {al : Bool} {e : Env} {w w' : Writer} {l : List Nat}
    (h : appendHidlStringVec e w l = .ok w') :
    ∃ vec, (Grows al w w' [.buf vec 16 none,
        .buf 0 0 (some { index := w.offsets.length, offset := 0 })]) ∨
      ∃ p ds, ds.length = l.length ∧ 0 < l.length ∧
        Grows al w w' ([.buf vec 16 none,
          .buf p (16 * l.length) (some { index := w.offsets.length, offset := 0 })] ++
          stringObjs (w.offsets.length + 1) 0 ds) := by
  obtain ⟨ds, hd, h⟩ := bind_ok h
  have hl := hidlStringDescs_length hd
  by_cases hlen : 0 < l.length
  · simp only [appendBufferObject_eq, bind, Except.bind, hlen, if_true] at h
    generalize hn1 : newBlock e w _ = n1 at h
    have g1 : Grows al w n1.2 [] := by rw [← hn1]; exact Grows.block e w _
    generalize hn2 : newBlock e _ _ = n2 at h
    have g2 : Grows al w n2.2 [] := by
      rw [← hn2]; exact (g1.trans (Grows.cleanup _ (.free _))).trans (Grows.block e _ _)
    have g3 : Grows al w (n2.2.addCleanup (.free n2.1)) [] := g2.trans (Grows.cleanup _ _)
    have hc : n2.2.offsets.length = w.offsets.length := g2.count
    split at h
    · obtain ⟨gs, _⟩ := appendStringBuffers_grows (al := al) h
      refine ⟨n2.1, Or.inr ⟨n1.1, ds, hl, hlen, ?_⟩⟩
      have hi : (Writer.push (n2.2.addCleanup (.free n2.1)) (.buf n2.1 16 none)).offsets.length =
          w.offsets.length + 1 := by
        simp [Writer.push, addCleanup, hc]
      rw [hi] at gs
      exact (g3.two _ 16 _ (16 * l.length)).trans gs
    · cases h
      exact ⟨_, Or.inl (Grows.two g3 _ _ _ _)⟩
  · simp only [appendBufferObject_eq, bind, Except.bind, hlen, if_false, ne_eq,
      not_true_eq_false] at h
    cases h
    exact ⟨_, Or.inl (Grows.two ((Grows.block e w _).trans (Grows.cleanup _ _)) _ _ _ _)⟩

mutual
theorem appendField_grows {al : Bool} {e : Env} {w w' : Writer} {obj : Nat} {par : Parent} :
    (f : WField) → appendField e w obj par f = .ok w' → ∃ new, Grows al w w' new
  | .ptr off size _, h => by
    simp only [appendField] at h
    obtain ⟨p, _, h⟩ := bind_ok h
    simp only [appendBufferObject_eq, bind, Except.bind] at h
    cases h
    exact ⟨_, Grows.push al _ _⟩
  | .str off, h => by
    simp only [appendField] at h
    obtain ⟨p, _, h⟩ := bind_ok h
    obtain ⟨len, _, h⟩ := bind_ok h
    simp only [appendBufferObject_eq, bind, Except.bind] at h
    cases h
    exact ⟨_, Grows.push al _ _⟩
  | .vec off esize fields, h => by
    simp only [appendField] at h
    obtain ⟨p, _, h⟩ := bind_ok h
    obtain ⟨len, _, h⟩ := bind_ok h
    simp only [appendBufferObject_eq, bind] at h
    simp only [Except.bind] at h
    have loop : ∀ (l : List Nat) (idx : Nat) (w1 w' : Writer), List.foldlM (m := Except UB) (fun w i =>
        appendFields e w (p + esize * i % 2 ^ 32)
          { index := idx, offset := esize * i % 2 ^ 32 } fields) w1 l = .ok w' →
        ∃ new, Grows al w1 w' new := by
      intro l idx
      induction l with
      | nil => intro w1 w' h; cases h; exact ⟨[], Grows.refl al w1⟩
      | cons i l ih =>
        intro w1 w' h
        rw [List.foldlM_cons] at h
        obtain ⟨w2, h2, h⟩ := bind_ok h
        obtain ⟨n1, g1⟩ := appendFields_grows (al := al) fields h2
        obtain ⟨n2, g2⟩ := ih w2 w' h
        exact ⟨_, g1.trans g2⟩
    obtain ⟨n, g⟩ := loop _ _ _ _ h
    exact ⟨_, (Grows.push al w _).trans g⟩
  | .vecNoType off, h => by
    simp only [appendField] at h
    obtain ⟨p, _, h⟩ := bind_ok h
    simp only [appendBufferObject_eq, bind, Except.bind] at h
    cases h
    exact ⟨_, Grows.push al _ _⟩

theorem appendFields_grows {al : Bool} {e : Env} {w w' : Writer} {obj : Nat} {par : Parent} :
    (fs : List WField) → appendFields e w obj par fs = .ok w' → ∃ new, Grows al w w' new
  | [], h => by
    simp only [appendFields] at h
    cases h
    exact ⟨[], Grows.refl al w⟩
  | f :: fs, h => by
    simp only [appendFields] at h
    obtain ⟨w1, h1, h⟩ := bind_ok h
    obtain ⟨n1, g1⟩ := appendField_grows (al := al) f h1
    obtain ⟨n2, g2⟩ := appendFields_grows (al := al) fs h
    exact ⟨_, g1.trans g2⟩
end

theorem appendStruct_grows {al : Bool} {e : Env} {w w' : Writer} {p n : Nat} {fs : List WField}
    {par : Option Parent} (h : appendStruct e w p n fs par = .ok w') :
    ∃ new, Grows al w w' (.buf p n par :: new) := by
  simp only [appendStruct, appendBufferObject_eq, bind, Except.bind] at h
  obtain ⟨new, g⟩ := appendFields_grows (al := al) fs h
  exact ⟨new, (Grows.push al w _).trans g⟩

theorem load_length {m : Mem} {a n : Nat} {bs : Bytes} (h : m.load a n = some bs) :
    bs.length = n := by
  induction m with
  | nil =>
    unfold Mem.load at h
    split at h
    · cases h; simp_all
    · cases h
  | cons blk rest ih =>
    unfold Mem.load at h
    split at h
    · cases h; simp_all
    · simp only [] at h
      split at h
      · cases h
        rename_i hc
        simp only [List.length_take, List.length_drop]; omega
      · exact ih h

theorem loadU32_lt {m : Mem} {a n : Nat} (h : loadU32 m a = .ok n) : n < 2 ^ 32 := by
  unfold loadU32 at h
  split at h
  · rename_i bs hb
    cases h
    have h1 := leVal_lt bs
    rw [load_length hb] at h1
    exact h1
  · cases h

theorem units_mod (us : List Nat) : (leBytes 4 us.length ++ (utf16Bytes us ++
    List.replicate (align4 ((us.length + 1) * 2) - 2 * us.length) 0)).length % 4 = 0 := by
  have h1 := align4_mod ((us.length + 1) * 2)
  have h2 := le_align4 ((us.length + 1) * 2)
  simp only [List.length_append, length_utf16Bytes, List.length_replicate, length_leBytes]
  omega

theorem appendFmqDescriptor_grows {al : Bool} {e : Env} {w w' : Writer} {d : Nat}
    (h : appendFmqDescriptor e w d = .ok w') :
    ∃ mq vb vt fa nf ni, Grows al w w' [.buf mq 32 none,
      .buf vb vt (some { index := w.offsets.length, offset := 0 }),
      .buf fa (12 + 4 * ((nf + ni) % 2 ^ 32)) (some { index := w.offsets.length, offset := 16 }),
      .fda nf { index := w.offsets.length + 2, offset := 12 }] ∧
      ((∀ a, loadPtr w.mem (d + 16) = .ok a → ∀ nf ni, loadU32 w.mem (a + 4) = .ok nf →
        loadU32 w.mem (a + 8) = .ok ni → nf + ni < 2 ^ 32) → nf + ni < 2 ^ 32) := by
  simp only [appendFmqDescriptor] at h
  obtain ⟨gr, _, h⟩ := bind_ok h
  obtain ⟨count, _, h⟩ := bind_ok h
  obtain ⟨fp, hfp, h⟩ := bind_ok h
  obtain ⟨nf, hnf, h⟩ := bind_ok h
  obtain ⟨ni, hni, h⟩ := bind_ok h
  obtain ⟨tail, _, h⟩ := bind_ok h
  obtain ⟨owns, _, h⟩ := bind_ok h
  obtain ⟨⟨vb, w1⟩, hm1, h⟩ := bind_ok h
  obtain ⟨⟨fa, w2⟩, hm2, h⟩ := bind_ok h
  simp only [appendBufferObject_eq, bind, Except.bind] at h
  have g2 : Grows al w w2 [] := (Grows.memdup hm1).trans (Grows.memdup hm2)
  have g3 : Grows al w (w2.addCleanup (.free fa)) [] := g2.trans (Grows.cleanup _ _)
  have g4 : Grows al w (if vb ≠ 0 then (w2.addCleanup (.free fa)).addCleanup (.free vb)
      else w2.addCleanup (.free fa)) [] := Grows.ite (g3.trans (Grows.cleanup _ _)) g3
  generalize hn : newBlock e _ _ = nb at h
  have g5 : Grows al w nb.2 [] := by rw [← hn]; exact g4.trans (Grows.block e _ _)
  have g6 : Grows al w (nb.2.addCleanup (.free nb.1)) [] := g5.trans (Grows.cleanup _ _)
  have g7 := g6.two nb.1 32 vb (count * 24)
  obtain ⟨g8, _⟩ := appendFds_grows (al := al) h
  have hc1 : (nb.2.addCleanup (.free nb.1)).offsets.length = w.offsets.length := g6.count
  have hc2 := g7.count
  rw [hc2, hc1] at g8
  rw [hc1] at g7
  exact ⟨nb.1, vb, _, fa, nf, ni, g7.trans g8, fun hh => hh fp hfp nf ni hnf hni⟩

/-- Operations which append to the parcel (or don't touch it); `overwrite_int32` is the only one
which doesn't. -/
def WOp.isAppend : WOp → Bool
  | .overwriteInt32 .. => false
  | _ => true

/-- Raw bytes and parcelables keep the parcel aligned if their length is a multiple of four. -/
def WOp.isAligned : WOp → Bool
  | .bytes d => d.length % 4 == 0
  | .parcelable (some d) => d.length % 4 == 0
  | _ => true

theorem run_grows {al : Bool} {e : Env} {w w' : Writer} {op : WOp} (h : op.run e w = .ok w')
    (ha : op.isAppend = true) (hal : al = true → op.isAligned = true) :
    ∃ new, Grows al w w' new := by
  have raw : ∀ {x : Except UB Bytes} {r : Bytes}, w.withBytes x = .ok w' → x = .ok (w.bytes ++ r) →
      (al = true → r.length % 4 = 0) → ∃ new, Grows al w w' new := by
    intro x r h1 h2 h3
    rw [withBytes_ok h2 h1]
    exact ⟨[], Grows.raw w r h3⟩
  cases op with
  | bool v => exact raw h (bufAppendPadded_eq _ _ _ (by simp)) (by simp)
  | int8 v => exact raw h (bufAppendPadded_eq _ _ _ (by simp)) (by simp)
  | int16 v => exact raw h (bufAppendPadded_eq _ _ _ (by simp)) (by simp)
  | int32 v => exact raw h (bufAppendWord_eq _ _ _ _) (by simp)
  | int64 v => exact raw h (bufAppendWord_eq _ _ _ _) (by simp)
  | string8 s =>
    cases s with
    | none => cases h; exact ⟨[], Grows.refl al w⟩
    | some s =>
      refine raw h (bufAppendString8_eq _ _ _) (fun _ => ?_)
      have h1 := align4_mod (s.length + 1)
      have h2 := le_align4 (s.length + 1)
      simp only [List.length_append, List.length_replicate]; omega
  | string16 s =>
    simp only [WOp.run, appendString16] at h
    cases s with
    | none => exact raw h (bufAppendWord_eq _ _ _ _) (by simp)
    | some s =>
      simp only [bufAppendString16] at h
      split at h
      · exact raw h (bufAppendUnits_eq _ _ _) (fun _ => units_mod _)
      · exact raw h (bufAppendString16Empty_eq _ _) (by simp)
  | utf16 s =>
    simp only [WOp.run, appendUtf16] at h
    cases s with
    | none => exact raw h (bufAppendWord_eq _ _ _ _) (by simp)
    | some s =>
      simp only [bufAppendUtf16] at h
      split at h
      · exact raw h (bufAppendUnits_eq _ _ _) (fun _ => units_mod _)
      · exact raw h (bufAppendString16Empty_eq _ _) (by simp)
  | bytes d =>
    refine raw (x := .ok (w.bytes ++ d)) h rfl (fun hh => ?_)
    simpa [WOp.isAligned] using hal hh
  | byteArray d =>
    refine raw h (bufAppendByteArray_eq _ _ _) (fun _ => ?_)
    split
    · rename_i x xs
      have h1 := align4_mod (xs.length + 1)
      have h2 := le_align4 (xs.length + 1)
      simp only [List.length_append, List.length_replicate, length_leBytes, List.length_cons]
      omega
    · simp
  | parcelable d =>
    refine raw h (bufAppendParcelable_eq _ _ _) (fun hh => ?_)
    cases d with
    | none => simp
    | some d =>
      have := hal hh
      simp only [WOp.isAligned, beq_iff_eq] at this
      simp only [List.length_append, length_leBytes]
      omega
  | fd n d =>
    simp only [WOp.run, appendFd_eq] at h
    cases h
    exact ⟨_, (Grows.push al w _).trans (Grows.of_same rfl rfl rfl rfl rfl)⟩
  | fds a par =>
    simp only [WOp.run] at h
    split at h
    · exact raw h (bufAppendWord_eq _ _ _ _) (by simp)
    · obtain ⟨nf, _, h⟩ := bind_ok h
      obtain ⟨ni, _, h⟩ := bind_ok h
      exact ⟨_, (appendFds_grows h).1⟩
  | bufferObject b n par =>
    simp only [WOp.run, appendBufferObject_eq, Except.map] at h
    cases h
    exact ⟨_, Grows.push al w _⟩
  | localObject o =>
    simp only [WOp.run, appendLocalObject_eq] at h
    cases h
    cases o with
    | none =>
      refine ⟨_, Grows.raw w _ (fun _ => ?_)⟩
      have h1 := flatSize_mod w.io
      have h2 := extra_mod w.protocol
      rw [length_encodeLocalObject]; omega
    | some o => exact ⟨_, Grows.push al w _⟩
  | remoteObject o =>
    simp only [WOp.run, appendRemoteObject_eq] at h
    cases h
    cases o with
    | none =>
      refine ⟨_, Grows.raw w _ (fun _ => ?_)⟩
      rw [length_encodeRemoteObject]; exact flatSize_mod w.io
    | some o => exact ⟨_, Grows.push al w _⟩
  | hidlVec b c s =>
    obtain ⟨_, _, g⟩ := appendHidlVec_grows (al := al) h
    exact ⟨_, g⟩
  | hidlString s =>
    obtain ⟨_, _, g⟩ := appendHidlString_grows (al := al) h
    exact ⟨_, g⟩
  | hidlStringCopy s em =>
    obtain ⟨_, _, _, g⟩ := appendHidlStringCopy_grows (al := al) h
    exact ⟨_, g⟩
  | hidlStringVec v =>
    obtain ⟨_, g | ⟨_, _, _, _, g⟩⟩ := appendHidlStringVec_grows (al := al) h
    · exact ⟨_, g⟩
    · exact ⟨_, g⟩
  | struct p t par =>
    cases t with
    | none =>
      simp only [WOp.run, appendBufferObject_eq, Except.map] at h
      cases h
      exact ⟨_, Grows.push al w _⟩
    | some t =>
      obtain ⟨_, g⟩ := appendStruct_grows (al := al) h
      exact ⟨_, g⟩
  | structVec p c t =>
    cases t with
    | none =>
      obtain ⟨_, g⟩ := appendStruct_grows (al := al) h
      exact ⟨_, ((Grows.block e w _).trans (Grows.cleanup _ _)).trans g⟩
    | some t =>
      obtain ⟨_, g⟩ := appendStruct_grows (al := al) h
      exact ⟨_, ((Grows.block e w _).trans (Grows.cleanup _ _)).trans g⟩
  | fmqDescriptor d =>
    obtain ⟨_, _, _, _, _, _, g, _⟩ := appendFmqDescriptor_grows (al := al) h
    exact ⟨_, g⟩
  | malloc d =>
    simp only [WOp.run, malloc] at h
    cases h
    refine ⟨[], ?_⟩
    split <;> exact Grows.of_same rfl rfl rfl rfl rfl
  | memdup b n =>
    simp only [WOp.run, dupMemory] at h
    obtain ⟨x, hx, rfl⟩ := map_ok h
    refine ⟨[], ?_⟩
    split at hx
    · cases hx; exact Grows.refl al w
    · split at hx
      · cases hx
        simp only [malloc]
        split <;> exact Grows.of_same rfl rfl rfl rfl rfl
      · cases hx
  | addCleanup f p =>
    simp only [WOp.run] at h
    cases h
    exact ⟨[], Grows.ite (Grows.refl al w) (Grows.cleanup _ _)⟩
  | memory m => cases h; exact ⟨[], Grows.of_same rfl rfl rfl rfl rfl⟩
  | overwriteInt32 off v => cases ha

theorem runAll_grows {al : Bool} {e : Env} {ops : List WOp} :
    ∀ {w w' : Writer}, WOp.runAll e w ops = .ok w' → (∀ op ∈ ops, op.isAppend = true) →
      (al = true → ∀ op ∈ ops, op.isAligned = true) → ∃ new, Grows al w w' new := by
  induction ops with
  | nil => intro w w' h _ _; cases h; exact ⟨[], Grows.refl al w⟩
  | cons op ops ih =>
    intro w w' h ha hal
    obtain ⟨w1, h1, h⟩ := bind_ok h
    obtain ⟨n1, g1⟩ := run_grows (al := al) h1 (ha op List.mem_cons_self)
      (fun hh => hal hh op List.mem_cons_self)
    obtain ⟨n2, g2⟩ := ih h (fun o ho => ha o (List.mem_cons_of_mem _ ho))
      (fun hh o ho => hal hh o (List.mem_cons_of_mem _ ho))
    exact ⟨_, g1.trans g2⟩

/-- A parcel built from scratch. -/
theorem runAll_built {al : Bool} {e : Env} {ops : List WOp} {io : Io} {p : Protocol} {m : Mem}
    {w' : Writer}
    (h : WOp.runAll e { io := io, protocol := p, mem := m } ops = .ok w')
    (ha : ∀ op ∈ ops, op.isAppend = true) (hal : al = true → ∀ op ∈ ops, op.isAligned = true) :
    w'.io = io ∧ ∃ s, Built io al w'.bytes w'.offsets w'.buffersSize s := by
  obtain ⟨new, g⟩ := runAll_grows h ha hal
  exact ⟨g.io, new, by simpa using g.built [] .nil⟩

end Gb
