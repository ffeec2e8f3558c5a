import Verif.Lemmas.Grows
/-
The result of the writer operations doesn't depend on uninitialised memory.
-/
set_option autoImplicit false

namespace Gb
open Writer

/-- Environments which differ in uninitialised memory only, or (`any`) also in the spare
capacity of the arrays. -/
structure Like (any : Bool) (e e' : Env) : Prop where
  alloc : e'.alloc = e.alloc
  slack : any = false → e'.slack = e.slack

theorem putObject_gen (e : Env) (w : Writer) (reserve : Nat) (enc : Bytes) :
    putObject e w reserve enc =
      if enc.length ≤ reserve + e.slack (w.bytes.length + reserve) then
        .ok { w with bytes := w.bytes ++ enc } else .error .oob := by
  unfold putObject
  simp only []
  split
  · congr 2
    have h1 : (setSize e.junk w.bytes (w.bytes.length + reserve)).take w.bytes.length = w.bytes := by
      unfold setSize
      split
      · rw [List.take_take, Nat.min_eq_left (by omega), List.take_length]
      · rw [List.take_left']; rfl
    have h2 : (poke (setSize e.junk w.bytes (w.bytes.length + reserve)) w.bytes.length enc).take
        (w.bytes.length + enc.length) = w.bytes ++ enc := by
      unfold poke
      rw [h1, List.take_left']
      simp
    rw [setSize, if_pos, h2]
    unfold poke
    rw [h1]
    simp
  · rfl

variable {any : Bool} {e e' : Env}

theorem Like.putObject (h : Like any e e') (w : Writer) (r : Nat) (enc : Bytes)
    (hs : any = false ∨ enc.length ≤ r) : putObject e' w r enc = putObject e w r enc := by
  rw [putObject_gen, putObject_gen]
  rcases hs with hs | hs
  · rw [h.slack hs]
  · rw [if_pos (by omega), if_pos (by omega)]

theorem Like.newBlock (h : Like any e e') (w : Writer) (d : Bytes) :
    newBlock e' w d = newBlock e w d := by
  simp only [Writer.newBlock, h.alloc]

theorem Like.memdup (h : Like any e e') (w : Writer) (b n : Nat) :
    memdup e' w b n = memdup e w b n := by
  simp only [Writer.memdup, h.newBlock]

theorem Like.buffer (_h : Like any e e') (w : Writer) (p s : Nat) (par : Option Parent) :
    appendBufferObject e' w p s par = appendBufferObject e w p s par := by
  rw [appendBufferObject_eq, appendBufferObject_eq]

theorem Like.word (_h : Like any e e') (b : Bytes) (n v : Nat) :
    bufAppendWord e'.junk b n v = bufAppendWord e.junk b n v := by
  rw [bufAppendWord_eq, bufAppendWord_eq]

theorem length_fda (io : Io) (n : Nat) (par : Parent) :
    (encodeFdaObject io n par).length = 8 + 3 * io.ptrSize := by
  have := length_encodeFdaObject io n par
  rw [this]
  cases io <;> rfl

theorem Like.fda (h : Like any e e') (w : Writer) (n : Nat) (par : Parent)
    (hs : any = false ∨ w.io = .io32) : appendFdaObject e' w n par = appendFdaObject e w n par := by
  unfold appendFdaObject
  rw [h.putObject]
  rcases hs with hs | hs
  · exact .inl hs
  · right; rw [length_fda, hs]; decide

theorem Like.fds (h : Like any e e') (w : Writer) (x : Option (Nat × Nat × Nat))
    (par : Option Parent) (hs : any = false ∨ w.io = .io32) :
    appendFds e' w x par = appendFds e w x par := by
  unfold appendFds
  split
  · simp only [h.word, h.buffer]
    rw [bufAppendWord_eq]
    simp only [withBytes, Except.map, bind, Except.bind, appendBufferObject_eq]
    rw [h.fda]
    exact hs
  · rw [h.word]

mutual
theorem Like.field (h : Like any e e') (w : Writer) (obj : Nat) (par : Parent) :
    (f : WField) → appendField e' w obj par f = appendField e w obj par f
  | .ptr off size _ => by simp only [appendField, h.buffer]
  | .str off => by simp only [appendField, h.buffer]
  | .vec off esize fields => by
    simp only [appendField, h.buffer]
    have : ∀ w o p, appendFields e' w o p fields = appendFields e w o p fields :=
      fun w o p => Like.fields h w o p fields
    simp only [this]
  | .vecNoType off => by simp only [appendField, h.buffer]
theorem Like.fields (h : Like any e e') (w : Writer) (obj : Nat) (par : Parent) :
    (fs : List WField) → appendFields e' w obj par fs = appendFields e w obj par fs
  | [] => by simp only [appendFields]
  | f :: fs => by
    have : ∀ w, appendFields e' w obj par fs = appendFields e w obj par fs :=
      fun w => Like.fields h w obj par fs
    simp only [appendFields, Like.field h w obj par f, this]
end

theorem Like.struct (h : Like any e e') (w : Writer) (p n : Nat) (fs : List WField)
    (par : Option Parent) : appendStruct e' w p n fs par = appendStruct e w p n fs par := by
  simp only [appendStruct, h.buffer, h.fields]

theorem Like.hidlString (h : Like any e e') (w : Writer) (a : Nat) :
    appendHidlString e' w a = appendHidlString e w a := by
  simp only [appendHidlString, h.newBlock, h.buffer]

theorem Like.stringBuffers (h : Like any e e') (idx : Nat) (ds : List (Nat × Nat)) :
    ∀ w off, appendStringBuffers e' idx w off ds = appendStringBuffers e idx w off ds := by
  induction ds with
  | nil => intro w off; simp only [appendStringBuffers]
  | cons d ds ih =>
    intro w off
    obtain ⟨p, l⟩ := d
    simp only [appendStringBuffers, h.buffer, ih]

/-- The operation may send an array of descriptors. -/
def WOp.sendsFds : WOp → Bool
  | .fds .. | .fmqDescriptor .. => true
  | _ => false

theorem Like.fmq (h : Like any e e') (w : Writer) (d : Nat) (hs : any = false ∨ w.io = .io32) :
    appendFmqDescriptor e' w d = appendFmqDescriptor e w d := by
  unfold appendFmqDescriptor
  simp only [h.newBlock, h.buffer, h.memdup]
  refine bind_congr fun _ => ?_
  refine bind_congr fun _ => ?_
  refine bind_congr fun _ => ?_
  refine bind_congr fun _ => ?_
  refine bind_congr fun _ => ?_
  refine bind_congr fun _ => ?_
  refine bind_congr fun _ => ?_
  generalize hm : Writer.memdup e w _ _ = x
  cases x with
  | error => rfl
  | ok x =>
    generalize hm2 : Writer.memdup e x.2 _ _ = y
    simp only [bind, Except.bind]
    rw [hm2]
    cases y with
    | error => rfl
    | ok y =>
      simp only [appendBufferObject_eq]
      rw [h.fds]
      rcases hs with hs | hs
      · exact .inl hs
      · right
        have g1 := (Grows.memdup (al := false) hm).io
        have g2 := (Grows.memdup (al := false) hm2).io
        have : y.2.io = .io32 := by rw [g2, g1, hs]
        simp only [Writer.push, addCleanup, Writer.newBlock]
        split <;> exact this

theorem Like.run (h : Like any e e') (w : Writer) (op : WOp)
    (hs : any = false ∨ w.io = .io32 ∨ op.sendsFds = false) : op.run e' w = op.run e w := by
  cases op with
  | bool v => simp only [WOp.run, appendBool]; rw [bufAppendPadded_eq _ _ _ (by simp), bufAppendPadded_eq _ _ _ (by simp)]
  | int8 v => simp only [WOp.run, appendInt8]; rw [bufAppendPadded_eq _ _ _ (by simp), bufAppendPadded_eq _ _ _ (by simp)]
  | int16 v => simp only [WOp.run, appendInt16]; rw [bufAppendPadded_eq _ _ _ (by simp), bufAppendPadded_eq _ _ _ (by simp)]
  | int32 v => simp only [WOp.run, appendInt32, h.word]
  | int64 v => simp only [WOp.run, appendInt64, h.word]
  | string8 s => 
    cases s with
    | none => rfl
    | some s => simp only [WOp.run, appendString8, bufAppendString8_eq]
  | string16 s =>
    cases s with
    | none => simp only [WOp.run, appendString16, bufAppendString16, h.word]
    | some s => simp only [WOp.run, appendString16, bufAppendString16, bufAppendUnits_eq, bufAppendString16Empty_eq]
  | utf16 s =>
    cases s with
    | none => simp only [WOp.run, appendUtf16, bufAppendUtf16, h.word]
    | some s => simp only [WOp.run, appendUtf16, bufAppendUtf16, bufAppendUnits_eq, bufAppendString16Empty_eq]
  | bytes d => rfl
  | byteArray d => simp only [WOp.run, appendByteArray, bufAppendByteArray_eq]
  | parcelable d => simp only [WOp.run, appendParcelable, bufAppendParcelable_eq]
  | fd n d => simp only [WOp.run, appendFd_eq]
  | fds a par =>
    have hs' : any = false ∨ w.io = .io32 := by
      rcases hs with hs | hs | hs
      · exact .inl hs
      · exact .inr hs
      · cases hs
    simp only [WOp.run, h.fds w _ _ hs']
  | bufferObject b n par => simp only [WOp.run, h.buffer]
  | localObject o => simp only [WOp.run, appendLocalObject_eq]
  | remoteObject o => simp only [WOp.run, appendRemoteObject_eq]
  | hidlVec b c s => simp only [WOp.run, appendHidlVec, h.memdup, h.newBlock, h.buffer]
  | hidlString s => simp only [WOp.run, h.hidlString]
  | hidlStringCopy s em => simp only [WOp.run, appendHidlStringCopy, h.hidlString, strdup, h.newBlock]
  | hidlStringVec v => simp only [WOp.run, appendHidlStringVec, h.newBlock, h.buffer, h.stringBuffers]
  | struct p t par => cases t <;> simp only [WOp.run, h.struct, h.buffer]
  | structVec p c t => cases t <;> simp only [WOp.run, appendStructVec, h.struct, h.newBlock]
  | fmqDescriptor d =>
    have hs' : any = false ∨ w.io = .io32 := by
      rcases hs with hs | hs | hs
      · exact .inl hs
      · exact .inr hs
      · cases hs
    simp only [WOp.run, h.fmq w _ hs']
  | malloc d => simp only [WOp.run, Writer.malloc, h.newBlock]
  | memdup b n => simp only [WOp.run, dupMemory, Writer.malloc, h.newBlock]
  | addCleanup f p => rfl
  | memory m => rfl
  | overwriteInt32 off v => rfl

theorem overwriteInt32_io {w w' : Writer} {off : Nat} {v : UInt32}
    (h : w.overwriteInt32 off v = .ok w') : w'.io = w.io ∧ w'.bytes.length = w.bytes.length := by
  unfold overwriteInt32 at h
  split at h
  · obtain ⟨b, hb, rfl⟩ := map_ok h
    unfold store at hb
    split at hb
    · cases hb
      refine ⟨rfl, ?_⟩
      simp only [poke, List.length_append, List.length_take, List.length_drop]
      omega
    · cases hb
  · cases h; exact ⟨rfl, rfl⟩

theorem run_io {w w' : Writer} {op : WOp} (h : op.run e w = .ok w') : w'.io = w.io := by
  by_cases ha : op.isAppend = true
  · obtain ⟨_, g⟩ := run_grows (al := false) h ha (by simp)
    exact g.io
  · cases op <;> simp [WOp.isAppend] at ha
    exact (overwriteInt32_io h).1

theorem Like.runAll (h : Like any e e') (ops : List WOp) :
    ∀ w, (any = false ∨ w.io = .io32 ∨ ∀ op ∈ ops, op.sendsFds = false) →
      WOp.runAll e' w ops = WOp.runAll e w ops := by
  induction ops with
  | nil => intro w _; rfl
  | cons op ops ih =>
    intro w hs
    simp only [WOp.runAll]
    rw [h.run w op (by
      rcases hs with hs | hs | hs
      · exact .inl hs
      · exact .inr (.inl hs)
      · exact .inr (.inr (hs op List.mem_cons_self)))]
    cases hr : op.run e w with
    | error x => rfl
    | ok w1 =>
      show WOp.runAll e' w1 ops = WOp.runAll e w1 ops
      refine ih w1 ?_
      rcases hs with hs | hs | hs
      · exact .inl hs
      · exact .inr (.inl ((run_io hr).trans hs))
      · exact .inr (.inr fun o ho => hs o (List.mem_cons_of_mem _ ho))

end Gb
