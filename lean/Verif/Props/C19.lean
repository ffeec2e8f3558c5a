import Verif.Lemmas.Transfer
import Verif.Spec.References
import Verif.Spec.Demo
/-
C19. References to objects survive the transfer.

Not everywhere: handles written with the aidl3 protocol lack the stability word the reader skips
(`C19_fails_remote`) and NULL references are not skipped by the reader (`C19_fails_null`).
-/
set_option autoImplicit false

namespace Gb.C19
open Kernel Writer Reader

/-- A parcel is built by the calls `pre`, `op` and `post`; `w0`, `w1` and `w'` are the states of
the writer after them. -/
structure Built (e : Env) (io : Io) (p : Protocol) (m : Mem) (pre : List WOp) (op : WOp)
    (post : List WOp) (w0 w1 w' : Writer) : Prop where
  before : WOp.runAll e { io := io, protocol := p, mem := m } pre = .ok w0
  call : op.run e w0 = .ok w1
  after : WOp.runAll e w1 post = .ok w'
  append : ∀ off v, WOp.overwriteInt32 off v ∉ pre ++ post

section
variable {e : Env} {io : Io} {p : Protocol} {m : Mem} {pre post : List WOp} {op : WOp}
  {w0 w1 w' : Writer} {node : Nat → Nat} {other : Nat → Option Nat} {b' : Bytes} {objs : List KObj}

theorem isAppend_of {ops : List WOp} (ha : ∀ off v, WOp.overwriteInt32 off v ∉ ops) :
    ∀ op ∈ ops, op.isAppend = true := by
  intro op hop
  cases op <;> first | rfl | exact absurd hop (ha _ _)

theorem Built.io0 (h : Built e io p m pre op post w0 w1 w') : w0.io = io ∧ w0.protocol = p := by
  obtain ⟨new, g⟩ := runAll_grows (al := false) h.before
    (isAppend_of fun off v hc => h.append off v (List.mem_append_left _ hc)) (by simp)
  exact ⟨g.io, g.proto⟩

/-- The object pushed by the call, among the objects the kernel finds. -/
theorem Built.pushed (h : Built e io p m pre op post w0 w1 w') {x : Obj} (hx : w1 = w0.push x) :
    ∃ objs r, getObjects io w'.bytes 0 w'.offsets = some objs ∧
      objs[w0.offsets.length]? = some (x.kernel io) ∧
      w'.offsets[w0.offsets.length]? = some w0.bytes.length ∧
      w'.bytes = w0.bytes ++ (x.bytes io ++ r) ∧ w1.bytes = w0.bytes ++ x.bytes io := by
  obtain ⟨hio, s, hs⟩ := runAll_built (al := false) h.before
    (isAppend_of fun off v hc => h.append off v (List.mem_append_left _ hc)) (by simp)
  obtain ⟨rest, g2⟩ := runAll_grows (al := false) h.after
    (isAppend_of fun off v hc => h.append off v (List.mem_append_right _ hc)) (by simp)
  subst hx
  have hb := ((Grows.push false w0 x).trans g2).built s (by rw [hio]; exact hs)
  rw [hio] at hb
  obtain ⟨r, hr, _⟩ := g2.tail
  obtain ⟨o, ho⟩ := g2.offs
  have hsl := hs.length_eq
  refine ⟨_, r, hb.placed.getObjects 0 (Nat.le_refl _), ?_, ?_, ?_, by simp [Writer.push, hio]⟩
  · rw [List.map_append, List.getElem?_append_right (by simp [hsl])]
    simp [hsl]
  · rw [ho]
    simp [Writer.push]
  · rw [hr]
    simp [Writer.push, hio]

end

theorem local_call {e : Env} {w0 w1 : Writer} {o : LocalRef}
    (h : (WOp.localObject (some o)).run e w0 = .ok w1) : w1 = w0.push (.loc w0.protocol o) := by
  simp only [WOp.run, appendLocalObject_eq] at h
  cases h; rfl

theorem remote_call {e : Env} {w0 w1 : Writer} {h' : Nat}
    (h : (WOp.remoteObject (some h')).run e w0 = .ok w1) : w1 = w0.push (.rem h') := by
  simp only [WOp.run, appendRemoteObject_eq] at h
  cases h; rfl

/-- C19, outgoing: the kernel finds the object where it was appended, identified by its own
address; with aidl3, its stability follows. -/
theorem C19_announced (e : Env) (io : Io) (p : Protocol) (m : Mem) (pre post : List WOp)
    (w0 w1 w' : Writer) (o : LocalRef) (hs : o.addr < 256 ^ word io) (hst : o.stability < 2 ^ 32)
    (h : Built e io p m pre (.localObject (some o)) post w0 w1 w') :
    ∃ objs, getObjects io w'.bytes 0 w'.offsets = some objs ∧
      objs[w0.offsets.length]? = some (.binder o.addr 0) ∧
      w'.offsets[w0.offsets.length]? = some w0.bytes.length ∧
      fieldAt w'.bytes w0.bytes.length 4 = tBinder ∧
      (p = .aidl3 → fieldAt w'.bytes (w0.bytes.length + (8 + 2 * word io)) 4 = o.stability) ∧
      w1.bytes.length = w0.bytes.length + (8 + 2 * word io) + (if p = .aidl3 then 4 else 0) := by
  obtain ⟨objs, r, h1, h2, h3, h4, h5⟩ := h.pushed (local_call h.call)
  rw [word_eq] at hs ⊢
  refine ⟨objs, h1, ?_, h3, ?_, ?_, ?_⟩
  · rw [h2]
    simp only [Obj.kernel, Nat.mod_eq_of_lt hs]
  · rw [h4]
    obtain ⟨x, hx⟩ : ∃ x, Obj.bytes io (.loc w0.protocol o) ++ r = leBytes 4 typeBinder ++ x :=
      ⟨_, by simp only [Obj.bytes, encodeLocalObject, List.append_assoc]; rfl⟩
    rw [hx]
    exact (fieldAt_mid _ _ _ rfl (by simp)).trans val_tBinder
  · intro hp
    rw [h4, h.io0.2, hp]
    have : w0.bytes ++ (Obj.bytes io (.loc .aidl3 o) ++ r) =
        (w0.bytes ++ (leBytes 4 typeBinder ++ (leBytes 4 (0x7f ||| 0x100) ++
          (leBytes io.ptrSize o.addr ++ leBytes io.ptrSize 0)))) ++ (leBytes 4 o.stability ++ r) := by
      simp only [Obj.bytes, encodeLocalObject, Protocol.finishFlatten, List.append_assoc]
    rw [this, fieldAt_mid _ _ _ (by simp; omega) (by simp), leVal_leBytes,
      Nat.mod_eq_of_lt (by simpa using hst)]
  · rw [h5]
    simp only [List.length_append, Obj.bytes, length_encodeLocalObject, h.io0.2, Io.flatSize]
    cases p <;> simp [Protocol.extra] <;> omega

theorem getObject_flat {io : Io} {b : Bytes} {x : Obj} {a r : Bytes} (hb : b = a ++ (x.bytes io ++ r)) :
    a.length + x.ksize io ≤ b.length := by
  have := x.ksize_le io
  subst hb
  simp only [List.length_append]
  omega

/-- Reading a handle which is there. -/
theorem read_handle {io : Io} {p : Protocol} {b' : Bytes} {offs : List Nat} {n o hd : Nat}
    (ho : offs[n]? = some o) (hl : o + io.flatSize ≤ b'.length)
    (ht : fieldAt b' o 4 = tHandle) (hh : fieldAt b' (o + 8) 4 = hd) :
    (Reader.since io p b' offs o n).readNullableObject =
      .ok (some hd) (Reader.since io p b' offs (o + (io.flatSize + p.extra)) (n + 1)) := by
  have hdr : offs.drop n = o :: offs.drop (n + 1) := by
    obtain ⟨hn, rfl⟩ := List.getElem?_eq_some_iff.mp ho
    exact List.drop_eq_getElem_cons hn
  have hf : 16 ≤ io.flatSize := by cases io <;> decide
  have d1 : slice b' o 4 = some ((b'.drop o).take 4) := slice_of_le (by omega)
  have d2 : slice b' (o + 8) 4 = some ((b'.drop (o + 8)).take 4) := slice_of_le (by omega)
  have ht' : leVal ((b'.drop o).take 4) = typeHandle := ht.trans (by decide)
  have hh' : leVal ((b'.drop (o + 8)).take 4) = hd := hh
  unfold readNullableObject
  rw [if_pos (by
    simp only [canReadObject, Reader.since, Reader.init, hdr]
    simp)]
  rw [if_pos (by
    simp only [Reader.since, Reader.init, bytesRemaining, remaining]
    change io.flatSize ≤ (if o ≤ 0 + b'.length then 0 + b'.length - o else _)
    rw [if_pos (by omega)]
    omega)]
  simp only [Reader.since, Reader.init, deref]
  rw [d1]
  simp only [ht', if_true]
  rw [d2]
  simp only [hh', eatObject, hdr, List.tail_cons]

/-- C19, received: the object appended by the sender is read as a remote object, with the handle
the kernel has chosen for it, and reading goes on with what the sender has written next. -/
theorem C19_received (e : Env) (io : Io) (p : Protocol) (m : Mem) (pre post : List WOp)
    (w0 w1 w' : Writer) (o : LocalRef) (hs : o.addr < 256 ^ word io)
    (h : Built e io p m pre (.localObject (some o)) post w0 w1 w')
    (objs : List KObj) (node : Nat → Nat) (other : Nat → Option Nat) (b' : Bytes)
    (t : References io w'.bytes w'.offsets objs node other b') :
    (Reader.since io p b' w'.offsets w0.bytes.length w0.offsets.length).readNullableObject =
      .ok (some (node o.addr))
        (Reader.since io p b' w'.offsets w1.bytes.length w1.offsets.length) := by
  obtain ⟨objs', r, h1, h2, h3, h4, h5⟩ := h.pushed (local_call h.call)
  rw [t.found] at h1
  cases h1
  rw [word_eq] at hs
  have hk : objs[w0.offsets.length]? = some (.binder o.addr 0) := by
    rw [h2]; simp only [Obj.kernel, Nat.mod_eq_of_lt hs]
  have hb : fieldAt w'.bytes w0.bytes.length 4 = tBinder := by
    rw [h4]
    obtain ⟨x, hx⟩ : ∃ x, Obj.bytes io (.loc w0.protocol o) ++ r = leBytes 4 typeBinder ++ x :=
      ⟨_, by simp only [Obj.bytes, encodeLocalObject, List.append_assoc]; rfl⟩
    rw [hx]
    exact (fieldAt_mid _ _ _ rfl (by simp)).trans val_tBinder
  obtain ⟨t1, t2⟩ := t.binder _ _ _ _ h3 hk hb
  rw [read_handle h3 (by rw [t.size]; exact getObject_flat (x := .loc w0.protocol o) h4) t1 t2]
  have : w1.bytes.length = w0.bytes.length + (io.flatSize + p.extra) := by
    rw [h5]
    simp only [List.length_append, Obj.bytes, length_encodeLocalObject, h.io0.2]
  rw [this]
  rw [local_call h.call]
  simp [Writer.push]

/-- C19, identity: two references are read as the same remote object exactly if they were
references to the same local object. -/
theorem C19_identity (e : Env) (io : Io) (p : Protocol) (m : Mem) (pre mid post : List WOp)
    (v0 v1 w0 w1 w' : Writer) (o1 o2 : LocalRef)
    (hs1 : o1.addr < 256 ^ word io) (hs2 : o2.addr < 256 ^ word io)
    (h1 : Built e io p m pre (.localObject (some o1)) (mid ++ .localObject (some o2) :: post) v0 v1 w')
    (h2 : Built e io p m (pre ++ .localObject (some o1) :: mid) (.localObject (some o2)) post w0 w1 w')
    (objs : List KObj) (node : Nat → Nat) (other : Nat → Option Nat) (b' : Bytes)
    (t : References io w'.bytes w'.offsets objs node other b') :
    ∃ n1 n2 r1 r2,
      (Reader.since io p b' w'.offsets v0.bytes.length v0.offsets.length).readNullableObject =
        .ok (some n1) r1 ∧
      (Reader.since io p b' w'.offsets w0.bytes.length w0.offsets.length).readNullableObject =
        .ok (some n2) r2 ∧ (n1 = n2 ↔ o1.addr = o2.addr) := by
  refine ⟨_, _, _, _, C19_received e io p m _ _ _ _ _ _ hs1 h1 objs node other b' t,
    C19_received e io p m _ _ _ _ _ _ hs2 h2 objs node other b' t, ?_⟩
  constructor
  · intro hn; exact t.node_inj _ _ hn
  · intro hn; rw [hn]

/-- C19 for handles passed on to somebody else, with any protocol but aidl3. The handle must not
refer to an object of the receiver (which the reader doesn't support). -/
theorem C19_remote_partial (e : Env) (io : Io) (p : Protocol) (hp : p ≠ .aidl3) (m : Mem)
    (pre post : List WOp) (w0 w1 w' : Writer) (hd hd' : Nat) (hs : hd < 2 ^ 32)
    (h : Built e io p m pre (.remoteObject (some hd)) post w0 w1 w')
    (objs : List KObj) (node : Nat → Nat) (other : Nat → Option Nat) (b' : Bytes)
    (t : References io w'.bytes w'.offsets objs node other b') (ho : other hd = some hd') :
    (Reader.since io p b' w'.offsets w0.bytes.length w0.offsets.length).readNullableObject =
      .ok (some hd') (Reader.since io p b' w'.offsets w1.bytes.length w1.offsets.length) := by
  obtain ⟨objs', r, h1, h2, h3, h4, h5⟩ := h.pushed (remote_call h.call)
  rw [t.found] at h1
  cases h1
  have hk : objs[w0.offsets.length]? = some (.handle hd) := by
    rw [h2]; simp only [Obj.kernel, Nat.mod_eq_of_lt hs]
  have hb : fieldAt w'.bytes w0.bytes.length 4 = tHandle := by
    rw [h4]
    obtain ⟨x, hx⟩ : ∃ x, Obj.bytes io (.rem hd) ++ r = leBytes 4 typeHandle ++ x :=
      ⟨_, by simp only [Obj.bytes, encodeRemoteObject, List.append_assoc]; rfl⟩
    rw [hx]
    exact (fieldAt_mid _ _ _ rfl (by simp)).trans val_tHandle
  have t12 := t.handle _ _ _ h3 hk hb
  rw [ho] at t12
  obtain ⟨t1, t2⟩ := t12
  rw [read_handle h3 (by rw [t.size]; exact getObject_flat (x := .rem hd) h4) t1 t2]
  have hx : p.extra = 0 := by cases p <;> first | rfl | exact absurd rfl hp
  have : w1.bytes.length = w0.bytes.length + (io.flatSize + p.extra) := by
    rw [h5]
    simp only [List.length_append, Obj.bytes, length_encodeRemoteObject, hx, Nat.add_zero]
  rw [this]
  rw [remote_call h.call]
  simp [Writer.push]

/-- C19 for NULL: nothing is announced to the kernel, and read_object returns NULL (as for
anything that is not an object). What is missing: the reader stays where it is. -/
theorem C19_null_partial (e : Env) (io : Io) (p : Protocol) (m : Mem) (pre post : List WOp)
    (w0 w1 w' : Writer) (op : WOp) (hop : op = .localObject none ∨ op = .remoteObject none)
    (h : Built e io p m pre op post w0 w1 w') (b' : Bytes) :
    w1.offsets = w0.offsets ∧
    (Reader.since io p b' w'.offsets w0.bytes.length w0.offsets.length).readNullableObject =
      .fail (Reader.since io p b' w'.offsets w0.bytes.length w0.offsets.length) := by
  have hf : 16 ≤ io.flatSize := by cases io <;> decide
  have hio := h.io0.1
  have hw : w1.offsets = w0.offsets ∧ w0.bytes.length < w1.bytes.length := by
    rcases hop with rfl | rfl
    · have hc := h.call
      simp only [WOp.run, appendLocalObject_eq] at hc
      cases hc
      simp only [pushRaw, List.length_append, length_encodeLocalObject, hio, true_and]
      omega
    · have hc := h.call
      simp only [WOp.run, appendRemoteObject_eq] at hc
      cases hc
      simp only [pushRaw, List.length_append, length_encodeRemoteObject, hio, true_and]
      omega
  refine ⟨hw.1, ?_⟩
  unfold readNullableObject
  rw [if_neg]
  obtain ⟨rest, g2⟩ := runAll_grows (al := false) h.after
    (isAppend_of fun off v hc => h.append off v (List.mem_append_right _ hc)) (by simp)
  obtain ⟨o, ho⟩ := g2.offs
  simp only [canReadObject, Reader.since, Reader.init, Bool.true_and]
  rw [ho, hw.1, List.drop_left]
  cases o with
  | nil => simp
  | cons a as =>
    simp only [beq_iff_eq]
    have := g2.late _ ho a List.mem_cons_self
    omega

/-! ### Disagreements -/

/-- A parcel with a handle followed by the number 5, aidl3, sent to a process for which the
handle is the same: read_object skips the number. -/
def remoteOps : List WOp := [.remoteObject (some 3), .int32 5, .int32 6]

/-- C19 is false for handles with aidl3: the sender doesn't write the stability word, the receiver
skips it nevertheless. -/
theorem C19_fails_remote :
    ∃ w' b' objs, WOp.runAll Demo.env { io := .io64, protocol := .aidl3, mem := [] } remoteOps = .ok w' ∧
      References .io64 w'.bytes w'.offsets objs id some b' ∧
      (Reader.since .io64 .aidl3 b' w'.offsets 0 0).readNullableObject =
        .ok (some 3) (Reader.since .io64 .aidl3 b' w'.offsets 28 1) ∧
      (Reader.since .io64 .aidl3 b' w'.offsets 28 1).readUInt32 =
        .ok 6 (Reader.since .io64 .aidl3 b' w'.offsets 32 1) := by
  refine ⟨_, _, [.handle 3], rfl, ⟨by decide +kernel, rfl, fun _ _ _ => rfl, ?_, fun _ _ h => h, ?_⟩,
    by decide +kernel, by decide +kernel⟩
  · intro i o ptr cookie _ hx
    cases i with
    | zero => cases hx
    | succ i => cases hx
  · intro i o hd ho hx _
    cases i with
    | zero => cases hx; cases ho; decide +kernel
    | succ i => cases hx

/-- C19 is false for NULL: the receiver reads NULL, and the next thing it reads is not what the
sender has written next but the NULL reference again. -/
theorem C19_fails_null (p : Protocol) :
    ∃ w', WOp.runAll Demo.env { io := .io64, protocol := p, mem := [] }
        [.localObject none, .int32 5] = .ok w' ∧ w'.offsets = [] ∧
      (Reader.since .io64 p w'.bytes [] 0 0).readNullableObject =
        .fail (Reader.since .io64 p w'.bytes [] 0 0) ∧
      (Reader.since .io64 p w'.bytes [] 0 0).readUInt32 =
        .ok 0x73622a85 (Reader.since .io64 p w'.bytes [] 4 0) := by
  cases p <;> exact ⟨_, rfl, rfl, by decide +kernel, by decide +kernel⟩

/-- A parcel with two local objects as it is written (`ty` is the type of the
references). -/
def demoBytes (ty : Nat) : Bytes :=
  leBytes 4 7 ++ (leBytes 4 ty ++ leBytes 4 0x17f ++ leBytes 8 0x1000 ++ leBytes 8 0 ++ leBytes 4 3) ++
    (leBytes 4 ty ++ leBytes 4 0x17f ++ leBytes 8 0x55550 ++ leBytes 8 0 ++ leBytes 4 12) ++ leBytes 4 9

def demoWriter (n k : Nat) : Writer :=
  { io := .io64, protocol := .aidl3, bytes := (demoBytes tBinder).take n, offsets := [4, 32].take k }

/-- It meets the hypotheses, the kernel turns references into handles. -/
example :
    Built Demo.env .io64 .aidl3 [] [.int32 7, .localObject (some ⟨0x1000, 3⟩)]
        (.localObject (some ⟨0x55550, 12⟩)) [.int32 9] (demoWriter 32 1) (demoWriter 60 2) (demoWriter 64 2) ∧
      References .io64 (demoWriter 64 2).bytes (demoWriter 64 2).offsets
        [.binder 0x1000 0, .binder 0x55550 0] id some (demoBytes tHandle) := by
  refine ⟨⟨by decide +kernel, by decide +kernel, by decide +kernel, by simp⟩,
    ⟨by decide +kernel, by decide +kernel, ?_, ?_, fun _ _ h => h, ?_⟩⟩
  · intro k hk h
    have h0 := h 0 4 _ _ rfl (by decide +kernel : getObject .io64 _ 4 = some (.binder 0x1000 0, 24))
    have h1 := h 1 32 _ _ rfl (by decide +kernel : getObject .io64 _ 32 = some (.binder 0x55550 0, 24))
    have hk' : k < 64 := hk
    have key : ∀ k : Fin 64, (k.val < 4 ∨ 28 ≤ k.val) → (k.val < 32 ∨ 56 ≤ k.val) →
        (demoBytes tHandle)[k.val]? = (demoWriter 64 2).bytes[k.val]? := by
      decide +kernel
    exact key ⟨k, hk'⟩ (by simpa using h0) (by simpa using h1)
  · intro i o ptr cookie ho hx _
    match i with
    | 0 => cases hx; cases ho; decide +kernel
    | 1 => cases hx; cases ho; decide +kernel
    | i + 2 => cases hx
  · intro i o hd ho hx _
    match i with
    | 0 => cases hx
    | 1 => cases hx
    | i + 2 => cases hx

end Gb.C19
