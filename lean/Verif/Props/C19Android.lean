import Verif.Props.C19
import Verif.Lemmas.AndroidObjects
/-
C19 with Android at the other end.

Not everywhere: Android takes what follows a handle written with the aidl3 protocol for the stability of the object
(`C19_fails_android_remote`), and references which Android reads as NULL can't be read with GBinderReader
(`C19_fails_android_null`).
-/
set_option autoImplicit false

namespace Gb.C19
open Kernel Writer Reader

theorem flat_word (io : Io) : io.flatSize = 8 + 2 * word io := by cases io <;> rfl

/-- Reading a handle which is there. -/
theorem android_handle {io : Io} {st : Bool} {b : Bytes} {offs : List Nat} {p h : Nat} (hp : p ∈ offs)
    (hl : p + (8 + 2 * word io) ≤ b.length) (ht : fieldAt b p 4 = tHandle) (hh : fieldAt b (p + 8) 4 = h) :
    Android.readBinder io st b offs p = Android.finish st b (.handle h) (p + (8 + 2 * word io)) := by
  have hw : 4 ≤ word io := by cases io <;> decide
  simp only [Android.readBinder]
  rw [if_pos hl, if_pos (Or.inr hp), num_field b (show p + 4 ≤ b.length by omega), ht, if_neg (by decide),
    if_pos rfl, num_field b (show p + 8 + 4 ≤ b.length by omega), hh]

/-- C19, read by Android: the object appended by the sender is the object which the kernel has chosen the handle for,
its stability is that set by the sender, and reading goes on with what the sender has written next. -/
theorem C19_android (e : Env) (io : Io) (p : Protocol) (m : Mem) (pre post : List WOp)
    (w0 w1 w' : Writer) (o : LocalRef) (hs : o.addr < 256 ^ word io)
    (hst : p = .aidl3 → o.stability ∈ [0x03, 0x0c, 0x3f])
    (h : Built e io p m pre (.localObject (some o)) post w0 w1 w')
    (objs : List KObj) (node : Nat → Nat) (other : Nat → Option Nat) (b' : Bytes)
    (t : References io w'.bytes w'.offsets objs node other b') :
    Android.readBinder io (p == .aidl3) b' w'.offsets w0.bytes.length =
      some (.handle (node o.addr), if p = .aidl3 then o.stability else 0, w1.bytes.length) := by
  have hlt : p = .aidl3 → o.stability < 2 ^ 32 := by
    intro hp
    have := hst hp
    simp only [List.mem_cons, List.not_mem_nil, or_false] at this
    omega
  obtain ⟨objs', r, h1, h2, h3, h4, h5⟩ := h.pushed (local_call h.call)
  have ha := h1
  rw [t.found] at h1
  cases h1
  have hsp := hs
  rw [word_eq] at hsp
  have hk : objs[w0.offsets.length]? = some (.binder o.addr 0) := by
    rw [h2]; simp only [Obj.kernel, Nat.mod_eq_of_lt hsp]
  have hb : fieldAt w'.bytes w0.bytes.length 4 = tBinder := by
    rw [h4]
    obtain ⟨x, hx⟩ : ∃ x, Obj.bytes io (.loc w0.protocol o) ++ r = leBytes 4 typeBinder ++ x :=
      ⟨_, by simp only [Obj.bytes, encodeLocalObject, List.append_assoc]; rfl⟩
    rw [hx]
    exact (fieldAt_mid _ _ _ rfl (by simp)).trans val_tBinder
  obtain ⟨t1, t2⟩ := t.binder _ _ _ _ h3 hk hb
  have hlen : w0.bytes.length + (8 + 2 * word io) ≤ b'.length := by
    have := getObject_flat (x := .loc w0.protocol o) h4
    simp only [Obj.ksize, flat_word] at this
    rw [t.size]
    exact this
  rw [android_handle (List.mem_of_getElem? h3) hlen t1 t2]
  have hw1 : w1.bytes.length = w0.bytes.length + (8 + 2 * word io) + (if p = .aidl3 then 4 else 0) := by
    rw [h5, word_eq]
    simp only [List.length_append, Obj.bytes, length_encodeLocalObject, h.io0.2, Io.flatSize]
    cases p <;> simp [Protocol.extra] <;> omega
  have hw' : w1.bytes.length ≤ w'.bytes.length := by
    rw [h4, h5]; simp only [List.length_append]; omega
  by_cases hp : p = .aidl3
  · subst hp
    simp only [if_true] at hw1 ⊢
    obtain ⟨hio, s, hsb⟩ := runAll_built (al := false) h.before
      (isAppend_of fun off v hc => h.append off v (List.mem_append_left _ hc)) (by simp)
    obtain ⟨rest, g2⟩ := runAll_grows (al := false) h.after
      (isAppend_of fun off v hc => h.append off v (List.mem_append_right _ hc)) (by simp)
    have hstab : Android.num b' (w0.bytes.length + (8 + 2 * word io)) 4 = o.stability := by
      rw [num_same (b := w'.bytes)]
      · rw [num_field _ (by omega), h4, h.io0.2]
        have : w0.bytes ++ (Obj.bytes io (.loc .aidl3 o) ++ r) =
            (w0.bytes ++ (leBytes 4 typeBinder ++ (leBytes 4 (0x7f ||| 0x100) ++
              (leBytes io.ptrSize o.addr ++ leBytes io.ptrSize 0)))) ++ (leBytes 4 o.stability ++ r) := by
          simp only [Obj.bytes, encodeLocalObject, Protocol.finishFlatten, List.append_assoc]
        rw [this, fieldAt_mid _ _ _ (by rw [word_eq]; simp; omega) (by simp), leVal_leBytes,
          Nat.mod_eq_of_lt (by simpa using hlt rfl)]
      · intro k k1 k2
        refine t.data k (by omega) (outside hsb h5 (o1 := [w0.bytes.length]) ?_ g2 ?_ (by omega) (by omega))
        · rw [local_call h.call]; simp [Writer.push]
        · intro off hoff x sz hg
          cases List.mem_singleton.mp hoff
          rw [h4, getObject_bytes] at hg
          cases hg
          simp only [Obj.ksize, Io.flatSize]
          rw [word_eq] at k1
          omega
    simp only [Android.finish, hstab, beq_self_eq_true, if_true]
    rw [if_pos (by rw [t.size]; omega), if_pos (by rw [if_neg (by simp)]; exact hst rfl), hw1]
  · rw [if_neg hp] at hw1 ⊢
    rw [hw1]
    have : (p == Protocol.aidl3) = false := by cases p <;> first | rfl | exact absurd rfl hp
    rw [this]
    rfl

/-- C19, handles read by Android, with any protocol but aidl3. -/
theorem C19_android_remote_partial (e : Env) (io : Io) (p : Protocol) (hp : p ≠ .aidl3) (m : Mem)
    (pre post : List WOp) (w0 w1 w' : Writer) (hd hd' : Nat) (hs : hd < 2 ^ 32)
    (h : Built e io p m pre (.remoteObject (some hd)) post w0 w1 w')
    (objs : List KObj) (node : Nat → Nat) (other : Nat → Option Nat) (b' : Bytes)
    (t : References io w'.bytes w'.offsets objs node other b') (ho : other hd = some hd') :
    Android.readBinder io (p == .aidl3) b' w'.offsets w0.bytes.length =
      some (.handle hd', 0, w1.bytes.length) := by
  obtain ⟨objs', r, h1, h2, h3, h4, h5⟩ := h.pushed (remote_call h.call)
  rw [t.found] at h1
  cases h1
  have hk : objs[w0.offsets.length]? = some (.handle hd) := by
    rw [h2]; simp only [Obj.kernel, Nat.mod_eq_of_lt hs]
  have hb : fieldAt w'.bytes w0.bytes.length 4 = tHandle := by
    rw [h4]
    obtain ⟨x, hx⟩ : ∃ x, Obj.bytes io (.rem hd) ++ r = leBytes 4 typeHandle ++ x :=
      ⟨_, by simp only [Obj.bytes, encodeRemoteObject, List.append_assoc]; rfl⟩
    rw [hx]
    exact (fieldAt_mid _ _ _ rfl (by simp)).trans val_tHandle
  have t12 := t.handle _ _ _ h3 hk hb
  rw [ho] at t12
  obtain ⟨t1, t2⟩ := t12
  have hlen : w0.bytes.length + (8 + 2 * word io) ≤ b'.length := by
    have := getObject_flat (x := .rem hd) h4
    simp only [Obj.ksize, flat_word] at this
    rw [t.size]
    exact this
  rw [android_handle (List.mem_of_getElem? h3) hlen t1 t2]
  have : (p == Protocol.aidl3) = false := by cases p <;> first | rfl | exact absurd rfl hp
  rw [this]
  simp only [Android.finish, h5, List.length_append, Obj.bytes, length_encodeRemoteObject, flat_word]
  rfl

/-- What a NULL reference looks like. -/
theorem null_bytes {e : Env} {io : Io} {p : Protocol} {m : Mem} {pre post : List WOp} {w0 w1 w' : Writer} {op : WOp}
    (hop : op = .localObject none ∨ op = .remoteObject none ∧ p ≠ .aidl3)
    (h : Built e io p m pre op post w0 w1 w') :
    w1.offsets = w0.offsets ∧ w1.bytes = w0.bytes ++ (leBytes 4 typeBinder ++ (leBytes 4 0 ++
      (leBytes io.ptrSize 0 ++ (leBytes io.ptrSize 0 ++ List.replicate p.extra 0)))) := by
  have hio := h.io0
  rcases hop with rfl | ⟨rfl, hp⟩
  · have hc := h.call
    simp only [WOp.run, appendLocalObject_eq] at hc
    cases hc
    refine ⟨rfl, ?_⟩
    simp only [pushRaw, hio.1, hio.2, encodeLocalObject, List.append_assoc]
    cases p <;> rfl
  · have hc := h.call
    simp only [WOp.run, appendRemoteObject_eq] at hc
    cases hc
    refine ⟨rfl, ?_⟩
    have hx : p.extra = 0 := by cases p <;> first | rfl | exact absurd rfl hp
    simp only [pushRaw, hio.1, hx, List.replicate_zero, List.append_nil]
    cases io <;> rfl

/-- C19, NULL read by Android: it's NULL, and reading goes on with what the sender has written next. -/
theorem C19_android_null_partial (e : Env) (io : Io) (p : Protocol) (m : Mem) (pre post : List WOp)
    (w0 w1 w' : Writer) (op : WOp) (hop : op = .localObject none ∨ op = .remoteObject none ∧ p ≠ .aidl3)
    (h : Built e io p m pre op post w0 w1 w')
    (objs : List KObj) (node : Nat → Nat) (other : Nat → Option Nat) (b' : Bytes)
    (t : References io w'.bytes w'.offsets objs node other b') :
    Android.readBinder io (p == .aidl3) b' w'.offsets w0.bytes.length = some (.null, 0, w1.bytes.length) := by
  obtain ⟨ho1, hw⟩ := null_bytes hop h
  obtain ⟨hio, s, hsb⟩ := runAll_built (al := false) h.before
    (isAppend_of fun off v hc => h.append off v (List.mem_append_left _ hc)) (by simp)
  obtain ⟨rest, g2⟩ := runAll_grows (al := false) h.after
    (isAppend_of fun off v hc => h.append off v (List.mem_append_right _ hc)) (by simp)
  obtain ⟨r, hr, _⟩ := g2.tail
  have hwl : w1.bytes.length = w0.bytes.length + (8 + 2 * word io) + p.extra := by
    rw [hw, word_eq]; simp only [List.length_append, length_leBytes, List.length_replicate]; omega
  have hl : w1.bytes.length ≤ w'.bytes.length := by rw [hr]; simp
  have keep : ∀ q n, w0.bytes.length ≤ q → q + n ≤ w1.bytes.length →
      Android.num b' q n = fieldAt w'.bytes q n := by
    intro q n q1 q2
    rw [num_same (b := w'.bytes), num_field _ (by omega)]
    intro k k1 k2
    exact t.data k (by omega)
      (outside hsb hw (o1 := []) (by simpa using ho1) g2 (by simp) (by omega) (by omega))
  have e1 : Android.num b' w0.bytes.length 4 = tBinder := by
    rw [keep _ _ (Nat.le_refl _) (by omega), hr, hw]
    simp only [List.append_assoc]
    exact (fieldAt_mid _ _ _ rfl (by simp)).trans val_tBinder
  have z : ∀ n, leVal (leBytes n 0) = 0 := by intro n; rw [leVal_leBytes]; simp
  have e2 : Android.num b' (w0.bytes.length + 8) (word io) = 0 := by
    rw [keep _ _ (by omega) (by omega), hr, hw]
    rw [show w0.bytes ++ (leBytes 4 typeBinder ++ (leBytes 4 0 ++ (leBytes io.ptrSize 0 ++ (leBytes io.ptrSize 0 ++
      List.replicate p.extra 0)))) ++ r = (w0.bytes ++ (leBytes 4 typeBinder ++ leBytes 4 0)) ++ (leBytes io.ptrSize 0 ++
      (leBytes io.ptrSize 0 ++ (List.replicate p.extra 0 ++ r))) by simp only [List.append_assoc]]
    rw [fieldAt_mid _ _ _ (by simp) (by simp [word_eq]), z]
  have e3 : Android.num b' (w0.bytes.length + 8 + word io) (word io) = 0 := by
    rw [keep _ _ (by omega) (by omega), hr, hw]
    rw [show w0.bytes ++ (leBytes 4 typeBinder ++ (leBytes 4 0 ++ (leBytes io.ptrSize 0 ++ (leBytes io.ptrSize 0 ++
      List.replicate p.extra 0)))) ++ r = (w0.bytes ++ (leBytes 4 typeBinder ++ (leBytes 4 0 ++ leBytes io.ptrSize 0))) ++
      (leBytes io.ptrSize 0 ++ (List.replicate p.extra 0 ++ r)) by simp only [List.append_assoc]]
    rw [fieldAt_mid _ _ _ (by simp [word_eq]; omega) (by simp [word_eq]), z]
  have hlen : w0.bytes.length + (8 + 2 * word io) ≤ b'.length := by rw [t.size]; omega
  simp only [Android.readBinder]
  rw [if_pos hlen, if_pos (Or.inl ⟨e2, e3⟩), if_pos e1, if_pos e3]
  by_cases hp : p = .aidl3
  · subst hp
    simp only [Protocol.extra] at hwl
    have e4 : Android.num b' (w0.bytes.length + (8 + 2 * word io)) 4 = 0 := by
      rw [keep _ _ (by omega) (by omega), hr, hw]
      rw [show w0.bytes ++ (leBytes 4 typeBinder ++ (leBytes 4 0 ++ (leBytes io.ptrSize 0 ++ (leBytes io.ptrSize 0 ++
        List.replicate (Protocol.extra .aidl3) 0)))) ++ r = (w0.bytes ++ (leBytes 4 typeBinder ++ (leBytes 4 0 ++
        (leBytes io.ptrSize 0 ++ leBytes io.ptrSize 0)))) ++ (List.replicate (Protocol.extra .aidl3) 0 ++ r) by
        simp only [List.append_assoc]]
      rw [fieldAt_mid _ _ _ (by simp [word_eq]; omega) (by simp [Protocol.extra])]
      rfl
    simp only [Android.finish, e4, beq_self_eq_true, if_true]
    rw [if_pos (by rw [t.size]; omega), hwl]
  · have hx : p.extra = 0 := by cases p <;> first | rfl | exact absurd rfl hp
    have : (p == Protocol.aidl3) = false := by cases p <;> first | rfl | exact absurd rfl hp
    rw [this, hwl, hx]
    rfl

/-- C19, received from Android: the handle which Android would read from a parcel is read, and so is what's next. -/
theorem C19_android_received (io : Io) (p : Protocol) (b : Bytes) (offs : List Nat) (i o h st q : Nat)
    (ho : offs[i]? = some o)
    (hr : Android.readBinder io (p == .aidl3) b offs o = some (.handle h, st, q)) :
    (Reader.since io p b offs o i).readNullableObject =
      .ok (some h) (Reader.since io p b offs q (i + 1)) := by
  have hw : 4 ≤ word io := by cases io <;> decide
  simp only [Android.readBinder] at hr
  split at hr
  case isFalse => cases hr
  rename_i hl
  split at hr
  case isFalse => cases hr
  have fin : ∀ r, Android.finish (p == .aidl3) b r (o + (8 + 2 * word io)) = some (.handle h, st, q) →
      r = .handle h ∧ q = o + (8 + 2 * word io) + p.extra := by
    intro r hf
    simp only [Android.finish] at hf
    cases p <;> simp at hf <;> grind [Protocol.extra]
  split at hr
  · have := (fin _ hr).1
    split at this <;> cases this
  · split at hr
    · rename_i ht
      obtain ⟨f1, f2⟩ := fin _ hr
      cases f1
      rw [num_field _ (by omega)] at ht
      rw [read_handle ho (by rw [flat_word]; exact hl) ht (num_field _ (by omega)).symm, f2, flat_word, ← Nat.add_assoc o]
    · cases hr

/-! ### Disagreements -/

/-- C19 is false for handles with aidl3: Android takes the next number for the stability, and refuses the reference
if it makes no sense as a stability, or if there's nothing after the handle. -/
theorem C19_fails_android_remote :
    ∃ w1 w2 w3 b1 b2 b3,
      WOp.runAll Demo.env { io := .io64, protocol := .aidl3, mem := [] } [.remoteObject (some 3), .int32 12] = .ok w1 ∧
      WOp.runAll Demo.env { io := .io64, protocol := .aidl3, mem := [] } [.remoteObject (some 3), .int32 5] = .ok w2 ∧
      WOp.runAll Demo.env { io := .io64, protocol := .aidl3, mem := [] } [.remoteObject (some 3)] = .ok w3 ∧
      References .io64 w1.bytes w1.offsets [.handle 3] id some b1 ∧
      References .io64 w2.bytes w2.offsets [.handle 3] id some b2 ∧
      References .io64 w3.bytes w3.offsets [.handle 3] id some b3 ∧
      Android.readBinder .io64 true b1 w1.offsets 0 = some (.handle 3, 12, 28) ∧
      Android.readBinder .io64 true b2 w2.offsets 0 = none ∧
      Android.readBinder .io64 true b3 w3.offsets 0 = none := by
  refine ⟨_, _, _, _, _, _, rfl, rfl, rfl, ⟨by decide +kernel, rfl, fun _ _ _ => rfl, ?_, fun _ _ h => h, ?_⟩,
    ⟨by decide +kernel, rfl, fun _ _ _ => rfl, ?_, fun _ _ h => h, ?_⟩,
    ⟨by decide +kernel, rfl, fun _ _ _ => rfl, ?_, fun _ _ h => h, ?_⟩,
    by decide +kernel, by decide +kernel, by decide +kernel⟩
  all_goals first
    | intro i o ptr cookie _ hx
      cases i with
      | zero => cases hx
      | succ i => cases hx
    | intro i o hd ho hx _
      cases i with
      | zero => cases hx; cases ho; decide +kernel
      | succ i => cases hx

/-- C19 is false for NULL received from Android: Android doesn't have such references in the table of objects, for
GBinderReader they aren't objects then. -/
theorem C19_fails_android_null (p : Protocol) :
    ∃ b q, Android.readBinder .io64 (p == .aidl3) b [] 0 = some (.null, 0, q) ∧
      Android.readAt b q .int32 = some (.num 5, q + 4) ∧
      (Reader.since .io64 p b [] 0 0).readNullableObject = .fail (Reader.since .io64 p b [] 0 0) := by
  cases p
  case aidl3 =>
    exact ⟨leBytes 4 typeBinder ++ List.replicate 24 0 ++ leBytes 4 5, 28, by decide +kernel, by decide +kernel,
      by decide +kernel⟩
  all_goals
    exact ⟨leBytes 4 typeBinder ++ List.replicate 20 0 ++ leBytes 4 5, 24, by decide +kernel, by decide +kernel,
      by decide +kernel⟩

/-! ### Examples -/

/-- Two objects, see the examples for C19: a VENDOR one, a SYSTEM one, and a number. -/
example : Android.readBinder .io64 true (demoBytes tHandle) [4, 32] 4 = some (.handle 0x1000, 3, 32) ∧
    Android.readBinder .io64 true (demoBytes tHandle) [4, 32] 32 = some (.handle 0x55550, 12, 60) ∧
    Android.readAt (demoBytes tHandle) 60 .int32 = some (.num 9, 64) := by
  decide +kernel

/-- The hypotheses of `C19_android_received`. -/
example : [4, 32][1]? = some 32 ∧
    Android.readBinder .io64 (Protocol.aidl3 == .aidl3) (demoBytes tHandle) [4, 32] 32 =
      some (.handle 0x55550, 12, 60) := by
  decide +kernel

/-- What was written for NULL. -/
def nullWriter : Writer :=
  { io := .io32, protocol := .aidl3,
    bytes := leBytes 4 7 ++ leBytes 4 typeBinder ++ List.replicate 12 0 ++ List.replicate 4 0 ++ leBytes 4 9 }

/-- The hypotheses of `C19_android_null_partial`. -/
example :
    Built Demo.env .io32 .aidl3 [] [.int32 7] (.localObject none) [.int32 9]
        { nullWriter with bytes := nullWriter.bytes.take 4 } { nullWriter with bytes := nullWriter.bytes.take 24 }
        nullWriter ∧
      References .io32 nullWriter.bytes nullWriter.offsets [] id some nullWriter.bytes :=
  ⟨⟨by decide +kernel, by decide +kernel, by decide +kernel, by simp⟩,
    ⟨by decide +kernel, rfl, fun _ _ _ => rfl, (fun i _ _ _ h => by cases i <;> cases h), fun _ _ h => h,
      (fun i _ _ h => by cases i <;> cases h)⟩⟩

/-- What was written for a handle. -/
def handleWriter : Writer :=
  { io := .io64, protocol := .aidl,
    bytes := leBytes 4 7 ++ leBytes 4 typeHandle ++ leBytes 4 0x100 ++ leBytes 8 3 ++ leBytes 8 0 ++ leBytes 4 9,
    offsets := [4] }

/-- The hypotheses of `C19_android_remote_partial`. -/
example :
    Built Demo.env .io64 .aidl [] [.int32 7] (.remoteObject (some 3)) [.int32 9]
        { handleWriter with bytes := handleWriter.bytes.take 4, offsets := [] }
        { handleWriter with bytes := handleWriter.bytes.take 28 } handleWriter ∧
      References .io64 handleWriter.bytes handleWriter.offsets [.handle 3] id some handleWriter.bytes := by
  refine ⟨⟨by decide +kernel, by decide +kernel, by decide +kernel, by simp⟩,
    ⟨by decide +kernel, rfl, fun _ _ _ => rfl, ?_, fun _ _ h => h, ?_⟩⟩
  · intro i o ptr cookie _ hx
    cases i with
    | zero => cases hx
    | succ i => cases hx
  · intro i o hd ho hx _
    cases i with
    | zero => cases hx; cases ho; decide +kernel
    | succ i => cases hx

end Gb.C19
