import Verif.Lemmas.Grows
import Verif.Lemmas.Tx
import Verif.Spec.Demo
/-
C11. The size of the buffers reported with a transaction is the one the kernel needs.

`Kernel.getObjects` finds the objects in the parcel, `Kernel.extra` is the space the kernel takes
for a buffer object, `Kernel.parseTx` is how the kernel understands the command.  The only
hypothesis besides "the calls were made on an empty writer" is that the total size is
representable in the ABI's binder_size_t.
-/
set_option autoImplicit false

namespace Gb.C11
open Kernel

theorem extra_eq {io : Io} {s : List Obj} (h : (s.map Obj.bufSize).sum < 256 ^ io.ptrSize) :
    ((s.map (Obj.kernel io)).map extra).sum = (s.map Obj.bufSize).sum := by
  induction s with
  | nil => rfl
  | cons x s ih =>
    simp only [List.map_cons, List.sum_cons] at h ⊢
    rw [ih (by omega)]
    congr 1
    cases x with
    | buf d n par =>
      simp only [Obj.bufSize, align8] at h
      simp only [Obj.kernel, extra, Obj.bufSize, align8]
      rw [Nat.mod_eq_of_lt (by omega)]
    | _ => rfl

/-- C11: the size kept by the writer. -/
theorem C11_buffers_size (e : Env) (io : Io) (p : Protocol) (m : Mem) (ops : List WOp) (w' : Writer)
    (ha : ∀ off v, WOp.overwriteInt32 off v ∉ ops)
    (h : WOp.runAll e { io := io, protocol := p, mem := m } ops = .ok w')
    (hfit : w'.buffersSize < 256 ^ io.ptrSize) :
    ∃ objs, getObjects io w'.bytes 0 w'.offsets = some objs ∧
      w'.buffersSize = (objs.map extra).sum := by
  obtain ⟨_, s, hb⟩ := runAll_built (al := false) h (by
    intro op hop
    cases op <;> first | rfl | exact absurd hop (ha _ _)) (by simp)
  refine ⟨_, hb.placed.getObjects 0 (Nat.le_refl _), ?_⟩
  rw [extra_eq (by rw [← hb.bufs]; exact hfit)]
  exact hb.bufs

theorem extra_mod (objs : List KObj) : (objs.map extra).sum % 8 = 0 := by
  induction objs with
  | nil => rfl
  | cons x xs ih =>
    have : extra x % 8 = 0 := by
      cases x <;> simp only [extra] <;> omega
    simp only [List.map_cons, List.sum_cons]
    omega

theorem extra_ne (objs : List KObj) : (objs.map extra).sum ≠ 0 ↔
    ∃ a n par, KObj.buffer a n par ∈ objs ∧ 0 < n := by
  induction objs with
  | nil => simp
  | cons x xs ih =>
    simp only [List.map_cons, List.sum_cons]
    have hx : extra x ≠ 0 ↔ ∃ a n par, KObj.buffer a n par = x ∧ 0 < n := by
      cases x with
      | buffer a n par =>
        simp only [extra, KObj.buffer.injEq]
        constructor
        · intro h; exact ⟨a, n, par, ⟨rfl, rfl, rfl⟩, by omega⟩
        · rintro ⟨_, _, _, ⟨rfl, rfl, rfl⟩, h⟩; omega
      | _ => simp [extra]
    constructor
    · intro h
      by_cases h1 : extra x = 0
      · obtain ⟨a, n, par, hm, hn⟩ := ih.mp (by omega)
        exact ⟨a, n, par, List.mem_cons_of_mem _ hm, hn⟩
      · obtain ⟨a, n, par, hm, hn⟩ := hx.mp h1
        exact ⟨a, n, par, by rw [hm]; exact List.mem_cons_self, hn⟩
    · rintro ⟨a, n, par, hm, hn⟩
      rcases List.mem_cons.mp hm with rfl | hm
      · have := hx.mpr ⟨a, n, par, rfl, hn⟩; omega
      · have := ih.mpr ⟨a, n, par, hm, hn⟩; omega

/-- C11: the command given to the kernel. The scatter-gather variant is used exactly if some
buffer object isn't empty, and announces exactly the space the kernel is going to need. -/
theorem C11_transaction (e : Env) (io : Io) (p : Protocol) (m : Mem) (ops : List WOp) (w' : Writer)
    (handle code bufPtr offPtr : Nat) (oneway : Bool)
    (ha : ∀ off v, WOp.overwriteInt32 off v ∉ ops)
    (h : WOp.runAll e { io := io, protocol := p, mem := m } ops = .ok w')
    (hfit : w'.buffersSize < 256 ^ io.ptrSize) :
    ∃ objs tx, getObjects io w'.bytes 0 w'.offsets = some objs ∧
      parseTx io (transactionCommand io w' handle code oneway bufPtr offPtr).1 = some tx ∧
      (tx.sg = true ↔ ∃ a n par, KObj.buffer a n par ∈ objs ∧ 0 < n) ∧
      tx.extra = (objs.map extra).sum := by
  obtain ⟨objs, ho, hs⟩ := C11_buffers_size e io p m ops w' ha h hfit
  have hm := extra_mod objs
  have hne := extra_ne objs
  rw [← hs] at hm hne
  unfold transactionCommand
  simp only []
  split
  · rename_i h0
    refine ⟨objs, _, ho, parseTx_sg io _ .transactionSg _ (.inl rfl), ?_, ?_⟩
    · simp only [true_iff]; exact hne.mp h0
    · rw [← hs]
      simp only [align8]
      rw [Nat.mod_eq_of_lt (by omega)]; omega
  · rename_i h0
    refine ⟨objs, _, ho, parseTx_plain io _ .transaction (.inl rfl), ?_, ?_⟩
    · simp only [Bool.false_eq_true, false_iff]; rw [← hne]; exact h0
    · rw [← hs]; simp only []; omega

/-- C11 for replies. -/
theorem C11_reply (e : Env) (io : Io) (p : Protocol) (m : Mem) (ops : List WOp) (w' : Writer)
    (bufPtr offPtr : Nat)
    (ha : ∀ off v, WOp.overwriteInt32 off v ∉ ops)
    (h : WOp.runAll e { io := io, protocol := p, mem := m } ops = .ok w')
    (hfit : w'.buffersSize < 256 ^ io.ptrSize) :
    ∃ objs tx, getObjects io w'.bytes 0 w'.offsets = some objs ∧
      parseTx io (replyCommand io w' bufPtr offPtr).1 = some tx ∧
      (tx.sg = true ↔ ∃ a n par, KObj.buffer a n par ∈ objs ∧ 0 < n) ∧
      tx.extra = (objs.map extra).sum := by
  obtain ⟨objs, ho, hs⟩ := C11_buffers_size e io p m ops w' ha h hfit
  have hm := extra_mod objs
  have hne := extra_ne objs
  rw [← hs] at hm hne
  unfold replyCommand
  simp only []
  split
  · rename_i h0
    refine ⟨objs, _, ho, parseTx_sg io _ .replySg _ (.inr rfl), ?_, ?_⟩
    · simp only [true_iff]; exact hne.mp h0
    · rw [← hs]
      simp only [align8]
      rw [Nat.mod_eq_of_lt (by omega)]; omega
  · rename_i h0
    refine ⟨objs, _, ho, parseTx_plain io _ .reply (.inr rfl), ?_, ?_⟩
    · simp only [Bool.false_eq_true, false_iff]; rw [← hne]; exact h0
    · rw [← hs]; simp only []; omega

/-- C11: a structure of an unknown type takes no space, which means that nothing of it is sent. -/
theorem C11_untyped (e : Env) (w w' : Writer) (ptr : Nat) (par : Option Parent)
    (h : WOp.run e w (.struct ptr none par) = .ok w') :
    w'.buffersSize = w.buffersSize ∧ w'.offsets.length = w.offsets.length + 1 := by
  simp only [WOp.run, Writer.appendBufferObject, Writer.putObject, Writer.withBytes, bind, Except.bind] at h
  split at h <;> simp [Except.map] at h
  subst h
  rename_i h1
  split at h1 <;> simp [Except.map] at h1
  subst h1
  simp [Writer.recordOffset, align8]

/-- Calls meeting the hypotheses. -/
example : (∀ off v, WOp.overwriteInt32 off v ∉ Demo.ops) ∧
    (WOp.runAll Demo.env { io := .io32, protocol := .hidl, mem := Demo.mem } Demo.ops).map
      (·.buffersSize) = .ok 136 :=
  ⟨by intro off v; simp [Demo.ops], by decide +kernel⟩

end Gb.C11
