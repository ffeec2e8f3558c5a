import Verif.Model.Tx
import Verif.Lemmas.Layout
/-
The command words and headers as the kernel sees them.
-/
set_option autoImplicit false

namespace Gb
open Kernel

theorem code_transaction (io : Io) : BC.transaction.code io = bcTransaction io := by
  cases io <;> decide
theorem code_reply (io : Io) : BC.reply.code io = bcReply io := by cases io <;> decide
theorem code_transactionSg (io : Io) : BC.transactionSg.code io = bcTransactionSg io := by
  cases io <;> decide
theorem code_replySg (io : Io) : BC.replySg.code io = bcReplySg io := by cases io <;> decide

theorem length_txHeader (io : Io) (t : TxHeader) : (t.bytes io).length = 16 + 6 * io.ptrSize := by
  simp only [TxHeader.bytes, List.length_append, length_leBytes]; omega

theorem fieldAt_append (a b : Bytes) {off n k : Nat} (h : off = a.length + k) :
    fieldAt (a ++ b) off n = fieldAt b k n := by
  subst h
  simp [fieldAt]

theorem fieldAt_zero (a b : Bytes) {n : Nat} (h : n = a.length) : fieldAt (a ++ b) 0 n = leVal a := by
  subst h
  simp [fieldAt]

theorem fieldAt_all (a : Bytes) {n : Nat} (h : n = a.length) : fieldAt a 0 n = leVal a := by
  subst h
  simp [fieldAt]

/-- Fields of a header preceded by a command word. -/
theorem header_fields (io : Io) (cmd : Nat) (t : TxHeader) (rest : Bytes) :
    let b := leBytes 4 cmd ++ (t.bytes io ++ rest)
    let p := io.ptrSize
    fieldAt b 0 4 = cmd % 2 ^ 32 ∧
    fieldAt b 4 4 = t.target % 2 ^ 32 ∧
    fieldAt b (4 + 2 * p) 4 = t.code % 2 ^ 32 ∧
    fieldAt b (4 + 2 * p + 4) 4 = t.flags % 2 ^ 32 ∧
    fieldAt b (4 + 2 * p + 16) p = t.dataSize % 256 ^ p ∧
    fieldAt b (4 + 3 * p + 16) p = t.offsetsSize % 256 ^ p ∧
    fieldAt b (4 + 4 * p + 16) p = t.buffer % 256 ^ p ∧
    fieldAt b (4 + 5 * p + 16) p = t.offsets % 256 ^ p ∧
    fieldAt b (4 + (16 + 6 * p)) p = fieldAt rest 0 p := by
  intro b p
  have hb : b = leBytes 4 cmd ++ (leBytes p t.target ++ (leBytes p t.cookie ++ (leBytes 4 t.code ++
      (leBytes 4 t.flags ++ (leBytes 4 t.pid ++ (leBytes 4 t.euid ++ (leBytes p t.dataSize ++
      (leBytes p t.offsetsSize ++ (leBytes p t.buffer ++ (leBytes p t.offsets ++ rest)))))))))) := by
    simp only [b, TxHeader.bytes, List.append_assoc, p]
  have h4 : ∀ v, leVal (leBytes 4 v) = v % 2 ^ 32 := fun v => leVal_leBytes 4 v
  rw [hb]
  have hp : 4 ≤ p := ptr_pos io
  refine ⟨?_, ?_, ?_, ?_, ?_, ?_, ?_, ?_, ?_⟩
  · rw [fieldAt_zero _ _ (by simp), h4]
  · rw [fieldAt_append _ _ (k := 0) (by simp)]
    cases io
    · rw [fieldAt_zero _ _ (by simp [p, Io.ptrSize])]; exact h4 _
    · -- the low half of the union
      have : leBytes p t.target = leBytes 4 t.target ++ leBytes 4 (t.target / 256 / 256 / 256 / 256) := by
        simp only [p, Io.ptrSize, leBytes, List.cons_append, List.nil_append]
      rw [this, List.append_assoc, fieldAt_zero _ _ (by simp), h4]
  · rw [fieldAt_append _ _ (k := 2 * p) (by simp), fieldAt_append _ _ (k := p) (by simp; omega),
      fieldAt_append _ _ (k := 0) (by simp), fieldAt_zero _ _ (by simp), h4]
  · rw [fieldAt_append _ _ (k := 2 * p + 4) (by simp; omega),
      fieldAt_append _ _ (k := p + 4) (by simp; omega),
      fieldAt_append _ _ (k := 4) (by simp), fieldAt_append _ _ (k := 0) (by simp),
      fieldAt_zero _ _ (by simp), h4]
  · rw [fieldAt_append _ _ (k := 2 * p + 16) (by simp; omega),
      fieldAt_append _ _ (k := p + 16) (by simp; omega),
      fieldAt_append _ _ (k := 16) (by simp), fieldAt_append _ _ (k := 12) (by simp),
      fieldAt_append _ _ (k := 8) (by simp), fieldAt_append _ _ (k := 4) (by simp),
      fieldAt_append _ _ (k := 0) (by simp),
      fieldAt_zero _ _ (by simp), leVal_leBytes]
  · rw [fieldAt_append _ _ (k := 3 * p + 16) (by simp; omega),
      fieldAt_append _ _ (k := 2 * p + 16) (by simp; omega),
      fieldAt_append _ _ (k := p + 16) (by simp; omega), fieldAt_append _ _ (k := p + 12) (by simp; omega),
      fieldAt_append _ _ (k := p + 8) (by simp; omega), fieldAt_append _ _ (k := p + 4) (by simp; omega),
      fieldAt_append _ _ (k := p) (by simp; omega), fieldAt_append _ _ (k := 0) (by simp),
      fieldAt_zero _ _ (by simp), leVal_leBytes]
  · rw [fieldAt_append _ _ (k := 4 * p + 16) (by simp; omega),
      fieldAt_append _ _ (k := 3 * p + 16) (by simp; omega),
      fieldAt_append _ _ (k := 2 * p + 16) (by simp; omega),
      fieldAt_append _ _ (k := 2 * p + 12) (by simp; omega),
      fieldAt_append _ _ (k := 2 * p + 8) (by simp; omega),
      fieldAt_append _ _ (k := 2 * p + 4) (by simp; omega),
      fieldAt_append _ _ (k := 2 * p) (by simp; omega), fieldAt_append _ _ (k := p) (by simp; omega),
      fieldAt_append _ _ (k := 0) (by simp), fieldAt_zero _ _ (by simp), leVal_leBytes]
  · rw [fieldAt_append _ _ (k := 5 * p + 16) (by simp; omega),
      fieldAt_append _ _ (k := 4 * p + 16) (by simp; omega),
      fieldAt_append _ _ (k := 3 * p + 16) (by simp; omega),
      fieldAt_append _ _ (k := 3 * p + 12) (by simp; omega),
      fieldAt_append _ _ (k := 3 * p + 8) (by simp; omega),
      fieldAt_append _ _ (k := 3 * p + 4) (by simp; omega),
      fieldAt_append _ _ (k := 3 * p) (by simp; omega), fieldAt_append _ _ (k := 2 * p) (by simp; omega),
      fieldAt_append _ _ (k := p) (by simp; omega), fieldAt_append _ _ (k := 0) (by simp),
      fieldAt_zero _ _ (by simp), leVal_leBytes]
  · rw [fieldAt_append _ _ (k := 16 + 6 * p) (by simp),
      fieldAt_append _ _ (k := 5 * p + 16) (by simp; omega),
      fieldAt_append _ _ (k := 4 * p + 16) (by simp; omega),
      fieldAt_append _ _ (k := 4 * p + 12) (by simp; omega),
      fieldAt_append _ _ (k := 4 * p + 8) (by simp; omega),
      fieldAt_append _ _ (k := 4 * p + 4) (by simp; omega),
      fieldAt_append _ _ (k := 4 * p) (by simp; omega),
      fieldAt_append _ _ (k := 3 * p) (by simp; omega), fieldAt_append _ _ (k := 2 * p) (by simp; omega),
      fieldAt_append _ _ (k := p) (by simp; omega), fieldAt_append _ _ (k := 0) (by simp)]

theorem parseTx_plain (io : Io) (t : TxHeader) (c : BC) (hc : c = .transaction ∨ c = .reply) :
    parseTx io (leBytes 4 (c.code io) ++ t.bytes io) = some
      { reply := c = .reply, sg := false, handle := t.target % 2 ^ 32, code := t.code % 2 ^ 32
        flags := t.flags % 2 ^ 32, dataSize := t.dataSize % 256 ^ io.ptrSize
        offsetsSize := t.offsetsSize % 256 ^ io.ptrSize, buffer := t.buffer % 256 ^ io.ptrSize
        offsets := t.offsets % 256 ^ io.ptrSize, extra := 0 } := by
  have h := header_fields io (c.code io) t []
  simp only [List.append_nil] at h
  obtain ⟨h0, h1, h2, h3, h4, h5, h6, h7, _⟩ := h
  have hl : (leBytes 4 (c.code io) ++ t.bytes io).length = 4 + (16 + 6 * io.ptrSize) := by
    simp only [List.length_append, length_leBytes, length_txHeader]
  rcases hc with rfl | rfl
  · rw [code_transaction] at *
    have hcmd : bcTransaction io % 2 ^ 32 = bcTransaction io := by cases io <;> decide
    rw [hcmd] at h0
    have n1 : bcTransaction io ≠ bcTransactionSg io := by cases io <;> decide
    have n2 : bcTransaction io ≠ bcReplySg io := by cases io <;> decide
    have n3 : bcTransaction io ≠ bcReply io := by cases io <;> decide
    simp only [parseTx, word_eq, h0, n1, n2, n3, h1, h2, h3, h4, h5, h6, h7, hl, or_self, or_true,
      if_true, if_false, Nat.add_zero, decide_false]
    simp
  · rw [code_reply] at *
    have hcmd : bcReply io % 2 ^ 32 = bcReply io := by cases io <;> decide
    rw [hcmd] at h0
    have n1 : bcReply io ≠ bcTransactionSg io := by cases io <;> decide
    have n2 : bcReply io ≠ bcReplySg io := by cases io <;> decide
    simp only [parseTx, word_eq, h0, n1, n2, h1, h2, h3, h4, h5, h6, h7, hl, or_self, or_true,
      true_or, if_true, if_false, Nat.add_zero, decide_false, decide_true]

theorem parseTx_sg (io : Io) (t : TxHeader) (c : BC) (n : Nat)
    (hc : c = .transactionSg ∨ c = .replySg) :
    parseTx io (leBytes 4 (c.code io) ++ (t.bytes io ++ leBytes io.ptrSize n)) = some
      { reply := c = .replySg, sg := true, handle := t.target % 2 ^ 32, code := t.code % 2 ^ 32
        flags := t.flags % 2 ^ 32, dataSize := t.dataSize % 256 ^ io.ptrSize
        offsetsSize := t.offsetsSize % 256 ^ io.ptrSize, buffer := t.buffer % 256 ^ io.ptrSize
        offsets := t.offsets % 256 ^ io.ptrSize, extra := n % 256 ^ io.ptrSize } := by
  obtain ⟨h0, h1, h2, h3, h4, h5, h6, h7, h8⟩ := header_fields io (c.code io) t (leBytes io.ptrSize n)
  rw [fieldAt_all _ (by simp), leVal_leBytes] at h8
  have hl : (leBytes 4 (c.code io) ++ (t.bytes io ++ leBytes io.ptrSize n)).length =
      4 + (16 + 6 * io.ptrSize) + io.ptrSize := by
    simp only [List.length_append, length_leBytes, length_txHeader]; omega
  rcases hc with rfl | rfl
  · rw [code_transactionSg] at *
    have hcmd : bcTransactionSg io % 2 ^ 32 = bcTransactionSg io := by cases io <;> decide
    rw [hcmd] at h0
    have n2 : bcTransactionSg io ≠ bcReplySg io := by cases io <;> decide
    have n3 : bcTransactionSg io ≠ bcReply io := by cases io <;> decide
    simp only [parseTx, word_eq, h0, n2, n3, h1, h2, h3, h4, h5, h6, h7, h8, hl, or_self, true_or,
      if_true, or_false, decide_false, decide_true]
    simp
  · rw [code_replySg] at *
    have hcmd : bcReplySg io % 2 ^ 32 = bcReplySg io := by cases io <;> decide
    rw [hcmd] at h0
    simp only [parseTx, word_eq, h0, h1, h2, h3, h4, h5, h6, h7, h8, hl, or_self, or_true, true_or,
      if_true, decide_true]

theorem parseOffsets_eq (io : Io) (os : List Nat) (h : ∀ o ∈ os, o < 256 ^ io.ptrSize) :
    parseOffsets io (os.flatMap (leBytes io.ptrSize)) os.length = os := by
  induction os with
  | nil => rfl
  | cons o os ih =>
    simp only [List.flatMap_cons, List.length_cons, parseOffsets, word_eq]
    rw [fieldAt_zero _ _ (by simp), leVal_leBytes_of_lt (h o List.mem_cons_self)]
    have : List.drop io.ptrSize (leBytes io.ptrSize o ++ List.flatMap (leBytes io.ptrSize) os) =
        List.flatMap (leBytes io.ptrSize) os := by
      have := List.drop_left (l₁ := leBytes io.ptrSize o) (l₂ := List.flatMap (leBytes io.ptrSize) os)
      rwa [length_leBytes] at this
    rw [this, ih (fun x hx => h x (List.mem_cons_of_mem _ hx))]

end Gb
