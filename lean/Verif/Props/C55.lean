import Verif.Lemmas.Grows
import Verif.Lemmas.Tx
import Verif.Spec.Demo
/-
C55. The kernel is told exactly what the caller asked for.

`Kernel.parseTx` and `Kernel.parseOffsets` are the kernel's reading of the command and of the
offset table.
-/
set_option autoImplicit false

namespace Gb.C55
open Kernel

/-- What `fill_transaction_data` leaves in the header. -/
theorem fill (io : Io) (handle code : Nat) (w : Writer) (flags bufPtr offPtr : Nat) :
    let r := fillTransactionData io handle code w flags bufPtr offPtr
    r.1.target = handle % 2 ^ 32 ∧ r.1.code = code ∧ r.1.flags = flags ∧
    r.1.dataSize = w.bytes.length ∧ r.1.offsetsSize = w.offsets.length * io.ptrSize ∧
    r.1.buffer = bufPtr ∧ r.1.offsets = (if w.offsets = [] then 0 else offPtr) ∧
    r.2 = w.offsets.flatMap (leBytes io.ptrSize) := by
  intro r
  simp only [r]
  unfold fillTransactionData
  by_cases h : w.offsets = []
  · simp [h]
  · have : w.offsets.length ≠ 0 := by simpa using h
    simp [this, h]

/-- C55 for transactions: target, code, one-way flag, the payload's address and size, and the
object table, for every handle, code and parcel which fit the ABI. -/
theorem C55_transaction (io : Io) (w : Writer) (handle code bufPtr offPtr : Nat) (oneway : Bool)
    (hh : handle < 2 ^ 32) (hc : code < 2 ^ 32) (hb : bufPtr < 256 ^ io.ptrSize)
    (ho : offPtr < 256 ^ io.ptrSize) (hl : w.bytes.length < 256 ^ io.ptrSize)
    (hn : w.offsets.length * io.ptrSize < 256 ^ io.ptrSize)
    (hi : ∀ o ∈ w.offsets, o ≤ w.bytes.length) :
    ∃ tx, parseTx io (transactionCommand io w handle code oneway bufPtr offPtr).1 = some tx ∧
      tx.reply = false ∧ tx.handle = handle ∧ tx.code = code ∧
      (tx.flags % 2 = 1 ↔ oneway = true) ∧ (oneway = false → tx.flags = 0x10) ∧
      tx.dataSize = w.bytes.length ∧ tx.buffer = bufPtr ∧
      tx.offsetsSize = w.offsets.length * word io ∧
      (w.offsets ≠ [] → tx.offsets = offPtr) ∧
      parseOffsets io (transactionCommand io w handle code oneway bufPtr offPtr).2
        (tx.offsetsSize / word io) = w.offsets := by
  have hfl : ∀ f, f = (if oneway then tfOneWay else tfAcceptFds) →
      (f % 2 ^ 32 % 2 = 1 ↔ oneway = true) ∧ (oneway = false → f % 2 ^ 32 = 0x10) := by
    intro f hf; subst hf; cases oneway <;> decide
  obtain ⟨h1, h2, h3, h4, h5, h6, h7, h8⟩ := fill io handle code w
    (if oneway then tfOneWay else tfAcceptFds) bufPtr offPtr
  have ho' : ∀ o ∈ w.offsets, o < 256 ^ io.ptrSize := fun o x => Nat.lt_of_le_of_lt (hi o x) hl
  have hdiv : w.offsets.length * io.ptrSize / io.ptrSize = w.offsets.length :=
    Nat.mul_div_cancel _ (by have := ptr_pos io; omega)
  unfold transactionCommand
  simp only []
  split
  · refine ⟨_, parseTx_sg io _ .transactionSg _ (.inl rfl), ?_⟩
    simp only [h1, h2, h3, h4, h5, h6, h7, h8, Nat.mod_eq_of_lt hh, Nat.mod_eq_of_lt hc,
      Nat.mod_eq_of_lt hb, Nat.mod_eq_of_lt hl, Nat.mod_eq_of_lt hn, word_eq, hdiv,
      parseOffsets_eq io _ ho']
    refine ⟨by decide, trivial, trivial, (hfl _ rfl).1, (hfl _ rfl).2, trivial, trivial, trivial,
      ?_, trivial⟩
    intro hne
    rw [if_neg hne, Nat.mod_eq_of_lt ho]
  · refine ⟨_, parseTx_plain io _ .transaction (.inl rfl), ?_⟩
    simp only [h1, h2, h3, h4, h5, h6, h7, h8, Nat.mod_eq_of_lt hh, Nat.mod_eq_of_lt hc,
      Nat.mod_eq_of_lt hb, Nat.mod_eq_of_lt hl, Nat.mod_eq_of_lt hn, word_eq, hdiv,
      parseOffsets_eq io _ ho']
    refine ⟨by decide, trivial, trivial, (hfl _ rfl).1, (hfl _ rfl).2, trivial, trivial, trivial,
      ?_, trivial⟩
    intro hne
    rw [if_neg hne, Nat.mod_eq_of_lt ho]

/-- C55 for replies. -/
theorem C55_reply (io : Io) (w : Writer) (bufPtr offPtr : Nat)
    (hb : bufPtr < 256 ^ io.ptrSize)
    (ho : offPtr < 256 ^ io.ptrSize) (hl : w.bytes.length < 256 ^ io.ptrSize)
    (hn : w.offsets.length * io.ptrSize < 256 ^ io.ptrSize)
    (hi : ∀ o ∈ w.offsets, o ≤ w.bytes.length) :
    ∃ tx, parseTx io (replyCommand io w bufPtr offPtr).1 = some tx ∧
      tx.reply = true ∧ tx.flags = 0 ∧
      tx.dataSize = w.bytes.length ∧ tx.buffer = bufPtr ∧
      tx.offsetsSize = w.offsets.length * word io ∧
      (w.offsets ≠ [] → tx.offsets = offPtr) ∧
      parseOffsets io (replyCommand io w bufPtr offPtr).2
        (tx.offsetsSize / word io) = w.offsets := by
  obtain ⟨h1, h2, h3, h4, h5, h6, h7, h8⟩ := fill io 0 0 w 0 bufPtr offPtr
  have ho' : ∀ o ∈ w.offsets, o < 256 ^ io.ptrSize := fun o x => Nat.lt_of_le_of_lt (hi o x) hl
  have hdiv : w.offsets.length * io.ptrSize / io.ptrSize = w.offsets.length :=
    Nat.mul_div_cancel _ (by have := ptr_pos io; omega)
  unfold replyCommand
  simp only []
  split
  · refine ⟨_, parseTx_sg io _ .replySg _ (.inr rfl), ?_⟩
    simp only [h3, h4, h5, h6, h7, h8, Nat.zero_mod,
      Nat.mod_eq_of_lt hb, Nat.mod_eq_of_lt hl, Nat.mod_eq_of_lt hn, word_eq, hdiv,
      parseOffsets_eq io _ ho']
    refine ⟨by decide, trivial, trivial, trivial, trivial, ?_, trivial⟩
    intro hne
    rw [if_neg hne, Nat.mod_eq_of_lt ho]
  · refine ⟨_, parseTx_plain io _ .reply (.inr rfl), ?_⟩
    simp only [h3, h4, h5, h6, h7, h8, Nat.zero_mod,
      Nat.mod_eq_of_lt hb, Nat.mod_eq_of_lt hl, Nat.mod_eq_of_lt hn, word_eq, hdiv,
      parseOffsets_eq io _ ho']
    refine ⟨by decide, trivial, trivial, trivial, trivial, ?_, trivial⟩
    intro hne
    rw [if_neg hne, Nat.mod_eq_of_lt ho]

/-- C55 for status-only replies: four bytes at the address of the status, flagged as such. -/
theorem C55_status (io : Io) (ptr : Nat) (hp : ptr < 256 ^ io.ptrSize) :
    ∃ tx, parseTx io (statusReplyCommand io ptr) = some tx ∧
      tx.reply = true ∧ tx.sg = false ∧ tx.flags = 8 ∧ tx.dataSize = 4 ∧ tx.buffer = ptr ∧
      tx.offsetsSize = 0 := by
  refine ⟨_, parseTx_plain io _ .reply (.inr rfl), ?_⟩
  simp only [Nat.mod_eq_of_lt hp]
  cases io <;> decide

/-- The hypotheses hold for parcels made by the writer (see C10 for the last one); e.g. here. -/
example : let w : Writer := { io := .io64, protocol := .hidl, bytes := List.replicate 64 0
                              offsets := [0, 24], buffersSize := 16 }
    w.bytes.length < 256 ^ Io.io64.ptrSize ∧ w.offsets.length * Io.io64.ptrSize < 256 ^ Io.io64.ptrSize ∧
    (∀ o ∈ w.offsets, o ≤ w.bytes.length) ∧
    parseTx .io64 (transactionCommand .io64 w 5 1 true 0x1000 0x2000).1 = some
      { reply := false, sg := true, handle := 5, code := 1, flags := 1, dataSize := 64
        offsetsSize := 16, buffer := 0x1000, offsets := 0x2000, extra := 16 } := by
  decide +kernel

end Gb.C55
