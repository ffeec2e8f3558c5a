import Verif.Lemmas.Tx
import Verif.Lemmas.Transfer
import Verif.Spec.Kernel
/-
C17. Offsets of incoming objects are validated.
-/
set_option autoImplicit false

namespace Gb.C17
open Kernel

/-- Objects of at least `n` bytes each, inside a buffer of `size` bytes, none overlapping
another. -/
def Separate (n size : Nat) (objects : List Nat) : Prop :=
  objects.Pairwise (fun a b => a + n ≤ b) ∧ ∀ o ∈ objects, o + n ≤ size

theorem validOffsets_sound {io : Io} {size : Nat} (hs : size < 256 ^ io.ptrSize) :
    ∀ {offs : List Nat} {min : Nat}, (∀ o ∈ offs, o + io.flatSize < 2 ^ 64) →
      validOffsets io size min offs = true →
      Separate io.flatSize size offs ∧ ∀ o ∈ offs, min ≤ o := by
  intro offs
  induction offs with
  | nil => intro min _ _; exact ⟨⟨.nil, by simp⟩, by simp⟩
  | cons o rest ih =>
    intro min hw h
    simp only [validOffsets] at h
    split at h
    · cases h
    · rename_i hc
      have hwo := hw o List.mem_cons_self
      rw [Nat.mod_eq_of_lt hwo] at hc
      rw [Nat.mod_eq_of_lt (by omega)] at h
      obtain ⟨⟨h1, h2⟩, h3⟩ := ih (fun x hx => hw x (List.mem_cons_of_mem _ hx)) h
      refine ⟨⟨List.pairwise_cons.mpr ⟨h3, h1⟩, ?_⟩, ?_⟩
      · intro x hx
        rcases List.mem_cons.mp hx with rfl | hx
        · omega
        · exact h2 x hx
      · intro x hx
        rcases List.mem_cons.mp hx with rfl | hx
        · omega
        · have := h3 x hx; omega

theorem validOffsets_complete {io : Io} {size : Nat} (hs : size < 256 ^ io.ptrSize) :
    ∀ {offs : List Nat} {min : Nat}, Separate io.flatSize size offs → (∀ o ∈ offs, min ≤ o) →
      validOffsets io size min offs = true := by
  have h64 : 256 ^ io.ptrSize ≤ 2 ^ 64 := by cases io <;> decide
  intro offs
  induction offs with
  | nil => intro min _ _; rfl
  | cons o rest ih =>
    intro min ⟨h1, h2⟩ h3
    have ho := h2 o List.mem_cons_self
    have hm := h3 o List.mem_cons_self
    simp only [validOffsets]
    rw [Nat.mod_eq_of_lt (by omega), Nat.mod_eq_of_lt (by omega), if_neg (by omega)]
    exact ih ⟨(List.pairwise_cons.mp h1).2, fun x hx => h2 x (List.mem_cons_of_mem _ hx)⟩
      (List.pairwise_cons.mp h1).1

theorem uptrAt_lt {io : Io} {b : Bytes} {off v : Nat} (h : uptrAt io b off = some v) :
    v < 256 ^ io.ptrSize := by
  unfold uptrAt at h
  obtain ⟨l, hl, rfl⟩ := Option.map_eq_some_iff.mp h
  have hlen : l.length = io.ptrSize := by
    unfold slice at hl
    split at hl
    · cases hl; rw [List.length_take, List.length_drop]; omega
    · cases hl
  rw [← hlen]
  exact leVal_lt l

theorem decodeTxHeader_lt {io : Io} {raw : Bytes} {t : TxHeader} (h : decodeTxHeader io raw = some t) :
    t.dataSize < 256 ^ io.ptrSize := by
  unfold decodeTxHeader at h
  simp only [bind, Option.bind_eq_some_iff] at h
  obtain ⟨_, _, _, _, _, _, _, _, _, _, _, _, v, hv, _, _, _, _, _, _, h⟩ := h
  cases h
  exact uptrAt_lt hv

theorem loadOffsets_lt {io : Io} {m : Mem} : ∀ {n a : Nat} {offs : List Nat},
    loadOffsets io m a n = .ok offs → ∀ o ∈ offs, o < 256 ^ io.ptrSize := by
  intro n
  induction n with
  | zero => intro a offs h; cases h; simp
  | succ n ih =>
    intro a offs h o ho
    simp only [loadOffsets] at h
    obtain ⟨b, hb, h⟩ := bind_ok h
    obtain ⟨rest, hr, h⟩ := bind_ok h
    cases h
    have hlb : b.length = io.ptrSize := by
      unfold Writer.loadBytes at hb
      cases hm : m.load a io.ptrSize with
      | none => rw [hm] at hb; cases hb
      | some x => rw [hm] at hb; cases hb; exact load_length hm
    rcases List.mem_cons.mp ho with rfl | ho
    · rw [← hlb]; exact leVal_lt b
    · exact ih hr o ho

/-- How a transaction gets its objects. -/
theorem decode_objects {io : Io} {m : Mem} {raw : Bytes} {tx : TxData}
    (h : decodeTransactionData io m raw = .ok tx) :
    tx.objects = [] ∨ (tx.size < 256 ^ io.ptrSize ∧ validOffsets io tx.size 0 tx.objects = true ∧
      ∀ o ∈ tx.objects, o < 256 ^ io.ptrSize) := by
  unfold decodeTransactionData at h
  cases ht : decodeTxHeader io raw with
  | none => rw [ht] at h; cases h
  | some t =>
    rw [ht] at h
    simp only [] at h
    split at h
    · obtain ⟨st, _, h⟩ := bind_ok h
      cases h
      exact .inl rfl
    · obtain ⟨offs, ho, h⟩ := bind_ok h
      cases h
      simp only []
      split
      · rename_i hv
        exact .inr ⟨decodeTxHeader_lt ht, hv, loadOffsets_lt ho⟩
      · exact .inl rfl

/-- C17 on the 32-bit ABI: every object has the size of the smallest one available, and the
objects are separated by at least as much. -/
theorem C17_io32_partial (m : Mem) (raw : Bytes) (tx : TxData)
    (h : decodeTransactionData .io32 m raw = .ok tx) :
    Separate 16 tx.size tx.objects := by
  rcases decode_objects h with h | ⟨h1, h2, h3⟩
  · rw [h]; exact ⟨.nil, by simp⟩
  · exact (validOffsets_sound h1 (fun o ho => by
      have := h3 o ho
      simp only [Io.ptrSize, Io.flatSize] at *
      omega) h2).1

/-- C17 on the 64-bit ABI, unless an offset is within the last 24 bytes of the address space.
Missing: those offsets (`C17_fails_wrap`), and objects larger than 24 bytes
(`C17_fails_truncated`). -/
theorem C17_io64_partial (m : Mem) (raw : Bytes) (tx : TxData)
    (h : decodeTransactionData .io64 m raw = .ok tx) (hw : ∀ o ∈ tx.objects, o + 24 < 2 ^ 64) :
    Separate 24 tx.size tx.objects := by
  rcases decode_objects h with h | ⟨h1, h2, h3⟩
  · rw [h]; exact ⟨.nil, by simp⟩
  · exact (validOffsets_sound h1 hw h2).1

/-- Nothing that the kernel may deliver is rejected: if the offsets in memory are those of whole
objects then the transaction has exactly these. -/
theorem C17_complete (io : Io) (m : Mem) (raw : Bytes) (t : TxHeader) (offs : List Nat) (data : Bytes)
    (objs : List KObj) (ht : decodeTxHeader io raw = some t) (hst : t.flags / 8 % 2 = 0)
    (hl : loadOffsets io m t.offsets (t.offsetsSize / io.ptrSize % 2 ^ 32) = .ok offs)
    (hd : data.length = t.dataSize) (hk : getObjects io data 0 offs = some objs) :
    ∃ tx, decodeTransactionData io m raw = .ok tx ∧ tx.objects = offs ∧ tx.size = data.length := by
  have hsep : ∀ {offs : List Nat} {min : Nat} {objs : List KObj}, getObjects io data min offs = some objs →
      Separate io.flatSize data.length offs ∧ ∀ o ∈ offs, min ≤ o := by
    intro offs
    induction offs with
    | nil => intro min _ _; exact ⟨⟨.nil, by simp⟩, by simp⟩
    | cons o rest ih =>
      intro min objs hk
      simp only [getObjects] at hk
      cases hg : getObject io data o with
      | none => rw [hg] at hk; cases hk
      | some y =>
        obtain ⟨x, sz⟩ := y
        rw [hg] at hk
        simp only [] at hk
        split at hk
        · rename_i hmin
          obtain ⟨l, hl, _⟩ := Option.map_eq_some_iff.mp hk
          obtain ⟨⟨h1, h2⟩, h3⟩ := ih hl
          have hsz : io.flatSize ≤ sz ∧ o + sz ≤ data.length := by
            have hfl : io.flatSize = 8 + 2 * word io := by cases io <;> rfl
            unfold getObject at hg
            simp only [] at hg
            split at hg
            · cases hg
            repeat' (split at hg)
            all_goals first | (cases hg; done) | (cases hg; constructor <;> omega)
          refine ⟨⟨List.pairwise_cons.mpr ⟨fun x hx => by have := h3 x hx; omega, h1⟩, ?_⟩, ?_⟩
          · intro x hx
            rcases List.mem_cons.mp hx with rfl | hx
            · omega
            · exact h2 x hx
          · intro x hx
            rcases List.mem_cons.mp hx with rfl | hx
            · exact hmin
            · have := h3 x hx; omega
        · cases hk
  have hv : validOffsets io t.dataSize 0 offs = true := by
    obtain ⟨h1, h2⟩ := hsep hk
    rw [hd] at h1
    exact validOffsets_complete (decodeTxHeader_lt ht) h1 h2
  refine ⟨{ status := 0, code := t.code, oneway := t.flags % 2 = 1, pid := t.pid, euid := t.euid,
            target := t.target, data := t.buffer, size := t.dataSize, objects := offs }, ?_, rfl, hd.symm⟩
  unfold decodeTransactionData
  rw [ht]
  simp only [hst, hl, bind, Except.bind]
  rw [if_neg (by omega), if_pos hv]

/-- Transaction with `size` bytes of data at 0x1000 and one object whose offset is at 0x2000. -/
def demoTx (size : Nat) : Bytes :=
  TxHeader.bytes .io64 { target := 0x5550, code := 1, dataSize := size, offsetsSize := 8,
                         buffer := 0x1000, offsets := 0x2000 }

/-- C17 fails: an offset just below 2^64 passes, the object is before the buffer. -/
theorem C17_fails_wrap : ∃ (m : Mem) (raw : Bytes) (tx : TxData),
    decodeTransactionData .io64 m raw = .ok tx ∧ tx.size = 64 ∧ tx.objects = [2 ^ 64 - 8] :=
  ⟨[(0x2000, leBytes 8 (2 ^ 64 - 8))], demoTx 64, _, rfl, by decide +kernel, by decide +kernel⟩

/-- C17 fails: a buffer object (40 bytes) of which there are 24 bytes only. -/
theorem C17_fails_truncated : ∃ (m : Mem) (raw : Bytes) (tx : TxData) (data : Bytes),
    decodeTransactionData .io64 m raw = .ok tx ∧ m.load tx.data tx.size = some data ∧
    tx.objects = [0] ∧ fieldAt data 0 4 = tPtr ∧ data.length < 40 :=
  ⟨[(0x2000, leBytes 8 0), (0x1000, leBytes 4 tPtr ++ List.replicate 20 0)], demoTx 24, _, _, rfl, rfl,
    by decide +kernel, by decide +kernel, by decide +kernel⟩

/-- Two objects behind each other; the last one ends at the end of the buffer. An unsorted table
is rejected. -/
example : (decodeTransactionData .io64 [(0x2000, leBytes 8 4 ++ leBytes 8 28)]
      (TxHeader.bytes .io64 { dataSize := 52, offsetsSize := 16, buffer := 0x1000, offsets := 0x2000 })).map
        (fun tx => tx.objects) = .ok [4, 28] ∧
    (decodeTransactionData .io64 [(0x2000, leBytes 8 28 ++ leBytes 8 4)]
      (TxHeader.bytes .io64 { dataSize := 52, offsetsSize := 16, buffer := 0x1000, offsets := 0x2000 })).map
        (fun tx => tx.objects) = .ok [] := by
  constructor <;> decide +kernel

end Gb.C17
