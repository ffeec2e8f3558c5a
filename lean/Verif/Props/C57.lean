import Verif.Lemmas.Safe
import Verif.Spec.Kernel
/-
C57. Data is never taken for an object, nor one kind of object for another.

The kernel translates what the offset table tells it to be objects, everything else is data chosen by
the sender. `Kernel.getObject` is the kernel's idea of what there is at an offset. The reader covers
the received buffer up to its end (`Reader.Inside`), which is what gbinder_remote_request_init_reader
and gbinder_remote_reply_init_reader do.
-/
set_option autoImplicit false

namespace Gb.C57
open Kernel

/-- The next object in the table of offsets is at the current position. -/
def Announced (r : Reader) : Prop := r.hasReg = true ∧ r.objects.head? = some r.pos

theorem announced_iff (r : Reader) : r.canReadObject = true ↔ Announced r := by
  unfold Reader.canReadObject Announced
  cases r.objects with
  | nil => simp
  | cons o l =>
    simp only [Bool.and_eq_true, beq_iff_eq, List.head?_cons, Option.some.injEq]
    exact ⟨fun h => ⟨h.1, h.2.symm⟩, fun h => ⟨h.1, h.2.symm⟩⟩

theorem word_eq (io : Io) : word io = io.ptrSize := by cases io <;> rfl

theorem deref_eq {α : Type} {r : Reader} {off n : Nat} (h : off + n ≤ r.buf.length) (k : Bytes → Res α) :
    r.deref off n k = k ((r.buf.drop off).take n) := by
  unfold Reader.deref
  rw [slice_isSome h]

theorem remaining_eq {r : Reader} (h : r.Inside) : r.bytesRemaining = r.buf.length - r.pos := by
  unfold Reader.bytesRemaining Reader.remaining
  rw [if_pos h.pos_le, h.fin_eq]

/-- What the kernel says about flat_binder_object, given that it's there. -/
theorem flat {io : Io} {b : Bytes} {off : Nat} (h : off + io.flatSize ≤ b.length) :
    getObject io b off =
      if fieldAt b off 4 = tBinder ∨ fieldAt b off 4 = tWeakBinder then
        some (.binder (fieldAt b (off + 8) io.ptrSize) (fieldAt b (off + 8 + io.ptrSize) io.ptrSize),
          io.flatSize)
      else if fieldAt b off 4 = tHandle ∨ fieldAt b off 4 = tWeakHandle then
        some (.handle (fieldAt b (off + 8) 4), io.flatSize)
      else if fieldAt b off 4 = tFd then some (.fd (fieldAt b (off + 8) 4), io.flatSize)
      else getObject io b off := by
  have hs : 8 + 2 * word io = io.flatSize := by cases io <;> rfl
  have h4 : 4 ≤ io.flatSize := by cases io <;> decide
  unfold getObject
  simp only [hs]
  rw [if_neg (show ¬ ¬ off + 4 ≤ b.length by omega)]
  simp only [if_pos h, word_eq]
  split
  · rfl
  · split
    · rfl
    · split
      · rfl
      · rfl

/-- A type which fits is needed for an object of that kind to be there. -/
theorem flat_fits {io : Io} {b : Bytes} {off : Nat} {x : KObj} {n : Nat}
    (h : getObject io b off = some (x, n)) (hx : (∃ v, x = .fd v) ∨ (∃ v, x = .handle v) ∨ ∃ p c, x = .binder p c) :
    off + io.flatSize ≤ b.length := by
  have hs : 8 + 2 * word io = io.flatSize := by cases io <;> rfl
  unfold getObject at h
  simp only [hs] at h
  repeat' split at h
  all_goals first
    | cases h; done
    | assumption
    | (cases h; rcases hx with ⟨_, hx⟩ | ⟨_, hx⟩ | ⟨_, _, hx⟩ <;> cases hx)

/-- C57 for descriptors: read_fd succeeds exactly if the next object is here and it's a descriptor. -/
theorem C57_fd (r : Reader) (hi : r.Inside) (v : Nat) :
    (∃ r', r.readFd = .ok v r') ↔ Announced r ∧ ∃ n, getObject r.io r.buf r.pos = some (.fd v, n) := by
  have hp := hi.pos_le
  rw [hi.fin_eq] at hp
  have h8 : 12 ≤ r.io.flatSize := by cases r.io <;> decide
  have hty : typeFd = tFd := rfl
  unfold Reader.readFd
  constructor
  · rintro ⟨r', h⟩
    split at h
    · rename_i ha
      refine ⟨(announced_iff r).1 ha, ?_⟩
      split at h
      · rename_i hs
        rw [remaining_eq hi] at hs
        rw [deref_eq (by omega)] at h
        split at h
        · rename_i ht
          rw [deref_eq (by omega)] at h
          cases h
          have ht' : fieldAt r.buf r.pos 4 = tFd := ht
          refine ⟨r.io.flatSize, ?_⟩
          rw [flat (by omega), ht', if_neg (by decide), if_neg (by decide), if_pos rfl]
          rfl
        · cases h
      · cases h
    · cases h
  · rintro ⟨ha, n, hg⟩
    have hf := flat_fits hg (.inl ⟨v, rfl⟩)
    have hflat := flat hf
    rw [hflat] at hg
    split at hg
    · cases hg
    · split at hg
      · cases hg
      · split at hg
        · rename_i ht
          rw [if_pos ((announced_iff r).2 ha), if_pos (by rw [remaining_eq hi]; omega), deref_eq (by omega),
            if_pos (show leVal _ = typeFd from ht), deref_eq (by omega)]
          cases hg
          exact ⟨_, rfl⟩
        · rename_i h1 h2 h3
          exfalso
          revert hg
          have hne : ∀ n, getObject r.io r.buf r.pos ≠ some (.fd v, n) := by
            intro n
            unfold getObject
            simp only [if_neg h1, if_neg h2, if_neg h3]
            repeat' split
            all_goals (intro h; cases h)
          exact hne n

/-- C57 for objects: read_object gives a handle exactly if the next object is here and it's a (strong)
reference to that handle. -/
theorem C57_object (r : Reader) (hi : r.Inside) (v : Nat) :
    (∃ r', r.readNullableObject = .ok (some v) r') ↔
      Announced r ∧ fieldAt r.buf r.pos 4 = tHandle ∧
      ∃ n, getObject r.io r.buf r.pos = some (.handle v, n) := by
  have hp := hi.pos_le
  rw [hi.fin_eq] at hp
  have h8 : 12 ≤ r.io.flatSize := by cases r.io <;> decide
  have hps : 8 + r.io.ptrSize ≤ r.io.flatSize := by cases r.io <;> decide
  unfold Reader.readNullableObject
  constructor
  · rintro ⟨r', h⟩
    split at h
    · rename_i ha
      refine ⟨(announced_iff r).1 ha, ?_⟩
      split at h
      · rename_i hs
        rw [remaining_eq hi] at hs
        rw [deref_eq (by omega)] at h
        split at h
        · rename_i ht
          rw [deref_eq (by omega)] at h
          cases h
          have ht' : fieldAt r.buf r.pos 4 = tHandle := ht
          refine ⟨ht', r.io.flatSize, ?_⟩
          rw [flat (by omega), ht', if_neg (by decide), if_pos (.inl rfl)]
          rfl
        · split at h
          · rw [deref_eq (by omega)] at h
            split at h <;> cases h
          · cases h
      · cases h
    · cases h
  · rintro ⟨ha, ht, n, hg⟩
    have hf := flat_fits hg (.inr (.inl ⟨v, rfl⟩))
    rw [flat hf, ht, if_neg (by decide), if_pos (.inl rfl)] at hg
    rw [if_pos ((announced_iff r).2 ha), if_pos (by rw [remaining_eq hi]; omega), deref_eq (by omega),
      if_pos (show leVal _ = typeHandle from ht), deref_eq (by omega)]
    cases hg
    exact ⟨_, rfl⟩

/-- C57 for NULL objects. -/
theorem C57_null (r : Reader) (hi : r.Inside) :
    (∃ r', r.readNullableObject = .ok none r') ↔
      Announced r ∧ fieldAt r.buf r.pos 4 = tBinder ∧
      ∃ c n, getObject r.io r.buf r.pos = some (.binder 0 c, n) := by
  have hp := hi.pos_le
  rw [hi.fin_eq] at hp
  have h8 : 12 ≤ r.io.flatSize := by cases r.io <;> decide
  have hps : 8 + r.io.ptrSize ≤ r.io.flatSize := by cases r.io <;> decide
  unfold Reader.readNullableObject
  constructor
  · rintro ⟨r', h⟩
    split at h
    · rename_i ha
      refine ⟨(announced_iff r).1 ha, ?_⟩
      split at h
      · rename_i hs
        rw [remaining_eq hi] at hs
        rw [deref_eq (by omega)] at h
        split at h
        · rw [deref_eq (by omega)] at h
          cases h
        · split at h
          · rename_i ht
            rw [deref_eq (by omega)] at h
            split at h
            · rename_i h0
              cases h
              have ht' : fieldAt r.buf r.pos 4 = tBinder := ht
              have h0' : fieldAt r.buf (r.pos + 8) r.io.ptrSize = 0 := h0
              refine ⟨ht', fieldAt r.buf (r.pos + 8 + r.io.ptrSize) r.io.ptrSize, r.io.flatSize, ?_⟩
              rw [flat (by omega), ht', if_pos (.inl rfl), h0']
            · cases h
          · cases h
      · cases h
    · cases h
  · rintro ⟨ha, ht, c, n, hg⟩
    have hf := flat_fits hg (.inr (.inr ⟨0, c, rfl⟩))
    rw [flat hf, ht, if_pos (.inl rfl)] at hg
    have hne : ¬ leVal ((r.buf.drop r.pos).take 4) = typeHandle := by
      intro h
      have : tBinder = tHandle := ht.symm.trans h
      exact absurd this (by decide)
    have h0 : leVal ((r.buf.drop (r.pos + 8)).take r.io.ptrSize) = 0 := by
      simp only [Option.some.injEq, Prod.mk.injEq, KObj.binder.injEq] at hg
      exact hg.1.1
    rw [if_pos ((announced_iff r).2 ha), if_pos (by rw [remaining_eq hi]; omega), deref_eq (by omega),
      if_neg hne, if_pos (show leVal _ = typeBinder from ht), deref_eq (by omega), if_pos h0]
    exact ⟨_, rfl⟩

/-- C57 for buffers: what read_buffer gives is the address and size the kernel has put there. -/
theorem C57_buffer (r : Reader) (hi : r.Inside) (addr len : Nat) :
    (∃ r' o, r.readBufferObject = .ok o r' ∧ o.data = addr ∧ o.size = len) ↔
      Announced r ∧ ∃ parent n, getObject r.io r.buf r.pos = some (.buffer addr len parent, n) := by
  have hp := hi.pos_le
  rw [hi.fin_eq] at hp
  have hs : 8 + 4 * word r.io = r.io.bufferObjSize := by cases r.io <;> rfl
  have hb : r.io.bufferObjSize = 8 + 4 * r.io.ptrSize := by cases r.io <;> rfl
  have hpos : 0 < r.io.bufferObjSize := by cases r.io <;> decide
  have hu : ∀ off n, off + n ≤ r.buf.length → slice r.buf off n = some ((r.buf.drop off).take n) :=
    fun off n h => slice_isSome h
  have key : ∀ addr len, (∃ o, decodeBufferObject r.io r.buf r.pos = some o ∧ o.data = addr ∧ o.size = len) ↔
      ∃ parent n, getObject r.io r.buf r.pos = some (.buffer addr len parent, n) := by
    intro addr len
    unfold decodeBufferObject getObject
    simp only [hs]
    by_cases hfit : r.pos + r.io.bufferObjSize ≤ r.buf.length
    · have h1 : r.io.bufferObjSize ≤ (if r.pos < r.buf.length then r.buf.length - r.pos else 0) := by
        rw [if_pos (by omega)]; omega
      rw [if_pos h1, if_neg (show ¬ ¬ r.pos + 4 ≤ r.buf.length by omega)]
      simp only [u32At, uptrAt, hu r.pos 4 (by omega), hu (r.pos + 4) 4 (by omega),
        hu (r.pos + 8) r.io.ptrSize (by omega), hu (r.pos + 8 + r.io.ptrSize) r.io.ptrSize (by omega),
        hu (r.pos + 8 + 3 * r.io.ptrSize) r.io.ptrSize (by omega), Option.map_some, word_eq]
      by_cases ht : fieldAt r.buf r.pos 4 = tPtr
      · have ht' : some (leVal ((r.buf.drop r.pos).take 4)) = some typePtr := congrArg some ht
        rw [if_pos ht', ht, if_neg (by decide), if_neg (by decide), if_neg (by decide), if_neg (by decide),
          if_pos rfl, if_pos hfit]
        constructor
        · rintro ⟨o, ho, h1, h2⟩
          simp only [Option.bind_eq_bind, Option.bind_some, Option.some.injEq] at ho
          subst ho h1 h2
          exact ⟨_, _, rfl⟩
        · rintro ⟨parent, n, hg⟩
          simp only [Option.some.injEq, Prod.mk.injEq, KObj.buffer.injEq] at hg
          obtain ⟨⟨rfl, rfl, _⟩, _⟩ := hg
          exact ⟨_, rfl, rfl, rfl⟩
      · have ht' : ¬ some (leVal ((r.buf.drop r.pos).take 4)) = some typePtr := by
          intro h; exact ht (Option.some.inj h)
        rw [if_neg ht']
        constructor
        · rintro ⟨o, ho, _⟩; cases ho
        · rintro ⟨parent, n, hg⟩
          simp only [if_neg ht] at hg
          repeat' split at hg
          all_goals cases hg
    · have h1 : ¬ r.io.bufferObjSize ≤ (if r.pos < r.buf.length then r.buf.length - r.pos else 0) := by
        split <;> omega
      rw [if_neg h1]
      constructor
      · rintro ⟨o, ho, _⟩; cases ho
      · rintro ⟨parent, n, hg⟩
        simp only [if_neg hfit] at hg
        repeat' split at hg
        all_goals cases hg
  rw [← key]
  unfold Reader.readBufferObject
  constructor
  · rintro ⟨r', o, h, h1, h2⟩
    split at h
    · rename_i ha
      refine ⟨(announced_iff r).1 ha, ?_⟩
      split at h
      · rename_i o' ho
        cases h
        exact ⟨o, ho, h1, h2⟩
      · cases h
    · cases h
  · rintro ⟨ha, o, ho, h1, h2⟩
    rw [if_pos ((announced_iff r).2 ha)]
    simp only [ho]
    exact ⟨_, o, rfl, h1, h2⟩

/-- A buffer with a descriptor followed by four bytes which look like one, and the handle 7. -/
example : ∃ r : Reader, r.Inside ∧ Announced r ∧
    (∃ n, getObject r.io r.buf r.pos = some (.fd 5, n)) ∧
    r.readFd = .ok 5 (r.eatObject 24) ∧
    -- the same again is just data
    (r.eatObject 24).readFd = .fail (r.eatObject 24) ∧
    r.readNullableObject = .fail r :=
  ⟨Reader.init .io64 .aidl (encodeFdObject .io64 5 ++ encodeFdObject .io64 5) [0] true 0 48,
    ⟨by decide, by decide, by decide⟩, by unfold Announced; decide, ⟨24, by decide⟩,
    by decide, by decide, by decide⟩

end Gb.C57
