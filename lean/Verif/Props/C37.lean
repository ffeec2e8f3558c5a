import Verif.Model.FmqLayout
/-
C37: the read counter, write counter, ring data and event flag described by the grantors of a newly
created queue are pairwise disjoint and inside the allocated shared memory, and 8-byte aligned, if
the sizes fit in the fields of the descriptor. `C37_fails_large` is what happens if they don't fit.
-/
set_option autoImplicit false

namespace Gb.C37
open Gb.Fmq

/-- Two areas have nothing in common. -/
def Disjoint (a b : Grantor) : Prop :=
  a.fdIndex ≠ b.fdIndex ∨ a.offset + a.extent ≤ b.offset ∨ b.offset + b.extent ≤ a.offset

/-- The sizes are what they are meant to be. -/
def sizes (queueSize : Nat) (eventFlag : Bool) : List Nat :=
  if eventFlag then [8, 8, queueSize, 4] else [8, 8, queueSize]

/-- The queue is as large as requested, and the memory provided by the caller (`fd` is the size of
it) is large enough. -/
theorem C37_size {itemSize numItems : Nat} {sync : Bool} {fd : Option Nat} {c : Cfg}
    (hc : config itemSize numItems sync fd = some c) :
    c.size = numItems * itemSize ∧ 0 < c.size ∧ ∀ n, fd = some n → c.size ≤ n := by
  unfold config at hc
  repeat' split at hc
  all_goals first | cases hc | skip
  rename_i h1 h2 h3 h
  have hlt : numItems * itemSize < 2 ^ 64 := by
    have := (Nat.le_div_iff_mul_le (by omega)).mp (Nat.le_of_not_lt h3)
    omega
  have hpos : 0 < numItems * itemSize := Nat.mul_pos (by omega) (by omega)
  rw [Nat.mod_eq_of_lt hlt] at h ⊢
  refine ⟨rfl, hpos, ?_⟩
  intro n hn
  subst hn
  simp at h
  exact h

/-- Whatever fits is accepted. -/
theorem C37_accepted {itemSize numItems : Nat} {sync : Bool} {fd : Option Nat}
    (h1 : 0 < itemSize) (h2 : 0 < numItems) (h3 : numItems * itemSize < 2 ^ 64)
    (h4 : ∀ n, fd = some n → numItems * itemSize ≤ n) :
    ∃ c, config itemSize numItems sync fd = some c ∧ c.sync = sync := by
  unfold config
  rw [if_neg (by omega), if_neg (by omega), if_neg, if_neg]
  · exact ⟨_, rfl, rfl⟩
  · rw [Nat.mod_eq_of_lt h3]
    cases fd with
    | none => simp
    | some n => simpa using h4 n rfl
  · have : numItems ≤ (2 ^ 64 - 1) / itemSize := (Nat.le_div_iff_mul_le h1).mpr (by omega)
    omega

/-- `fd` is the size of the memory provided by the caller, if there's any. -/
theorem C37_layout {itemSize numItems page : Nat} {sync ev : Bool} {fd : Option Nat} {c : Cfg}
    (hc : config itemSize numItems sync fd = some c) (hp : 0 < page) (hp2 : page ≤ 2 ^ 32)
    (hfit : c.size + 24 ≤ 2 ^ 32) :
    (grantors c.size fd.isNone ev).map (·.extent) = sizes (numItems * itemSize) ev ∧
    (grantors c.size fd.isNone ev).Pairwise Disjoint ∧
    ∀ g ∈ grantors c.size fd.isNone ev, 8 ∣ g.offset ∧
      (g.fdIndex = 0 ∧ g.offset + g.extent ≤ shmemSize page c.size fd.isNone ev ∨
       ∃ n, fd = some n ∧ g.fdIndex = 1 ∧ g.offset + g.extent ≤ n) := by
  obtain ⟨hs, -, hf⟩ := C37_size hc
  rw [hs] at hf hfit
  generalize numItems * itemSize = q at hs hf hfit
  have hr : ∀ t, t ≤ 2 ^ 33 → t ≤ (t + page - 1) % 2 ^ 64 / page * page := by
    intro t ht
    rw [Nat.mod_eq_of_lt (by omega)]
    have h1 := Nat.div_add_mod (t + page - 1) page
    have h2 := Nat.mod_lt (t + page - 1) hp
    rw [Nat.mul_comm] at h1
    omega
  have hS : (if fd.isNone then alignUp8 q else 0) + (if ev then 20 else 16) ≤
      shmemSize page q fd.isNone ev := by
    have : alignUp8 q ≤ 2 ^ 32 := by unfold alignUp8; omega
    cases fd <;> cases ev <;> exact hr _ (by simp <;> omega)
  rw [hs]
  generalize shmemSize page q fd.isNone ev = S at hS
  cases fd with
  | none =>
    cases ev
    all_goals
      simp [grantors, grantorsFrom, sizes, Disjoint] at hS ⊢
      simp only [alignUp8] at hS ⊢
      omega
  | some n =>
    have := hf n rfl
    cases ev
    all_goals
      simp [grantors, grantorsFrom, sizes, Disjoint] at hS ⊢
      simp only [alignUp8]
      omega

/-- Each of these is mapped as a whole, at a page boundary. -/
theorem C37_mapping {queueSize page : Nat} {own ev : Bool} (hp : 0 < page)
    (hfit : queueSize + 24 + page ≤ 2 ^ 32) {g : Grantor} (hg : g ∈ grantors queueSize own ev) :
    page ∣ (mapping page g).offset ∧ (mapping page g).offset + (mapping page g).at_ = g.offset ∧
      (mapping page g).offset + (mapping page g).length = g.offset + g.extent := by
  have he : g.extent ≤ queueSize + 8 ∧ g.offset < 2 ^ 32 := by
    have : ∀ g', g = g' → g'.extent ≤ queueSize + 8 ∧ g'.offset < 2 ^ 32 →
        g.extent ≤ queueSize + 8 ∧ g.offset < 2 ^ 32 := by intro g' h; subst h; exact id
    cases own <;> cases ev <;> simp [grantors, grantorsFrom] at hg
    · rcases hg with h | h | h <;> exact this _ h (by simp only; omega)
    · rcases hg with h | h | h | h <;> exact this _ h (by simp only; omega)
    · rcases hg with h | h | h <;> exact this _ h (by simp only; omega)
    · rcases hg with h | h | h | h <;> exact this _ h (by simp only; omega)
  have h1 := Nat.div_add_mod g.offset page
  have h2 := Nat.mod_lt g.offset hp
  rw [Nat.mul_comm] at h1
  simp only [mapping]
  refine ⟨Nat.dvd_mul_left _ _, by omega, ?_⟩
  rw [Nat.mod_eq_of_lt (by omega)]
  omega

/-- A queue of ten items of three bytes. -/
example : config 3 10 true none = some ⟨30, 3, true⟩ := by decide
example : grantors 30 true true = [⟨0, 0, 8⟩, ⟨0, 8, 8⟩, ⟨0, 16, 30⟩, ⟨0, 48, 4⟩] := by decide
example : shmemSize 4096 30 true true = 4096 := by decide
/-- Another one, in the memory provided by the caller. -/
example : config 3 10 true (some 32) = some ⟨30, 3, true⟩ := by decide
example : grantors 30 false true = [⟨0, 0, 8⟩, ⟨0, 8, 8⟩, ⟨1, 0, 30⟩, ⟨0, 16, 4⟩] := by decide
example : mapping 4096 ⟨0, 5000, 4⟩ = ⟨4096, 908, 904⟩ := by decide
/-- The size doesn't fit in 64 bits. -/
example : config 3 (2 ^ 63) true none = none := by decide
/-- That memory is too small. -/
example : config 3 10 true (some 29) = none := by decide

/-- The event flag is the same place where the ring starts. -/
theorem C37_fails_large : config 1 (2 ^ 32) true none = some ⟨2 ^ 32, 1, true⟩ ∧
    ⟨0, 16, 2 ^ 32⟩ ∈ grantors (2 ^ 32) true true ∧ ⟨0, 16, 4⟩ ∈ grantors (2 ^ 32) true true ∧
    ¬ Disjoint ⟨0, 16, 2 ^ 32⟩ ⟨0, 16, 4⟩ := by
  refine ⟨by decide, by decide, by decide, ?_⟩
  simp [Disjoint]

end Gb.C37
