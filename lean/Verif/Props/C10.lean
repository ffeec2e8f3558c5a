import Verif.Lemmas.Grows
import Verif.Spec.Demo
/-
C10. The table of object offsets is what the kernel expects.

`Kernel.getObjects` (the specification) only succeeds if all the offsets are inside of the
parcel, each object is complete, the offsets increase and the objects don't overlap.
-/
set_option autoImplicit false

namespace Gb.C10
open Kernel

/-- C10 for any sequence of append calls (any call except for overwrite_int32), in any state of
memory: the kernel finds an object at each offset. -/
theorem C10_offset_table (e : Env) (io : Io) (p : Protocol) (m : Mem) (ops : List WOp) (w' : Writer)
    (ha : ∀ off v, WOp.overwriteInt32 off v ∉ ops)
    (h : WOp.runAll e { io := io, protocol := p, mem := m } ops = .ok w') :
    ∃ objs, getObjects io w'.bytes 0 w'.offsets = some objs ∧ objs.length = w'.offsets.length := by
  obtain ⟨_, s, hb⟩ := runAll_built (al := false) h (by
    intro op hop
    cases op <;> first | rfl | exact absurd hop (ha _ _)) (by simp)
  exact ⟨_, hb.placed.getObjects 0 (Nat.le_refl _), by simp [hb.length_eq]⟩

/-- What success of `getObjects` means: the offsets are strictly increasing, at least the size of
a flat_binder_object apart, and the objects are inside. -/
theorem getObjects_spec {io : Io} {b : Bytes} : ∀ {lo : Nat} {os : List Nat} {xs : List KObj},
    getObjects io b lo os = some xs →
    (∀ o ∈ os, lo ≤ o ∧ o + io.flatSize ≤ b.length) ∧
    os.Pairwise (fun o o' => o + io.flatSize ≤ o') := by
  intro lo os
  induction os generalizing lo with
  | nil => intro xs _; simp
  | cons o os ih =>
    intro xs h
    unfold getObjects at h
    cases hg : getObject io b o with
    | none => rw [hg] at h; simp at h
    | some y =>
      obtain ⟨x, n⟩ := y
      rw [hg] at h
      simp only [] at h
      have hn : io.flatSize ≤ n ∧ o + n ≤ b.length := by
        unfold getObject at hg
        simp only [word_eq] at hg
        have hp : io.flatSize = 8 + 2 * io.ptrSize := by cases io <;> rfl
        repeat' split at hg
        all_goals first
          | (simp only [Option.some.injEq, Prod.mk.injEq] at hg; omega)
          | simp at hg
      split at h
      · rename_i hlo
        cases hr : getObjects io b (o + n) os with
        | none => rw [hr] at h; simp at h
        | some ys =>
          obtain ⟨h1, h2⟩ := ih hr
          refine ⟨?_, ?_⟩
          · intro o' ho'
            rcases List.mem_cons.mp ho' with rfl | ho'
            · exact ⟨hlo, by omega⟩
            · have := h1 o' ho'; omega
          · refine List.Pairwise.cons ?_ h2
            intro o' ho'
            have := h1 o' ho'
            omega
      · simp at h

/-- C10 in terms of the offsets alone. -/
theorem C10_increasing (e : Env) (io : Io) (p : Protocol) (m : Mem) (ops : List WOp) (w' : Writer)
    (ha : ∀ off v, WOp.overwriteInt32 off v ∉ ops)
    (h : WOp.runAll e { io := io, protocol := p, mem := m } ops = .ok w') :
    (∀ o ∈ w'.offsets, o + io.flatSize ≤ w'.bytes.length) ∧
    w'.offsets.Pairwise (fun o o' => o + io.flatSize ≤ o') := by
  obtain ⟨objs, h1, _⟩ := C10_offset_table e io p m ops w' ha h
  obtain ⟨h2, h3⟩ := getObjects_spec h1
  exact ⟨fun o ho => (h2 o ho).2, h3⟩

/-- If the raw data is aligned, the objects are aligned as the kernel wants them. -/
theorem C10_accepted (e : Env) (io : Io) (p : Protocol) (m : Mem) (ops : List WOp) (w' : Writer)
    (ha : ∀ off v, WOp.overwriteInt32 off v ∉ ops)
    (hraw : ∀ d, WOp.bytes d ∈ ops ∨ WOp.parcelable (some d) ∈ ops → d.length % 4 = 0)
    (h : WOp.runAll e { io := io, protocol := p, mem := m } ops = .ok w') :
    ∃ objs, accepts io w'.bytes w'.offsets = some objs := by
  obtain ⟨_, s, hb⟩ := runAll_built (al := true) h (by
    intro op hop
    cases op <;> first | rfl | exact absurd hop (ha _ _)) (by
    intro _ op hop
    cases op with
    | bytes d => simp [WOp.isAligned, hraw d (.inl hop)]
    | parcelable d =>
      cases d with
      | none => rfl
      | some d => simp [WOp.isAligned, hraw d (.inr hop)]
    | _ => rfl)
  have hg := hb.placed.getObjects 0 (Nat.le_refl _)
  exact ⟨_, by rw [accepts, if_pos hb.offsets_mod, hg]⟩

/-- Overwriting part of an object makes the kernel reject the parcel: why overwrite_int32 is
excluded. -/
example : (WOp.runAll Demo.env { io := .io64, protocol := .aidl, mem := [] }
      [.remoteObject (some 1), .overwriteInt32 0 5]).map
      (fun w' => getObjects .io64 w'.bytes 0 w'.offsets) = .ok none := by decide +kernel

/-- Calls meeting the hypotheses, and what the kernel finds. -/
example : (∀ off v, WOp.overwriteInt32 off v ∉ Demo.ops) ∧
    (∀ d, WOp.bytes d ∈ Demo.ops ∨ WOp.parcelable (some d) ∈ Demo.ops → d.length % 4 = 0) ∧
    (WOp.runAll Demo.env { io := .io64, protocol := .aidl3, mem := Demo.mem } Demo.ops).map
      (fun w' => accepts .io64 w'.bytes w'.offsets) = .ok (some
        [.binder 0x55550 0, .handle 3,
         .buffer 0x13000 16 none, .buffer 16 3 (some (2, 0)),
         .buffer 0x15000 16 none, .buffer 0x14000 32 (some (4, 0)),
         .buffer 16 3 (some (5, 0)), .buffer 16 3 (some (5, 16)),
         .buffer 0x17000 16 none, .buffer 0x16000 3 (some (8, 0)),
         .buffer 32 16 none, .buffer 16 3 (some (10, 0)), .fd 6]) :=
  ⟨by intro off v; simp [Demo.ops], by intro d h; simp [Demo.ops] at h, by decide +kernel⟩

end Gb.C10
