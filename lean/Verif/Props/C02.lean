import Verif.Lemmas.Junk
import Verif.Spec.Demo
/-
C02. The parcel is always a multiple of four bytes long.
-/
set_option autoImplicit false

namespace Gb.C02

theorem run_aligned {e : Env} {w w' : Writer} {op : WOp} (h : op.run e w = .ok w')
    (hal : op.isAligned = true) (hw : w.bytes.length % 4 = 0) : w'.bytes.length % 4 = 0 := by
  by_cases ha : op.isAppend = true
  · obtain ⟨_, g⟩ := run_grows (al := true) h ha (fun _ => hal)
    obtain ⟨r, hr, hm⟩ := g.tail
    rw [hr, List.length_append]
    have := hm rfl
    omega
  · cases op <;> simp [WOp.isAppend] at ha
    rw [(overwriteInt32_io h).2, hw]

/-- C02: after any sequence of calls, in any state of memory, starting from an empty parcel;
`append_bytes` and `append_parcelable` are allowed too if the length of the raw data is a
multiple of four. -/
theorem C02_aligned (e : Env) (io : Io) (p : Protocol) (m : Mem) (ops : List WOp) (w' : Writer)
    (hraw : ∀ d, WOp.bytes d ∈ ops ∨ WOp.parcelable (some d) ∈ ops → d.length % 4 = 0)
    (h : WOp.runAll e { io := io, protocol := p, mem := m } ops = .ok w') :
    w'.bytesWritten % 4 = 0 := by
  have key : ∀ (ops : List WOp) (w : Writer), (∀ op ∈ ops, op.isAligned = true) →
      w.bytes.length % 4 = 0 → WOp.runAll e w ops = .ok w' → w'.bytes.length % 4 = 0 := by
    intro ops
    induction ops with
    | nil => intro w _ hw h; cases h; exact hw
    | cons op ops ih =>
      intro w hal hw h
      obtain ⟨w1, h1, h2⟩ := bind_ok h
      exact ih w1 (fun o ho => hal o (List.mem_cons_of_mem _ ho))
        (run_aligned h1 (hal op List.mem_cons_self) hw) h2
  refine key ops _ ?_ rfl h
  intro op hop
  cases op with
  | bytes d => simp [WOp.isAligned, hraw d (.inl hop)]
  | parcelable d =>
    cases d with
    | none => rfl
    | some d => simp [WOp.isAligned, hraw d (.inr hop)]
  | _ => rfl

/-- Calls meeting the hypotheses, and their effect. -/
example : (∀ d, WOp.bytes d ∈ Demo.ops ∨ WOp.parcelable (some d) ∈ Demo.ops → d.length % 4 = 0) ∧
    (WOp.runAll Demo.env { io := .io64, protocol := .aidl3, mem := Demo.mem } Demo.ops).map
      (·.bytesWritten) = .ok 488 :=
  ⟨by intro d h; simp [Demo.ops] at h, by decide +kernel⟩

/-- The raw calls really are an exception. -/
example : (WOp.runAll Demo.env { io := .io64, protocol := .aidl3, mem := [] }
      [.bytes [1, 2, 3]]).map (·.bytesWritten) = .ok 3 := by decide +kernel

end Gb.C02
