import Verif.Lemmas.Fixup
import Verif.Spec.Demo
/-
C12. References to parent buffers are valid.

`Kernel.fixups` is what the kernel does with the objects of a parcel: `binder_validate_ptr`
(the parent is a buffer object which precedes its child), `binder_validate_fixup` (fixups are in
the order the kernel requires: depth first, increasing offsets) and `binder_fixup_parent` (there
is room for a 64-bit pointer).

`WfCalls` (Spec/Calls.lean) is what the caller is responsible for: structure descriptions
are laid out as a C compiler would do it, GBinderFds counters don't overflow, and parents
supplied by the caller (NULL in most cases) are acceptable.  The remaining hypotheses are that
the parcel is smaller than 4 GB: GByteArray doesn't support more.
-/
set_option autoImplicit false

namespace Gb.C12
open Kernel

/-- C12, as the kernel sees it: it doesn't reject the parcel. -/
theorem C12_kernel_accepts (e : Env) (io : Io) (p : Protocol) (m : Mem) (ops : List WOp) (w' : Writer)
    (ha : ∀ off v, WOp.overwriteInt32 off v ∉ ops)
    (hwf : WfCalls e { io := io, protocol := p, mem := m } ops)
    (h : WOp.runAll e { io := io, protocol := p, mem := m } ops = .ok w')
    (hlen : w'.bytes.length < 2 ^ 32) (hbuf : w'.buffersSize < 2 ^ 32) :
    ∃ objs r, getObjects io w'.bytes 0 w'.offsets = some objs ∧ fixups [] 0 0 objs = some r := by
  obtain ⟨s, r, hb, hf⟩ := runAll_fix ops { io := io, protocol := p, mem := m } [] (0, 0) rfl h (by
    intro op hop
    cases op <;> first | rfl | exact absurd hop (ha _ _)) hwf hlen hbuf .nil rfl
  have hc := hb.count_le
  refine ⟨_, r, hb.placed.getObjects 0 (Nat.le_refl _), ?_⟩
  rw [kernel_eq_pure hf (hb.lensOk hbuf) (by omega)]
  exact hf

/-- C12 in terms of the objects alone: buffers with a parent refer to an earlier object, which is
a buffer and has room for the pointer. -/
theorem C12_parents (e : Env) (io : Io) (p : Protocol) (m : Mem) (ops : List WOp) (w' : Writer)
    (ha : ∀ off v, WOp.overwriteInt32 off v ∉ ops)
    (hwf : WfCalls e { io := io, protocol := p, mem := m } ops)
    (h : WOp.runAll e { io := io, protocol := p, mem := m } ops = .ok w')
    (hlen : w'.bytes.length < 2 ^ 32) (hbuf : w'.buffersSize < 2 ^ 32) :
    ∃ objs, getObjects io w'.bytes 0 w'.offsets = some objs ∧
      (∀ (i : Nat) addr len index offset,
        objs[i]? = some (.buffer addr len (some (index, offset))) →
        ∃ paddr plen pp, index < i ∧ objs[index]? = some (.buffer paddr plen pp) ∧ offset + 8 ≤ plen) ∧
      (∀ (i : Nat) n index offset, objs[i]? = some (.fda n index offset) →
        ∃ paddr plen pp, index < i ∧ objs[index]? = some (.buffer paddr plen pp) ∧
          offset + 4 * n ≤ plen) := by
  obtain ⟨objs, r, h1, h2⟩ := C12_kernel_accepts e io p m ops w' ha hwf h hlen hbuf
  have key : ∀ (i len : Nat), parentLen objs i = some len →
      ∃ a pp, objs[i]? = some (.buffer a len pp) := by
    intro i len hl
    unfold parentLen at hl
    split at hl
    · rename_i a n pp hx
      cases hl
      exact ⟨a, pp, hx⟩
    · cases hl
  refine ⟨objs, h1, ?_, ?_⟩
  · intro i addr len index offset hx
    have := fixups_childOk h2 i _ hx
    simp only [List.nil_append, List.length_nil, Nat.zero_add, ChildOk] at this
    obtain ⟨h3, l, h4, h5⟩ := this
    obtain ⟨a, pp, h6⟩ := key _ _ h4
    exact ⟨a, l, pp, h3, h6, h5⟩
  · intro i n index offset hx
    have := fixups_childOk h2 i _ hx
    simp only [List.nil_append, List.length_nil, Nat.zero_add, ChildOk] at this
    obtain ⟨h3, l, h4, h5⟩ := this
    obtain ⟨a, pp, h6⟩ := key _ _ h4
    exact ⟨a, l, pp, h3, h6, h5⟩

/-- Calls whose arguments don't refer to memory and have no parent. -/
theorem wf_simple {e : Env} (ops : List WOp) (h : ∀ op ∈ ops, (∀ m, op.Wf m) ∧ op.parent = none) :
    ∀ w, WfCalls e w ops := by
  induction ops with
  | nil => intro _; trivial
  | cons op ops ih =>
    intro w
    have := h op List.mem_cons_self
    refine ⟨this.1 _, ?_, fun w1 _ => ih (fun o ho => h o (List.mem_cons_of_mem _ ho)) w1⟩
    rw [this.2]
    intro p hp
    cases hp

/-- Calls meeting the hypotheses. -/
example : WfCalls Demo.env { io := .io64, protocol := .aidl3, mem := Demo.mem } Demo.ops ∧
    (WOp.runAll Demo.env { io := .io64, protocol := .aidl3, mem := Demo.mem } Demo.ops).map
      (fun w' => (w'.bytes.length, w'.buffersSize)) = .ok (488, 136) := by
  refine ⟨wf_simple _ ?_ _, by decide +kernel⟩
  simp [Demo.ops, WOp.Wf, WOp.parent, WType.Wf, wfFields, wfField, Writer.WField.offset]

/-- Why GBinderFds counters matter: with an overflow the array sticks out of its buffer. -/
example :
    let m : Mem := [(64, leBytes 4 12 ++ leBytes 4 0xffffffff ++ leBytes 4 1)]
    (WOp.runAll { Demo.env with slack := fun _ => 4 } { io := .io64, protocol := .hidl, mem := m }
      [.fds 64 none]).map (fun w => (getObjects .io64 w.bytes 0 w.offsets).map (fixups [] 0 0)) =
    .ok (some none) := by decide +kernel

end Gb.C12
