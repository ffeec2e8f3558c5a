import Verif.Model.WriterOps
import Verif.Spec.Kernel
/-
What a caller of the structure and descriptor functions of the writer has to respect.
-/
set_option autoImplicit false

namespace Gb
open Writer Kernel

/-- Offset of a field. -/
def Writer.WField.offset : WField → Nat
  | .ptr off _ _ => off
  | .str off => off
  | .vec off _ _ => off
  | .vecNoType off => off

mutual
/-- The element type of a vector is well formed. -/
def wfField : WField → Prop
  | .vec _ esize fs => esize < 2 ^ 32 ∧ wfFields 0 esize fs
  | _ => True
/-- Fields come in the order of increasing offsets, don't overlap (a pointer or the beginning
of a string or vector takes 8 bytes) and are inside of the structure. -/
def wfFields (lo size : Nat) : List WField → Prop
  | [] => True
  | f :: fs => lo ≤ f.offset ∧ f.offset + 8 ≤ size ∧ wfField f ∧ wfFields (f.offset + 8) size fs
end

/-- A description of a structure as a C compiler would lay it out. -/
def WType.Wf (t : WType) : Prop := wfFields 0 t.size t.fields

/-- The counters of a GBinderFds structure don't overflow. -/
def fdsFit (m : Mem) (a : Nat) : Prop :=
  ∀ nf ni, loadU32 m (a + 4) = .ok nf → loadU32 m (a + 8) = .ok ni → nf + ni < 2 ^ 32

/-- Well-formed arguments. -/
def WOp.Wf (m : Mem) : WOp → Prop
  | .fds a _ => fdsFit m a
  | .fmqDescriptor d => ∀ a, loadPtr m (d + 16) = .ok a → fdsFit m a
  | .struct _ (some t) _ => t.Wf
  | .structVec _ _ (some t) => t.size < 2 ^ 32 ∧ t.Wf
  | _ => True

/-- The parent given by the caller, if any. -/
def WOp.parent : WOp → Option Parent
  | .fds a par => if a = 0 then none else par
  | .bufferObject _ _ par => par
  | .struct _ _ par => par
  | _ => none

/-- The kernel would accept a child of object `index`, to be stored at `offset` there, as the
next object of the parcel. -/
def acceptsChild (io : Io) (w : Writer) (p : Parent) : Prop :=
  ∃ objs last min, getObjects io w.bytes 0 w.offsets = some objs ∧
    fixups [] 0 0 objs = some (last, min) ∧
    ∃ r, stepFixup objs last min (.buffer 0 0 (some (p.index, p.offset))) = some r

/-- All the calls have well-formed arguments at the time they are made. -/
def WfCalls (e : Env) : Writer → List WOp → Prop
  | _, [] => True
  | w, op :: ops =>
    op.Wf w.mem ∧ (∀ p, op.parent = some p → acceptsChild w.io w p) ∧
      ∀ w1, op.run e w = .ok w1 → WfCalls e w1 ops

end Gb
