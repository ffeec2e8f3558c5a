import Verif.Model.Mutual
/-
Who may call whom: a hierarchy of processes.
-/
set_option autoImplicit false

namespace Gb.Mutual

/-- The applications observe the hierarchy: a call which has to be handled by the main thread of a process is only made if all the main
threads which wait for calls of that chain (and the one which calls) belong to processes of a lower rank. -/
def Ok (c : Cfg) (rank : Nat → Nat) (s : State) : Label → Prop
  | .call t h q => c.lib q = true → (c.isMain t = true → rank (c.proc t) < rank q) ∧
      ∀ x ∈ s.base.chain h, c.isMain x.src = true → rank (c.proc x.src) < rank q
  | .callTo t h u => c.isWorker u = true → (c.isMain t = true → rank (c.proc t) < rank (c.proc u)) ∧
      ∀ x ∈ s.base.chain h, c.isMain x.src = true → rank (c.proc x.src) < rank (c.proc u)
  | _ => True

/-- If a single process uses libgbinder: its main thread doesn't call objects of the same process by way of the kernel. -/
def NotSelf (c : Cfg) : Label → Prop
  | .call t _ q => c.isMain t = true → c.proc t ≠ q
  | _ => True

/-- Main threads don't wait: all calls are made by other threads, i.e. with gbinder_client_transact rather than with the functions which
return the reply. -/
def Async (c : Cfg) : Label → Prop
  | .call t _ _ | .callTo t _ _ => c.isMain t = false
  | _ => True

/-- Handlers return, requests which they have blocked are completed, replies are sent and received. Nobody calls anything. -/
def Progress : Label → Bool
  | .pick _ _ | .read _ | .reply _ _ | .take _ _ _ | .finish _ | .block _ | .complete _ => true
  | _ => false

/-- For each call which nobody has received yet, there's a thread which isn't doing anything and can receive it; if that's a call of a
process which uses libgbinder, then a looper is sufficient which may be handling something else, but doesn't make calls (one which has been
started, see C28 and C87; only threads of the pool make calls). -/
def CanReceive (c : Cfg) (s : State) : Prop :=
  ∀ h x, (s.base.chain h).head? = some x → x.to = none →
    ∃ u, c.proc u = s.tgt x.id ∧ c.isMain u = false ∧
      ((s.base.frames u = [] ∧ s.base.todo u = []) ∨ (c.lib (c.proc u) = true ∧ ∀ i, .call i ∉ s.base.frames u))

end Gb.Mutual
