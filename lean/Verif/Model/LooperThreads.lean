import Verif.Model.Loopers
/-
src/gbinder_ipc.c: which threads are joined, and by whom. A thread which has ended but hasn't been joined (none of them
is detached) keeps its stack.

The steps are those of Verif/Model/Loopers.lean, and in addition to that it's possible that a thread can't be created.
-/
set_option autoImplicit false

namespace Gb.LooperThreads

/-- gbinder_ipc.c:156-171 GBinderIpcLooper: `joined` is looper->joined, `reaped` is whether pthread_join has been called
for looper->thread. -/
structure State where
  base : Loopers.State := {}
  joined : Nat → Bool := fun _ => false
  reaped : Nat → Bool := fun _ => false

/-- The steps of the loopers (gbinder_ipc.c:649-929, 2070-2100), and pthread_create failing (gbinder_ipc.c:884-893) in
gbinder_ipc_looper_check and when a looper gets blocked. -/
inductive Label
  | base (l : Loopers.Label)
  | checkFails
  | blockFails (x : Nat)
  deriving DecidableEq, Repr

/-- pthread_join, pthread_timedjoin_np (gbinder_ipc.c:441, 985, 1001). To call it twice for the same thread is undefined
behaviour; it doesn't return until the thread ends. -/
def State.join (s : State) (x : Nat) : Out State :=
  if s.reaped x then .ub
  else if s.base.thread x = .gone then .ok { s with reaped := upd s.reaped x true }
  else .no

/-- gbinder_ipc.c:972-1005 `gbinder_ipc_looper_join`, called by the thread of looper `c` (none if it's some other
thread). -/
def State.looperJoin (s : State) (c : Option Nat) (x : Nat) : Out State :=
  if c ≠ some x then (s.join x).andThen fun s => .ok { s with joined := upd s.joined x true } else .ok s

/-- gbinder_ipc.c:440-442 the beginning of `gbinder_ipc_looper_free` -/
def State.looperFree (s : State) (c : Option Nat) (x : Nat) : Out State :=
  if s.joined x = false ∧ c ≠ some x then s.join x else .ok s

/-- The looper the last reference to which may be dropped by the step, and the looper which drops it: gbinder_ipc.c:837,
853 (the looper itself), 718, 926 (the one who waits for the looper to start), 2097. -/
def drops (s : Loopers.State) : Loopers.Label → Option (Option Nat × Nat)
  | .release x => some (none, x)
  | .remove x => some (some x, x)
  | .last x => some (some x, x)
  | .joined =>
    match s.stop with
    | .join by_ _ _ x => some (by_, x)
    | _ => none
  | _ => none

/-- gbinder_ipc.c:436-475: has the looper been freed? -/
def freed (s s' : Loopers.State) (x : Nat) : Bool := (s.obj x).isSome && (s'.obj x).isNone

/-- gbinder_ipc.c:2097 -/
def State.joining (s : State) (l : Loopers.Label) : Out State :=
  match l, s.base.stop with
  | .joined, .join by_ _ _ x => s.looperJoin by_ x
  | _, _ => .ok s

/-- gbinder_ipc.c:466-475 `gbinder_ipc_looper_unref`, when the loopers are in the state `b` after that. -/
def State.dropping (s : State) (l : Loopers.Label) (b : Loopers.State) : Out State :=
  match drops s.base l with
  | some (c, x) => if freed s.base b x then s.looperFree c x else .ok s
  | none => .ok s

/-- gbinder_ipc.c:649-929, 2070-2100, each step has its own lines below. -/
def step (s : State) : Label → Out State
  /- gbinder_ipc.c:649-929, 2070-2100, see Loopers.step -/
  | .base l =>
    match Loopers.step s.base l with
    | .ok b => (s.joining l).andThen fun s => (s.dropping l b).andThen fun s => .ok { s with base := b }
    | .no => .no
    | .ub => .ub
  /- gbinder_ipc.c:911-913, 884-893: gbinder_ipc_looper_unref drops the only reference, gbinder_ipc_looper_free calls
  pthread_join, but looper->thread hasn't been set -/
  | .checkFails => if s.base.primary = none then .ub else .no
  /- gbinder_ipc.c:703-704, 884-893 -/
  | .blockFails x =>
    match Loopers.step s.base (.block x false) with
    | .ok b => if (Loopers.removeFrom (s.base.n + 1) s.base.next s.base.primary x).isSome ∧ b.primary = none then .ub else .no
    | _ => .no

end Gb.LooperThreads
