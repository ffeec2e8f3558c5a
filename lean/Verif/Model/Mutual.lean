import Verif.Model.Nested
/-
src/gbinder_ipc.c, src/gbinder_driver.c: processes which call each other. Threads of libgbinder which receive a transaction pass it to the
main thread and wait (gbinder_ipc.c:651-700, 1064-1115), except for the main thread itself which handles transactions it receives while
it's waiting for a reply (gbinder_driver.c:556-566). Threads of other processes (those of Android) handle transactions themselves.

Built upon Model/Nested (which includes the kernel). Threads don't die here. Left out are one-way calls, calls which the kernel refuses,
transactions which loopers handle themselves (those of the base interface, gbinder_driver.c:552-555), and main loops which are run by
handlers.
-/
set_option autoImplicit false

namespace Gb.Mutual

/-- Processes and threads: which process a thread belongs to, which processes use libgbinder, and which thread of those is the main one
(gbinder_ipc.c:651-700, gbinder_driver.c:556-566). -/
structure Cfg where
  proc : Nat → Nat
  lib : Nat → Bool
  main : Nat → Nat
  main_proc : ∀ p, proc (main p) = p

/-- The main thread of a process which uses libgbinder (gbinder_driver.c:557-561: the handler is NULL). -/
def Cfg.isMain (c : Cfg) (t : Nat) : Bool := c.lib (c.proc t) && t == c.main (c.proc t)

/-- Any other thread of libgbinder (gbinder_ipc.c:651, 1064: the handler isn't NULL). -/
def Cfg.isWorker (c : Cfg) (t : Nat) : Bool := c.lib (c.proc t) && t != c.main (c.proc t)

/-- Model/Nested; the process which each call is for; what the main thread of a process is handling for another thread, the calls which have
been blocked by their handlers, and those which have been handled (GBinderIpcLooperTx, gbinder_ipc.c:141-154, 479-552). -/
structure State where
  base : Nested.State := {}
  tgt : Nat → Nat := fun _ => 0
  job : Nat → Option Nat := fun _ => none
  blocked : List Nat := []
  done : List Nat := []

/-- What may happen next (see `step`, gbinder_ipc.c:479-700, 1064-1115, 1729-1840). -/
inductive Label
  | call (t h q : Nat)
  | callTo (t h u : Nat)
  | pick (u h : Nat)
  | read (t : Nat)
  | reply (t h : Nat)
  | take (p u i : Nat)
  | finish (p : Nat)
  | block (p : Nat)
  | complete (i : Nat)
  deriving DecidableEq, Repr

/-- Whether the thread isn't occupied: worker threads don't call anything while they are handling a transaction
(gbinder_ipc.c:651-700, 1064-1115). -/
def mayCall (c : Cfg) (s : State) (t : Nat) : Bool := !c.isWorker t || (s.base.frames t).isEmpty

/-- The main thread is in its main loop (gbinder_ipc.c:676, 1082: gbinder_idle_callback_schedule_new). -/
def inLoop (c : Cfg) (s : State) (p : Nat) : Bool :=
  c.lib p && (s.base.frames (c.main p)).isEmpty && (s.base.todo (c.main p)).isEmpty

/-- A step of Model/Nested (gbinder_driver.c:517-597, 776-854, 1226-1313). -/
def nested (s : State) (l : Nested.Label) (f : Nested.State → State) : Out State :=
  match Nested.step s.base l with
  | .ok b => .ok (f b)
  | .no => .no
  | .ub => .ub

/-- One step (gbinder_ipc.c:479-700, 1064-1115, 1729-1840; gbinder_driver.c:517-597, 1226-1313). -/
def step (c : Cfg) (s : State) : Label → Out State
  -- no thread of that process is waiting for a call of the chain
  | .call t h q =>
    if mayCall c s t ∧ ∀ x ∈ s.base.chain h, c.proc x.src ≠ q then
      nested s (.call t h) fun b => { s with base := b, tgt := upd s.tgt s.base.next q }
    else .no
  -- otherwise the call is for that thread
  | .callTo t h u =>
    if mayCall c s t then nested s (.callTo t h u) fun b => { s with base := b, tgt := upd s.tgt s.base.next (c.proc u) }
    else .no
  -- the main thread isn't one of those which wait for transactions
  | .pick u h =>
    if c.isMain u = false ∧ (s.base.chain h).head?.map (fun x => s.tgt x.id) = some (c.proc u) then
      nested s (.pick u h) fun b => { s with base := b }
    else .no
  | .read t => nested s (.read t) fun b => { s with base := b }
  -- gbinder_ipc.c:680-690, 1086-1100: the worker waits until the main thread has handled the transaction
  | .reply t h =>
    match s.base.frames t with
    | .handle i :: _ =>
      if c.isWorker t = false ∨ i ∈ s.done then nested s (.reply t h true) fun b => { s with base := b } else .no
    | _ => .no
  -- gbinder_ipc.c:479-500 gbinder_ipc_looper_tx_handle
  | .take p u i =>
    if inLoop c s p ∧ s.job p = none ∧ c.proc u = p ∧ c.isWorker u ∧ (s.base.frames u).head? = some (.handle i) ∧
        i ∉ s.done ∧ i ∉ s.blocked then
      .ok { s with job := upd s.job p (some i) }
    else .no
  -- gbinder_ipc.c:503-514, 541-551: the handler returns, the result is there
  | .finish p =>
    match s.job p with
    | some i => if inLoop c s p then .ok { s with job := upd s.job p none, done := i :: s.done } else .no
    | none => .no
  -- gbinder_ipc.c:515-518, 527-540, 549: the handler returns, and has blocked the request
  | .block p =>
    match s.job p with
    | some i => if inLoop c s p then .ok { s with job := upd s.job p none, blocked := i :: s.blocked } else .no
    | none => .no
  -- gbinder_ipc.c:409-417: gbinder_remote_request_complete, at any time after that (also if the request is freed)
  | .complete i =>
    if i ∈ s.blocked then .ok { s with blocked := s.blocked.filter (· != i), done := i :: s.done } else .no

end Gb.Mutual
