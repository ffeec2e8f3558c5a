import Verif.Model.Async
/-
src/gbinder_ipc.c: when calls are sent. Asynchronous calls (Model/Async) wait for a thread from the pool, others are sent by the
thread which makes them.
-/
set_option autoImplicit false

namespace Gb.SendOrder

/-- A call: the one made by gbinder_client_transact (gbinder_client.c:426-467), or by gbinder_client_transact_sync_reply or
gbinder_client_transact_sync_oneway (gbinder_client.c:404-424) on the main thread. They are numbered separately. -/
inductive Call
  | async (p : Nat)
  | sync (k : Nat)
  deriving DecidableEq, Repr

/-- What happens (gbinder_client.c:404-467, gbinder_ipc.c:1505-1516, 1706-1722, gbinder_driver.c:1284-1291). -/
inductive Ev
  /-- the application makes the call (gbinder_client.c:404-467) -/
  | called (c : Call)
  /-- a thread takes care of it (gbinder_ipc.c:1706-1722) -/
  | taken (p : Nat)
  /-- the kernel has got the transaction (gbinder_driver.c:1285) -/
  | sent (c : Call)
  /-- the completion is running (gbinder_ipc.c:1505-1516), i.e. the callbacks are going to be called -/
  | over (p : Nat)
  deriving DecidableEq, Repr

/-- gbinder_ipc.c:62-80 GBinderIpcPriv (tx_table, tx_pool) and what the threads are doing. -/
structure State where
  async : Async.State := {}
  /-- The number of synchronous calls so far. -/
  syncs : Nat := 0
  /-- The synchronous call which the main thread hasn't sent yet (gbinder_driver.c:1250-1285). -/
  pending : Option Nat := none
  /-- Asynchronous calls which have been sent. -/
  sent : List Nat := []
  log : List Ev := []

/-- What may happen next (gbinder_ipc.c:1487-1722, 1795-1844, 1966-2039, gbinder_driver.c:1226-1310). -/
inductive Label
  /-- see Model/Async -/
  | async (l : Async.Label)
  /-- gbinder_driver.c:1285 on a thread from the pool -/
  | send (p : Nat)
  /-- gbinder_client.c:404-424, gbinder_ipc.c:1795-1839: the main thread makes a synchronous call -/
  | sync
  /-- gbinder_driver.c:1285 on the main thread -/
  | syncSent
  /-- gbinder_driver.c:1286-1287: the transaction hasn't been written -/
  | syncFailed
  deriving DecidableEq, Repr

/-- GBINDER_IPC_MAX_TX_THREADS, gbinder_ipc.c:96. -/
def maxThreads : Nat := 15

/-- Threads from the pool which are in gbinder_ipc_tx_proc (gbinder_ipc.c:1706-1722). -/
def busy (s : Async.State) : Nat := s.starting.length + s.running.length + s.finished.length

/-- Those steps are made by the main thread (gbinder_ipc.c:1487-1516, 1966-2031, 2204-2224), the others by threads from the pool. -/
def onMain : Async.Label → Bool
  | .submit | .done _ | .free _ | .cancel _ | .flush _ => true
  | .check _ | .exec _ | .executed _ | .post _ => false

/-- g_thread_pool_push (gbinder_ipc.c:1985, 2007), and the pool created by g_thread_pool_new (gbinder_ipc.c:2063-2064, where
`max` is 15): tasks are taken in the order in which they were pushed, by no more than `max` threads at once. -/
def mayStart (max : Nat) (s : Async.State) : Async.Label → Bool
  | .check p => decide (s.queue.head? = some p ∧ busy s < max)
  | _ => true

/-- What's observed (gbinder_ipc.c:1505-1516, 1706-1722, 1966-2012). -/
def events (s : Async.State) : Async.Label → List Ev
  | .submit => [.called (.async s.calls)]
  | .check p => [.taken p]
  | .done p => [.over p]
  | _ => []

/-- One step (see `Label`), with no more than `max` threads in the pool (gbinder_ipc.c:96, 2034-2039, 2063-2064). The main thread
does nothing else until it has sent its transaction, after that anything is possible (even before the call returns, because
incoming transactions may be handled meanwhile). gbinder_ipc.c:1487-1722, 1795-1844, 1966-2039. -/
def step (max : Nat) (s : State) : Label → Out State
  | .async l =>
    if (onMain l = true → s.pending = none) ∧ mayStart max s.async l = true then
      match Async.step s.async l with
      | .ok t => .ok { s with async := t, log := s.log ++ events s.async l }
      | .no => .no
      | .ub => .ub
    else .no
  -- gbinder_ipc.c:1589-1603, 1730-1784: fn_exec is running
  | .send p =>
    if p ∈ s.async.running ∧ p ∉ s.sent then
      .ok { s with sent := p :: s.sent, log := s.log ++ [.sent (.async p)] }
    else .no
  | .sync =>
    if s.pending = none then
      .ok { s with syncs := s.syncs + 1, pending := some s.syncs, log := s.log ++ [.called (.sync s.syncs)] }
    else .no
  | .syncSent =>
    match s.pending with
    | some k => .ok { s with pending := none, log := s.log ++ [.sent (.sync k)] }
    | none => .no
  | .syncFailed =>
    match s.pending with
    | some _ => .ok { s with pending := none }
    | none => .no

end Gb.SendOrder
