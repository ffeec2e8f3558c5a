import Verif.Basic.Lts
/-
src/gbinder_ipc.c: asynchronous transactions.

gbinder_ipc_transact, gbinder_ipc_transact_custom, gbinder_ipc_cancel and the completions run on the
main thread, gbinder_ipc_tx_proc runs on the threads from the pool. Callbacks may do anything that
the main thread can do, i.e. any steps can be made between those of gbinder_ipc_tx_done and
gbinder_ipc_tx_free.

Transactions are numbered, i.e. the memory is not reused.
-/
set_option autoImplicit false

namespace Gb.Async

/-- gbinder_ipc.c:175-188 `GBinderIpcTxPriv`, `GBinderIpcTx` (what is relevant). -/
structure Tx where
  id : Nat
  cancelled : Bool := false
  deriving DecidableEq, Repr

/-- What happens to the transactions
(gbinder_ipc.c:1462-1722, 1966-2039: what is observable of those functions). -/
inductive Ev
  | submit (p id : Nat)
  | exec (p : Nat)
  | done (p : Nat)
  | destroy (p : Nat)
  | cancel (p : Nat)
  deriving DecidableEq, Repr

/-- gbinder_ipc.c:62-80 GBinderIpcPriv (tx_table, tx_pool), 1462 gbinder_ipc_next_id, and where the threads are in gbinder_ipc.c:1487-1722. -/
structure State where
  /-- gbinder_ipc_next_id -/
  next : Nat := 1
  /-- The number of transactions so far. -/
  calls : Nat := 0
  txs : Nat → Option Tx := fun _ => none
  /-- priv->tx_table -/
  table : List (Nat × Nat) := []
  /-- Waiting for a thread. -/
  queue : List Nat := []
  /-- gbinder_ipc_tx_proc is about to call fn_exec. -/
  starting : List Nat := []
  /-- fn_exec is running. -/
  running : List Nat := []
  /-- gbinder_ipc_tx_proc is about to schedule the completion. -/
  finished : List Nat := []
  /-- The completion is scheduled. -/
  posted : List Nat := []
  /-- gbinder_ipc_tx_free is about to be called. -/
  finishing : List Nat := []
  log : List Ev := []

/-- gbinder_ipc.c:1487-1722, 1966-2039: what happens next, see `step`. -/
inductive Label
  | submit
  | check (p : Nat)
  | exec (p : Nat)
  | executed (p : Nat)
  | post (p : Nat)
  | done (p : Nat)
  | free (p : Nat)
  | cancel (id : Nat)
  | flush (p : Nat)
  deriving DecidableEq, Repr

/-- gbinder_ipc.c:1462-1471 `gbinder_ipc_tx_new_id`: the identifier and the next value of the
counter, which is 32 bits wide. -/
def newId (next : Nat) : Nat × Nat :=
  let id := next
  let next := (next + 1) % 2 ^ 32
  if id = 0 then (next, (next + 1) % 2 ^ 32) else (id, next)

/-- gbinder_ipc.c:1473-1485 `gbinder_ipc_tx_get_id`: no more than `n` attempts. -/
def getId (used : List Nat) : Nat → Nat → Option (Nat × Nat)
  | 0, _ => none
  | n + 1, next =>
    let (id, next) := newId next
    if used.contains id then getId used n next else some (id, next)

/-- The loop in gbinder_ipc_tx_get_id never ends if there's no result after that many attempts
(gbinder_ipc.c:1479-1483). -/
def attempts : Nat := 2 ^ 32

/-- The steps (gbinder_ipc.c:1487-1722, 1966-2039, each step has its own lines below). -/
def step (s : State) : Label → Out State
  -- gbinder_ipc.c:1966-1990 gbinder_ipc_transact, 1992-2012 gbinder_ipc_transact_custom
  | .submit =>
    match getId (s.table.map (·.1)) attempts s.next with
    | none => .no
    | some (id, next) =>
      let p := s.calls
      .ok { s with
        next, calls := p + 1
        txs := upd s.txs p (some { id })
        table := (id, p) :: s.table
        queue := s.queue ++ [p]
        log := s.log ++ [.submit p id] }
  -- gbinder_ipc.c:1714-1718 gbinder_ipc_tx_proc
  | .check p =>
    if p ∈ s.queue then
      match s.txs p with
      | some tx =>
        if tx.cancelled then
          .ok { s with queue := s.queue.erase p, finished := p :: s.finished }
        else .ok { s with queue := s.queue.erase p, starting := p :: s.starting }
      | none => .ub
    else .no
  -- gbinder_ipc.c:1715
  | .exec p =>
    if p ∈ s.starting then
      match s.txs p with
      | some _ =>
        .ok { s with starting := s.starting.erase p, running := p :: s.running, log := s.log ++ [.exec p] }
      | none => .ub
    else .no
  -- fn_exec has returned
  | .executed p =>
    if p ∈ s.running then
      .ok { s with running := s.running.erase p, finished := p :: s.finished }
    else .no
  -- gbinder_ipc.c:1721
  | .post p =>
    if p ∈ s.finished then
      match s.txs p with
      | some _ => .ok { s with finished := s.finished.erase p, posted := p :: s.posted }
      | none => .ub
    else .no
  -- gbinder_ipc.c:1505-1516 gbinder_ipc_tx_done
  | .done p =>
    if p ∈ s.posted then
      match s.txs p with
      | some tx =>
        .ok { s with
          posted := s.posted.erase p, finishing := p :: s.finishing
          log := if tx.cancelled then s.log else s.log ++ [.done p] }
      | none => .ub
    else .no
  -- gbinder_ipc.c:1487-1503 gbinder_ipc_tx_free
  | .free p =>
    if p ∈ s.finishing then
      match s.txs p with
      | some tx =>
        .ok { s with
          finishing := s.finishing.erase p
          txs := upd s.txs p none
          table := s.table.filter (fun e => e.1 ≠ tx.id)
          log := s.log ++ [.destroy p] }
      | none => .ub
    else .no
  -- gbinder_ipc.c:2014-2031 gbinder_ipc_cancel
  | .cancel id =>
    match s.table.find? (fun e => e.1 = id) with
    | some (_, p) =>
      match s.txs p with
      | some tx =>
        .ok { s with txs := upd s.txs p (some { tx with cancelled := true }), log := s.log ++ [.cancel p] }
      | none => .ub
    | none => .ok s
  -- gbinder_ipc.c:2204-2224 gbinder_ipc_exit: all the threads have exited, callbacks which have been
  -- scheduled are cancelled
  | .flush p =>
    if s.queue = [] ∧ s.starting = [] ∧ s.running = [] ∧ s.finished = [] ∧ p ∈ s.posted then
      match s.txs p with
      | some _ => .ok { s with posted := s.posted.erase p, finishing := p :: s.finishing }
      | none => .ub
    else .no

/-- gbinder_client.c:426-467 `gbinder_client_transact`: the identifier of the transaction. -/
def clientTransact (self dead hasRequest hasDefault : Bool) (s : State) : Option (Nat × State) :=
  if self = true ∧ dead = false ∧ (hasRequest = true ∨ hasDefault = true) then
    match step s .submit with
    | .ok s' => (s'.txs s.calls).map (fun tx => (tx.id, s'))
    | _ => none
  else some (0, s)

end Gb.Async
