import Verif.Basic.Lts
/-
src/gbinder_ipc.c: incoming transactions which a looper passes to the main thread.

There's one looper thread, handling one transaction after another, and there's the main thread with
its callbacks and timers, which does whatever it likes with the requests. Different loopers have
nothing in common except the main thread (and the lists, see Verif/Model/Loopers.lean).
gbinder_ipc_tx_handler_transact (gbinder_ipc.c:1062-1117) does the same with its own pipe, i.e. it's
a looper which handles a single transaction.

Transactions, requests and pipes are numbered, i.e. the memory and the descriptors are not reused.
-/
set_option autoImplicit false

namespace Gb.LooperTx

/-- What the caller gets: the reply (if there is one) and the status (gbinder_ipc.c:649-767). -/
abbrev Val := Option Nat × Int

/-- gbinder_ipc.c:662 the status if nothing has been received from the main thread. -/
def efault : Val := (none, -14)

/-- gbinder_remote_request.c:132 -/
def ecanceled : Val := (none, -125)

/-- gbinder_ipc.c:132-139 `GBINDER_IPC_LOOPER_TX_STATE` -/
inductive St
  | scheduled
  | processing
  | processed
  | blocking
  | blocked
  | complete
  deriving DecidableEq, Repr

/-- gbinder_ipc.c:141-154 `GBinderIpcLooperTx`. `hasReq` is whether `req` is not NULL, and `val` is
`reply` and `status`. The local object is not modelled. -/
structure Tx where
  refs : Nat
  pipe : Nat
  hasReq : Bool
  st : St
  val : Val
  deriving DecidableEq, Repr

/-- `GBinderRemoteRequest` (gbinder_remote_request.c:45-57). `tx` is whether `req->tx` is not
NULL (it can only point to the transaction with the same number). -/
structure Req where
  refs : Nat
  tx : Bool
  deriving DecidableEq, Repr

/-- What's left to do for gbinder_ipc_looper_tx_handle (and what's called when it returns)
(gbinder_ipc.c:477-560). -/
inductive Cb
  | pending
  /-- The handler is running -/
  | running
  /-- gbinder_ipc.c:538 is next -/
  | dropReq
  /-- gbinder_ipc.c:542 is next -/
  | dropTx
  /-- gbinder_ipc.c:549 is next (true stands for TX_DONE, false for TX_BLOCKED) -/
  | write (done : Bool)
  /-- gbinder_ipc.c:559 is next -/
  | fin
  | done
  deriving DecidableEq, Repr

/-- The transaction and the request (gbinder_ipc.c:141-154, gbinder_remote_request.c:45-57). -/
structure Call where
  tx : Option Tx := none
  req : Option Req := none
  cb : Cb := .done
  /-- gbinder_remote_request_complete has only to drop the reference (gbinder_ipc.c:425-426). -/
  cmp : Bool := false
  /-- References to the request which belong to the app. -/
  held : Nat := 0
  deriving DecidableEq, Repr

/-- What happens to the pipe (gbinder_ipc.c:285-342, 389-429, 540-550). -/
inductive Eff
  | write (done : Bool)
  | close
  deriving DecidableEq, Repr

/-- gbinder_ipc.c:389-429 `gbinder_remote_request_complete`, without dropping the reference. -/
def Call.complete (c : Call) (v : Val) : Option (Call × List Eff) :=
  match c.req with
  | none => none
  | some r =>
    if r.tx then
      match c.tx with
      | none => none
      | some tx =>
        match tx.st with
        | .blocking => some ({ c with tx := some { tx with val := v, st := .processed }, cmp := true }, [])
        | .blocked =>
          some ({ c with tx := some { tx with val := v, st := .complete }, cmp := true }, [.write true])
        | _ => some ({ c with cmp := true }, [])
    else some (c, [])

/-- gbinder_remote_request.c `gbinder_remote_request_unref` and 121-138
`gbinder_remote_request_free`. The request which still has a transaction is not freed until
gbinder_remote_request_complete returns. -/
def Call.reqUnref (c : Call) : Option (Call × List Eff) :=
  match c.req with
  | none => none
  | some r =>
    match r.refs with
    | 0 => none
    | 1 =>
      if r.tx then { c with req := some { r with refs := 0 } }.complete ecanceled
      else some ({ c with req := none }, [])
    | n + 2 => some ({ c with req := some { r with refs := n + 1 } }, [])

/-- gbinder_ipc.c:326-342 `gbinder_ipc_looper_tx_unref`, 301-314 `gbinder_ipc_looper_tx_free`. The
last value is what it returns. -/
def Call.txUnref (c : Call) (dropfd : Bool) : Option (Call × List Eff × Bool) :=
  match c.tx with
  | none => none
  | some tx =>
    match tx.refs with
    | 0 => none
    | 1 =>
      let effs := if dropfd then [] else [Eff.close]
      let c := { c with tx := none }
      if tx.hasReq then
        match c.reqUnref with
        | none => none
        | some (c, e) => some (c, effs ++ e, dropfd)
      else some (c, effs, dropfd)
    | n + 2 => some ({ c with tx := some { tx with refs := n + 1 } }, [], false)

/-- gbinder_ipc.c:425-426, the rest of gbinder_remote_request_complete, and that of
gbinder_remote_request_free if that's where it was called from. -/
def Call.drop (c : Call) : Option (Call × List Eff) :=
  match c.req with
  | none => none
  | some r =>
    match c.txUnref false with
    | none => none
    | some (c, e, _) =>
      some ({ c with cmp := false
                     req := if r.refs = 0 then none else c.req.map (fun r => { r with tx := false }) }, e)

/-- gbinder_ipc.c:481-496 the beginning of `gbinder_ipc_looper_tx_handle`. -/
def Call.handle (c : Call) : Option (Call × List Eff) :=
  match c.tx, c.req with
  | some tx, some r =>
    some ({ c with
      tx := some { tx with refs := tx.refs + 1, st := .processing }
      req := some { r with tx := true }
      cb := .running }, [])
  | _, _ => none

/-- gbinder_ipc.c:372-387 `gbinder_remote_request_block`. -/
def Call.block (c : Call) : Option (Call × List Eff) :=
  match c.req with
  | none => none
  | some r =>
    if r.tx then
      match c.tx with
      | none => none
      | some tx =>
        if tx.st = .processing then some ({ c with tx := some { tx with st := .blocking } }, [])
        else some (c, [])
    else some (c, [])

/-- gbinder_ipc.c:499-523 the handler returns. -/
def Call.ret (c : Call) (v : Val) : Option (Call × List Eff) :=
  match c.tx with
  | none => none
  | some tx =>
    match tx.st with
    | .processing => some ({ c with tx := some { tx with val := v, st := .complete }, cb := .dropTx }, [])
    | .processed => some ({ c with tx := some { tx with st := .complete }, cb := .dropTx }, [])
    | .blocking => some ({ c with tx := some { tx with st := .blocked }, cb := .dropReq }, [])
    -- gbinder_ipc.c:503-521, the next thing is to check if it's blocked
    | .blocked => some ({ c with cb := .dropReq }, [])
    | _ => some ({ c with cb := .dropTx }, [])

/-- gbinder_ipc.c:524-551 the rest of `gbinder_ipc_looper_tx_handle`, and 553-560
`gbinder_ipc_looper_tx_done`. -/
def Call.tail (c : Call) : Option (Call × List Eff) :=
  match c.cb with
  | .dropReq =>
    match c.tx with
    | none => none
    | some tx =>
      if tx.hasReq then
        { c with tx := some { tx with hasReq := false }, cb := .write false }.reqUnref
      else some ({ c with cb := .write false }, [])
  | .dropTx =>
    match c.req with
    | none => none
    | some r =>
      if r.tx then
        match c.txUnref false with
        | none => none
        | some (c, e, _) =>
          some ({ c with req := c.req.map (fun r => { r with tx := false }), cb := .write true }, e)
      else some ({ c with cb := .write true }, [])
  | .write b =>
    match c.tx with
    | none => none
    | some _ => some ({ c with cb := .fin }, [.write b])
  | .fin =>
    match { c with cb := .done }.txUnref false with
    | none => none
    | some (c, e, _) => some (c, e)
  | _ => none

/-- What the looper is doing (gbinder_ipc.c:649-767). -/
inductive Phase
  | idle
  /-- gbinder_ipc.c:680 -/
  | wait (t : Nat)
  /-- gbinder_ipc.c:723 -/
  | wait2 (t : Nat)
  /-- gbinder_ipc.c:729, `ok` if `done` is not zero -/
  | got (t : Nat) (ok : Bool)
  /-- gbinder_ipc.c:745 -/
  | destroy (t : Nat) (v : Val)
  /-- gbinder_driver.c:576 -/
  | reply (t : Nat) (v : Val)
  | gone
  deriving DecidableEq, Repr

/-- What happens (gbinder_ipc.c:372-767). -/
inductive Ev
  | begin (t : Nat)
  /-- gbinder_ipc.c:665 -/
  | noPipe (t : Nat)
  | handle (t : Nat)
  | block (t : Nat)
  | complete (t : Nat) (v : Val)
  | ret (t : Nat) (v : Val)
  | giveUp (t : Nat)
  | answer (t : Nat) (v : Val)
  deriving DecidableEq, Repr

/-- The transactions (gbinder_ipc.c:141-154), the looper (gbinder_ipc.c:156-171) and the pipes. -/
structure State where
  calls : Nat := 0
  call : Nat → Call := fun _ => {}
  npipes : Nat := 0
  /-- What's in the pipe, unless it's closed. -/
  pipes : Nat → Option (List Bool) := fun _ => none
  phase : Phase := .idle
  /-- looper->txfd -/
  txfd : Option Nat := none
  log : List Ev := []

/-- gbinder_ipc.c:372-767, gbinder_remote_request.c:121-138, 197-225: what happens next, see `step`. -/
inductive Label
  /-- A transaction is received. -/
  | begin
  /-- The same, and pipe() fails. -/
  | noPipe
  | handle (t : Nat)
  | block (t : Nat)
  | complete (t : Nat) (v : Val)
  | drop (t : Nat)
  | ref (t : Nat)
  | unref (t : Nat)
  | ret (t : Nat) (v : Val)
  | tail (t : Nat)
  | read
  /-- Shutdown, or poll() fails. -/
  | giveUp
  | take
  | destroy
  | answer
  | exit
  deriving DecidableEq, Repr

/-- Something happens to the pipe (gbinder_ipc.c:238-266, 285-342). -/
def effect (p : Nat) (pipes : Nat → Option (List Bool)) : Eff → Option (Nat → Option (List Bool))
  | .write b =>
    match pipes p with
    | none => none
    | some l => some (upd pipes p (some (l ++ [b])))
  | .close =>
    match pipes p with
    | none => none
    | some _ => some (upd pipes p none)

/-- Several of those in sequence (gbinder_ipc.c:238-266, 285-342). -/
def effects (p : Nat) : (Nat → Option (List Bool)) → List Eff → Option (Nat → Option (List Bool))
  | pipes, [] => some pipes
  | pipes, e :: es =>
    match effect p pipes e with
    | none => none
    | some pipes => effects p pipes es

/-- The pipe which the transaction is using (gbinder_ipc.c:141-154). -/
def pipeOf (c : Call) : Nat := (c.tx.map (·.pipe)).getD 0

/-- A function is called (gbinder_ipc.c:372-560). -/
def apply (s : State) (t : Nat) (o : Option (Call × List Eff)) (evs : List Ev) : Out State :=
  match o with
  | none => .ub
  | some (c, e) =>
    match effects (pipeOf (s.call t)) s.pipes e with
    | none => .ub
    | some pipes => .ok { s with call := upd s.call t c, pipes, log := s.log ++ evs }

/-- The steps (gbinder_ipc.c:372-767, each step has its own lines below). -/
def step (s : State) : Label → Out State
  -- gbinder_driver.c:532 the request is created, gbinder_ipc.c:649-674
  | .begin =>
    match s.phase with
    | .idle =>
      let t := s.calls
      let new : Nat → Call := fun p => {
        tx := some { refs := 2, pipe := p, hasReq := true, st := .scheduled, val := (none, 0) }
        req := some { refs := 2, tx := false }, cb := .pending }
      match s.txfd with
      | some p =>
        .ok { s with calls := t + 1, call := upd s.call t (new p), phase := .wait t, log := s.log ++ [.begin t] }
      | none =>
        let p := s.npipes
        .ok { s with
          calls := t + 1, call := upd s.call t (new p), phase := .wait t, npipes := p + 1
          pipes := upd s.pipes p (some []), txfd := some p, log := s.log ++ [.begin t] }
    | _ => .no
  -- gbinder_ipc.c:662-666, 765-766
  | .noPipe =>
    match s.phase, s.txfd with
    | .idle, none =>
      let t := s.calls
      .ok { s with
        calls := t + 1, call := upd s.call t { req := some { refs := 1, tx := false } }, phase := .reply t efault
        log := s.log ++ [.noPipe t] }
    | _, _ => .no
  | .handle t =>
    if (s.call t).cb = .pending then apply s t (s.call t).handle [.handle t] else .no
  -- These two functions must be called on the main thread, i.e. not while it's in
  -- gbinder_ipc_looper_tx_handle or gbinder_remote_request_complete. Other than that, they are called
  -- by the handler or by someone who has a reference.
  | .block t =>
    if ((s.call t).cb = .running ∨ (s.call t).cb = .done ∧ 0 < (s.call t).held) ∧ (s.call t).cmp = false then
      apply s t (s.call t).block [.block t]
    else .no
  | .complete t v =>
    if ((s.call t).cb = .running ∨ (s.call t).cb = .done ∧ 0 < (s.call t).held) ∧ (s.call t).cmp = false then
      apply s t ((s.call t).complete v) [.complete t v]
    else .no
  | .drop t => if (s.call t).cmp then apply s t (s.call t).drop [] else .no
  -- gbinder_remote_request_ref
  | .ref t =>
    if (s.call t).cb = .running ∨ 0 < (s.call t).held then
      let c := s.call t
      apply s t (c.req.map fun r => ({ c with req := some { r with refs := r.refs + 1 }, held := c.held + 1 }, [])) []
    else .no
  -- gbinder_remote_request_unref, can be called on any thread. Whoever calls
  -- gbinder_remote_request_complete, has a reference which doesn't go away while it's being called.
  | .unref t =>
    if 0 < (s.call t).held ∧ ((s.call t).cmp = true → 1 < (s.call t).held ∨ (s.call t).cb = .running) then
      apply s t ({ s.call t with held := (s.call t).held - 1 }.reqUnref) []
    else .no
  | .ret t v =>
    if (s.call t).cb = .running ∧ (s.call t).cmp = false then apply s t ((s.call t).ret v) [.ret t v] else .no
  | .tail t =>
    match (s.call t).cb with
    | .dropReq | .dropTx | .write _ | .fin => apply s t (s.call t).tail []
    | _ => .no
  -- gbinder_ipc.c:238-266 gbinder_ipc_wait returns TRUE
  | .read =>
    match s.phase with
    | .wait t =>
      match (s.call t).tx with
      | none => .ub
      | some tx =>
        match s.pipes tx.pipe with
        | none => .ub
        | some [] => .no
        | some (b :: l) =>
          .ok { s with pipes := upd s.pipes tx.pipe (some l), phase := if b then .got t true else .wait2 t }
    | .wait2 t =>
      match (s.call t).tx with
      | none => .ub
      | some tx =>
        match s.pipes tx.pipe with
        | none => .ub
        | some [] => .no
        | some (_ :: l) => .ok { s with pipes := upd s.pipes tx.pipe (some l), phase := .got t true }
    | _ => .no
  -- gbinder_ipc_wait returns FALSE
  | .giveUp =>
    match s.phase with
    | .wait t | .wait2 t => .ok { s with phase := .got t false, log := s.log ++ [.giveUp t] }
    | _ => .no
  -- gbinder_ipc.c:731-745
  | .take =>
    match s.phase with
    | .got t ok =>
      match (s.call t).tx, (s.call t).txUnref true with
      | some tx, some (c, e, dropped) =>
        match effects tx.pipe s.pipes e with
        | none => .ub
        | some pipes =>
          .ok { s with
            call := upd s.call t c, pipes
            txfd := if dropped then s.txfd else none
            phase := .destroy t (if ok then tx.val else efault) }
      | _, _ => .ub
    | _ => .no
  -- gbinder_ipc.c:745, if the callback is running then it's the main thread that calls
  -- gbinder_ipc_looper_tx_done
  | .destroy =>
    match s.phase with
    | .destroy t v =>
      if (s.call t).cb = .pending then
        match { s.call t with cb := .done }.txUnref false with
        | none => .ub
        | some (c, e, _) =>
          match effects (pipeOf (s.call t)) s.pipes e with
          | none => .ub
          | some pipes => .ok { s with call := upd s.call t c, pipes, phase := .reply t v }
      else .ok { s with phase := .reply t v }
    | _ => .no
  -- gbinder_driver.c:574-591
  | .answer =>
    match s.phase with
    | .reply t v =>
      match apply s t (s.call t).reqUnref [.answer t v] with
      | .ok s => .ok { s with phase := .idle }
      | .no => .no
      | .ub => .ub
    | _ => .no
  -- gbinder_ipc.c:435-454 gbinder_ipc_looper_free
  | .exit =>
    match s.phase with
    | .idle =>
      match s.txfd with
      | none => .ok { s with phase := .gone }
      | some p =>
        match effect p s.pipes .close with
        | none => .ub
        | some pipes => .ok { s with phase := .gone, txfd := none, pipes }
    | _ => .no

end Gb.LooperTx
