import Verif.Model.Async
import Verif.Model.Manager
/-
src/gbinder_servicename.c: a name which is registered with the service manager as long as there is one.

This is put together of the service managers (Model/Manager.lean), the asynchronous transactions
(Model/Async.lean), and the names. All but the execution of the transactions happens on the main thread.
The handlers of the presence signal are called one by one; the application may have such handlers too,
i.e. it may be doing something in between.

The names are numbered, i.e. the memory is not reused. The number is also the identifier of the presence
handler. Simplified: reference counts don't overflow; the main loop isn't run by the callbacks; the
application doesn't guess the identifiers of handlers and transactions which it isn't given.
-/
set_option autoImplicit false

namespace Gb.ServiceName

/-- gbinder_servicename.c:46-55 GBinderServiceNamePriv -/
structure Name where
  /-- sm -/
  mgr : Nat
  /-- refcount -/
  refs : Nat := 1
  /-- add_call_id -/
  call : Nat := 0
  /-- retry_timer -/
  timer : Option Nat := none
  deriving DecidableEq, Repr

/-- A timer which has been added to the event loop (gbinder_eventloop.c:60-110). -/
structure Timer where
  id : Nat
  name : Nat
  interval : Nat
  deriving DecidableEq, Repr

/-- What is observable of gbinder_servicename.c:70-197. -/
inductive Ev
  | created (n : Nat)
  /-- the presence handler is called, and what gbinder_servicemanager_is_present returns -/
  | signal (n : Nat) (present : Bool)
  /-- gbinder_servicemanager_add_service is called, the transaction -/
  | added (n p : Nat)
  /-- its result -/
  | result (n : Nat) (status : Int)
  | freed (n : Nat)
  deriving DecidableEq, Repr

/-- The service managers, the transactions (gbinder_servicemanager.c:278-316: whose they are, and the
status), the names (gbinder_servicename.c:46-55) and the timers (gbinder_eventloop.c:60-110). -/
structure State where
  mgr : Manager.State := {}
  ipc : Async.State := {}
  names : Nat → Option Name := fun _ => none
  /-- The numbers which have been used. -/
  used : List Nat := []
  /-- The name, and the service manager which the transaction refers to. -/
  owner : Nat → Option (Nat × Nat) := fun _ => none
  /-- GBinderServiceManagerAddServiceTxData::status, initially -EFAULT
  (gbinder_servicemanager.c:885). -/
  status : Nat → Int := fun _ => -14
  timers : List Timer := []
  /-- The handlers of the presence signal yet to be called. -/
  calls : List Nat := []
  log : List Ev := []

/-- gbinder_servicename.c:70-197: what happens next, see `step`. -/
inductive Label
  | create (n m : Nat)
  | ref (n : Nat)
  | unref (n : Nat)
  | signal
  | retry (t : Timer)
  | done (p tid : Nat)
  | executed (p : Nat) (status : Int)
  | mgr (l : Manager.Label)
  | ipc (l : Async.Label)

/-- gbinder_servicename.c:44 GBINDER_SERVICENAME_RETRY_INTERVAL_MS -/
def retryInterval : Nat := 500

/-- The event loop isn't inside of any callback which emits signals
(gbinder_servicemanager.c:318-427). -/
def State.idle (s : State) : Bool := s.calls.isEmpty && s.mgr.pending.isEmpty

/-- Stores to the fields of GBinderServiceNamePriv (gbinder_servicename.c:46-55). -/
def State.set (s : State) (n : Nat) (x : Name) : State := { s with names := upd s.names n (some x) }

/-- Adds to the log; no code in gbinder_servicename.c:70-197 corresponds to it. -/
def State.add (s : State) (e : Ev) : State := { s with log := s.log ++ [e] }

/-- gbinder_servicemanager.c:909-917 `gbinder_servicemanager_cancel`, gbinder_ipc.c:2014-2031 ignores
zero. -/
def State.cancel (s : State) (id : Nat) : Out State :=
  if id = 0 then .ok s
  else
    match Async.step s.ipc (.cancel id) with
    | .ok ipc => .ok { s with ipc }
    | .no => .no
    | .ub => .ub

/-- gbinder_eventloop.c:284-291 `gbinder_timeout_remove`, which does nothing if the pointer is NULL; the
structure is gone if the timer is. -/
def State.removeTimer (s : State) : Option Nat → Out State
  | none => .ok s
  | some c =>
    if s.timers.any fun t => t.id == c then .ok { s with timers := s.timers.filter fun t => t.id != c } else .ub

/-- gbinder_servicemanager.c:868-893 `gbinder_servicemanager_add_service`: the transaction is
submitted, and refers to the service manager. The result is the identifier. -/
def State.submit (s : State) (n m : Nat) : Out (State × Nat) :=
  match Async.step s.ipc .submit with
  | .ok ipc =>
    match ipc.txs s.ipc.calls with
    | some tx =>
      .ok ({ s with ipc, owner := upd s.owner s.ipc.calls (some (n, m)),
                    status := upd s.status s.ipc.calls (-14) }, tx.id)
    | none => .ub
  | .no => .no
  | .ub => .ub

/-- gbinder_servicename.c:104-113 `gbinder_servicename_add_service` -/
def State.addService (s : State) (n : Nat) (x : Name) : Out State :=
  match s.cancel x.call with
  | .ok s =>
    match s.submit n x.mgr with
    | .ok (s', id) => .ok ((s'.set n { x with call := id }).add (.added n s.ipc.calls))
    | .no => .no
    | .ub => .ub
  | .no => .no
  | .ub => .ub

/-- The managers for which the presence signal has been emitted
(gbinder_servicemanager.c:350, 426). -/
def emitted : List Manager.Ev → List Nat
  | [] => []
  | .presence m _ :: es => m :: emitted es
  | _ :: es => emitted es

/-- The handlers connected to the presence signal of the manager which belong to the names
(gbinder_servicename.c:153). -/
def State.handlers (s : State) (m : Nat) : List Nat :=
  match s.mgr.mgrs m with
  | some y => y.presence.filter fun i => (s.names i).isSome
  | none => []

/-- Who may call that. The timers and the death notifications are handled by the main loop, i.e. not
while the handlers are being called; the application doesn't know the identifiers of handlers that it
hasn't added (gbinder_servicename.c:153); the names (gbinder_servicename.c:153) and the transactions
(gbinder_servicemanager.c:880) have references to the managers. -/
def State.allows (s : State) : Manager.Label → Bool
  | .die | .died _ | .registered .. => s.calls.isEmpty
  | .fire .. => s.idle
  | .addPresence _ id => !s.used.contains id
  | .removeHandlers _ ids => ids.all fun i => !s.used.contains i
  | .free m =>
    (s.used.all fun n => match s.names n with
      | some x => x.mgr != m
      | none => true) &&
    ((List.range s.ipc.calls).all fun p => match s.ipc.txs p, s.owner p with
      | some _, some (_, k) => k != m
      | _, _ => true)
  | _ => true

/-- The application doesn't cancel transactions other than its own (gbinder_servicename.c:110);
completions are separate steps, see below. -/
def State.allowsIpc (s : State) : Async.Label → Bool
  | .done _ | .executed _ => false
  | .submit => s.mgr.free
  | .cancel id => s.mgr.free && s.used.all fun n => match s.names n with
      | some x => x.call != id
      | none => true
  | _ => true

/-- The transaction callback has been called (gbinder_ipc.c:1505-1516). -/
def completed (before after : Async.State) (p : Nat) : Bool :=
  (after.log.drop before.log.length).contains (.done p)

/-- gbinder_servicename.c:82-102 `gbinder_servicename_add_service_done` -/
def State.addServiceDone (s : State) (n : Nat) (x : Name) (status : Int) (tid : Nat) : Out State :=
  let x := { x with call := 0 }
  let s := (s.set n x).add (.result n status)
  if status ≠ 0 then
    match s.removeTimer x.timer with
    | .ok s =>
      .ok (({ s with timers := s.timers ++ [⟨tid, n, retryInterval⟩] } : State).set n { x with timer := some tid })
    | .no => .no
    | .ub => .ub
  else .ok s

/-- gbinder_servicename.c:115-135 `gbinder_servicename_presence_handler` -/
def State.presence (s : State) (n : Nat) (x : Name) : Out State :=
  let s := s.add (.signal n (!s.mgr.dead))
  if !s.mgr.dead then s.addService n x
  else
    match s.cancel x.call with
    | .ok s =>
      match s.removeTimer x.timer with
      | .ok s => .ok (s.set n { x with call := 0, timer := none })
      | .no => .no
      | .ub => .ub
    | .no => .no
    | .ub => .ub

/-- The name is gone (gbinder_servicename.c:193-195), its handler isn't called any more. -/
def State.drop (s : State) (n : Nat) : State :=
  { s with names := upd s.names n none, calls := s.calls.filter (· ≠ n) }

/-- gbinder_servicename.c:70-197, each step has its own lines below. -/
def step (s : State) : Label → Out State
  /- gbinder_servicename.c:141-164 `gbinder_servicename_new` -/
  | .create n m =>
    if ¬s.mgr.free ∨ s.used.contains n ∨ s.names n ≠ none then .no
    else
      match Manager.step s.mgr (.addPresence m n) with
      | .ok mgr =>
        let x : Name := { mgr := m }
        let s : State := { s with mgr, used := n :: s.used }
        let s := (s.set n x).add (.created n)
        if !s.mgr.dead then s.addService n x else .ok s
      | .no => .no
      | .ub => .ub
  /- gbinder_servicename.c:166-177 `gbinder_servicename_ref` -/
  | .ref n =>
    if ¬s.mgr.free then .no
    else
      match s.names n with
      | some x => .ok (s.set n { x with refs := x.refs + 1 })
      | none => .no
  /- gbinder_servicename.c:179-197 `gbinder_servicename_unref` -/
  | .unref n =>
    if ¬s.mgr.free then .no
    else
      match s.names n with
      | some x =>
        if x.refs > 1 then .ok (s.set n { x with refs := x.refs - 1 })
        else
          match s.cancel x.call with
          | .ok s =>
            match s.mgr.mgrs x.mgr with
            | none => .ub
            | some _ =>
              match Manager.step s.mgr (.removeHandlers x.mgr [n]) with
              | .ok mgr =>
                match ({ s with mgr } : State).removeTimer x.timer with
                | .ok s => .ok ((s.drop n).add (.freed n))
                | .no => .no
                | .ub => .ub
              | .no => .no
              | .ub => .ub
          | .no => .no
          | .ub => .ub
      | none => .no
  /- gbinder_servicename.c:115-135 `gbinder_servicename_presence_handler` -/
  | .signal =>
    match s.calls with
    | [] => .no
    | n :: rest =>
      match s.names n with
      | some x => ({ s with calls := rest } : State).presence n x
      | none => .ub
  /- gbinder_servicename.c:70-80 `gbinder_servicename_add_service_retry` -/
  | .retry t =>
    if ¬s.idle ∨ t ∉ s.timers then .no
    else
      match s.names t.name with
      | some x =>
        let s : State := { s with timers := s.timers.filter fun u => u.id != t.id }
        s.addService t.name { x with timer := none }
      | none => .ub
  /- gbinder_ipc.c:1505-1516 `gbinder_ipc_tx_done`, gbinder_servicemanager.c:302-308. The new timer
  isn't there yet. -/
  | .done p tid =>
    if ¬s.idle ∨ s.timers.any (fun t => t.id == tid) then .no
    else
      match Async.step s.ipc (.done p) with
      | .ok ipc =>
        match completed s.ipc ipc p, s.owner p with
        | true, some (n, _) =>
          match s.names n with
          | some x => ({ s with ipc } : State).addServiceDone n x (s.status p) tid
          | none => .ub
        | _, _ => .ok { s with ipc }
      | .no => .no
      | .ub => .ub
  /- gbinder_servicemanager.c:284-293: fn_exec has returned. -/
  | .executed p status =>
    match Async.step s.ipc (.executed p) with
    | .ok ipc => .ok { s with ipc, status := upd s.status p status }
    | .no => .no
    | .ub => .ub
  /- The signal handlers are called in the order in which they have been connected. -/
  | .mgr l =>
    if ¬s.allows l then .no
    else
      match Manager.step s.mgr l with
      | .ok mgr =>
        let es := mgr.log.drop s.mgr.log.length
        let s : State := { s with mgr }
        .ok { s with calls := (emitted es).flatMap s.handlers ++ s.calls }
      | .no => .no
      | .ub => .ub
  | .ipc l =>
    if ¬s.allowsIpc l then .no
    else
      match Async.step s.ipc l with
      | .ok ipc => .ok { s with ipc }
      | .no => .no
      | .ub => .ub

end Gb.ServiceName
