import Verif.Basic.Bytes
import Verif.Basic.Lts
/-
How src/gbinder_servicemanager_hidl.c keeps track of those names which the service manager has been asked about: the objects which are notified,
and the asynchronous transactions which do the asking.

Everything is done by the main thread, except for the execution of the transactions. A step is a call made by gbinder_servicemanager.c, a
part of the execution of a transaction, its completion (gbinder_ipc.c:1487-1516, see Model/Async), or an incoming notification.

Simplified: there is one service manager. The request which is made by the n-th call of gbinder_servicemanager_hidl_watch, the
GBinderServiceManagerHidlWatch, the GBinderServiceManagerHidlWatchCall, the callback object and the transaction are all
identified by n, i.e. the memory isn't reused.
-/
set_option autoImplicit false

namespace Gb.HidlWatch

/-- The transaction: gbinder_ipc.c:1966-1990, 1706-1722 and 1507-1517. -/
inductive Stage
  /-- there is none, gbinder_client_transact has refused to submit it (gbinder_client.c:436-464) -/
  | refused
  /-- g_thread_pool_push has been called -/
  | queued
  /-- not cancelled so far, and is being executed -/
  | running
  /-- executed (or not), gbinder_idle_callback_schedule has been called -/
  | executed
  /-- completed and freed -/
  | gone
  deriving DecidableEq, Repr

/-- What a call to gbinder_servicemanager_hidl_watch leaves behind: gbinder_servicemanager_hidl.c:45-55. -/
structure Item where
  name : Bytes
  /-- GBinderServiceManagerHidlWatch hasn't been freed -/
  watch : Bool := true
  /-- watch->callback isn't NULL -/
  cb : Bool := true
  /-- watch->tx_id isn't zero -/
  tx : Bool
  /-- GBinderServiceManagerHidlWatchCall hasn't been freed -/
  call : Bool := true
  stage : Stage
  /-- GBinderIpcTx::cancelled -/
  cancelled : Bool := false
  /-- the references to the callback object -/
  refs : Nat := 2
  /-- those of them which don't belong to this file: the object is known to the kernel, or something is being done with it
  (nobody stores that) -/
  other : Nat := 0
  /-- GBinderLocalObjectPriv::txproc of the callback object isn't NULL -/
  handler : Bool := true
  deriving DecidableEq, Repr

/-- What is observable of gbinder_servicemanager_hidl.c:93-441. -/
inductive Ev
  /-- the result of watch() -/
  | watched (name : Bytes) (n : Nat) (ok : Bool)
  | unwatched (name : Bytes)
  /-- the service manager has got the request, and found this name and the object there -/
  | sent (n : Nat) (name : Bytes)
  /-- the service manager has accepted it or not, unless it has been cancelled -/
  | completed (n : Nat) (ok : Bool)
  /-- a registration has been reported by gbinder_servicemanager_service_registered -/
  | told (n : Nat) (full : Bytes)
  /-- the GBinderServiceManager is gone -/
  | closed
  deriving DecidableEq, Repr

/-- gbinder_servicemanager_hidl.c:58-61 GBinderServiceManagerHidl, and everything that it has made. -/
structure State where
  /-- GBinderServiceManagerHidl::watch_table -/
  table : List (Bytes × Nat) := []
  count : Nat := 0
  item : Nat → Option Item := fun _ => none
  /-- finalized, which frees the names too (gbinder_servicemanager.c:1124 in gbinder_servicemanager_finalize) -/
  closed : Bool := false
  log : List Ev := []

/-- gbinder_servicemanager.c:318-427, 739-782, 919-1029: what happens next, see `step`. -/
inductive Label
  | watch (name : Bytes) (ok : Bool)
  | unwatch (name : Bytes)
  | exec (n : Nat)
  | send (n : Nat)
  | complete (n : Nat) (ok : Bool)
  | hold (n : Nat)
  | release (n : Nat)
  | notify (n : Nat) (full : Bytes)
  | close
  deriving DecidableEq, Repr

/-- Adds to the log; no code in gbinder_servicemanager_hidl.c:93-441 corresponds to it. -/
def State.see (s : State) (e : Ev) : State := { s with log := s.log ++ [e] }

/-- Stores to the fields (gbinder_servicemanager_hidl.c:45-55). -/
def State.set (s : State) (n : Nat) (x : Item) : State := { s with item := upd s.item n (some x) }

/-- gbinder_local_object.c:462-469 `gbinder_local_object_unref`, the object must be there -/
def unref (x : Item) : Out Item :=
  match x.refs with
  | 0 => .ub
  | r + 1 => .ok { x with refs := r }

/-- gbinder_local_object.c:471-479 `gbinder_local_object_drop` of watch->callback, with gbinder_local_object.c:269-279
`gbinder_local_object_default_drop` -/
def drop (x : Item) : Out Item :=
  if x.cb then
    match x.refs with
    | 0 => .ub
    | r + 1 => .ok { x with handler := false, refs := r }
  else .ok x

/-- gbinder_servicemanager_hidl.c:256-268 `gbinder_servicemanager_hidl_watch_free`. gbinder_ipc.c:2014-2031
`gbinder_ipc_cancel` ignores those which aren't there. -/
def free (x : Item) : Out Item :=
  if x.watch then
    match drop x with
    | .ok y => .ok { y with watch := false, cancelled := y.cancelled || (y.tx && y.stage != .gone && y.stage != .refused) }
    | .no => .no
    | .ub => .ub
  else .ub

/-- gbinder_servicemanager_hidl.c:270-311 `gbinder_servicemanager_hidl_watch_call_reply`, see `Notify.accepted` for `ok` -/
def reply (ok : Bool) (x : Item) : Out Item :=
  if x.call ∧ x.watch then
    if ok then .ok { x with tx := false }
    else
      match drop { x with tx := false } with
      | .ok y => .ok { y with cb := false }
      | .no => .no
      | .ub => .ub
  else .ub

/-- gbinder_servicemanager_hidl.c:313-323 `gbinder_servicemanager_hidl_watch_call_destroy` -/
def destroy (x : Item) : Out Item :=
  if x.call then
    match unref x with
    | .ok y => .ok { y with call := false }
    | .no => .no
    | .ub => .ub
  else .ub

/-- gbinder_ipc.c:1505-1516 `gbinder_ipc_tx_done`, then gbinder_ipc.c:1487-1503 `gbinder_ipc_tx_free`. -/
def complete (ok : Bool) (x : Item) : Out Item :=
  match if x.cancelled then .ok x else reply ok x with
  | .ok y => destroy { y with stage := .gone }
  | .no => .no
  | .ub => .ub

/-- Does something with an item (gbinder_servicemanager_hidl.c:45-55). -/
def State.on (s : State) (n : Nat) (f : Item → Out Item) : Out State :=
  match s.item n with
  | none => .ub
  | some x =>
    match f x with
    | .ok y => .ok (s.set n y)
    | .no => .no
    | .ub => .ub

/-- g_hash_table_remove, which calls gbinder_servicemanager_hidl_watch_free (gbinder_servicemanager_hidl.c:420, 424-431). -/
def State.remove (s : State) (name : Bytes) : Out State :=
  match s.table.find? fun e => e.1 == name with
  | none => .ok s
  | some e =>
    match s.on e.2 free with
    | .ok s => .ok { s with table := s.table.filter fun e => e.1 != name }
    | .no => .no
    | .ub => .ub

/-- g_hash_table_destroy (gbinder_servicemanager_hidl.c:440): `l` is what is left of the table. Simplified: GLib takes them out of the table
first, gbinder_servicemanager_hidl_watch_free doesn't depend on that. -/
def freeAll : List (Bytes × Nat) → State → Out State
  | [], s => .ok s
  | e :: l, s =>
    match s.remove e.1 with
    | .ok s => freeAll l s
    | .no => .no
    | .ub => .ub

/-- gbinder_servicemanager_hidl.c:364-374, 390-395: what's new after that -/
def State.insert (s : State) (name : Bytes) (ok : Bool) : State :=
  { s with
    table := s.table ++ [(name, s.count)]
    count := s.count + 1
    item := upd s.item s.count (some { name := name, tx := ok, stage := if ok then .queued else .refused }) }

/-- gbinder_servicemanager_hidl.c:356-412 `gbinder_servicemanager_hidl_watch`. If gbinder_client_transact returns zero, it
hasn't done anything (gbinder_client.c:426-467). -/
def State.watch (s : State) (name : Bytes) (ok : Bool) : Out State :=
  match s.remove name with
  | .ok t =>
    if ok then .ok (t.insert name ok) else (t.insert name ok).remove name
  | .no => .no
  | .ub => .ub

/-- One step. -/
def step (s : State) : Label → Out State
  /- gbinder_servicemanager.c:337-349, 965-973, 415-425: the name is that of the GBinderServiceManagerWatch, which isn't
  freed before the GBinderServiceManager is -/
  | .watch name ok =>
    if s.closed then .no
    else
      match s.watch name ok with
      | .ok t => .ok (t.see (.watched name s.count ok))
      | .no => .no
      | .ub => .ub
  /- gbinder_servicemanager_hidl.c:414-422 `gbinder_servicemanager_hidl_unwatch` -/
  | .unwatch name =>
    if s.closed then .no
    else
      match s.remove name with
      | .ok t => .ok (t.see (.unwatched name))
      | .no => .no
      | .ub => .ub
  /- gbinder_ipc.c:1706-1722 `gbinder_ipc_tx_proc`: the beginning -/
  | .exec n =>
    match s.item n with
    | none => .no
    | some x =>
      if x.stage = .queued then .ok (s.set n { x with stage := if x.cancelled then .executed else .running })
      else .no
  /- gbinder_driver.c:1225-1313: the kernel gets the request. It contains pointers to the name
  (gbinder_writer.c:1042-1055) and to the callback object. -/
  | .send n =>
    match s.item n with
    | none => .no
    | some x =>
      if x.stage = .running then
        if s.closed ∨ x.refs = 0 then .ub
        else .ok ((s.set n { x with stage := .executed }).see (.sent n x.name))
      else .no
  | .complete n ok =>
    match s.item n with
    | none => .no
    | some x =>
      if x.stage = .executed then
        match complete ok x with
        | .ok y => .ok ((s.set n y).see (.completed n (ok && !x.cancelled)))
        | .no => .no
        | .ub => .ub
      else .no
  /- gbinder_local_object.c:450-460, somebody who has got the pointer and knows that it's valid -/
  | .hold n =>
    match s.item n with
    | none => .no
    | some x => if x.refs = 0 then .no else .ok (s.set n { x with refs := x.refs + 1, other := x.other + 1 })
  | .release n =>
    match s.item n with
    | none => .no
    | some x =>
      match x.other with
      | 0 => .no
      | k + 1 =>
        match unref { x with other := k } with
        | .ok y => .ok (s.set n y)
        | .no => .no
        | .ub => .ub
  /- gbinder_local_object.c:123-140 `gbinder_local_object_default_handle_transaction` and gbinder_servicemanager_hidl.c:106-109, see
  `Notify.notification` for what is required. The object must be there. -/
  | .notify n full =>
    match s.item n with
    | none => .no
    | some x =>
      if x.refs = 0 then .no
      else if x.handler then
        if s.closed then .ub else .ok (s.see (.told n full))
      else .ok s
  /- gbinder_servicemanager_hidl.c:433-442 `gbinder_servicemanager_hidl_finalize`, then gbinder_servicemanager.c:1112-1127 -/
  | .close =>
    if s.closed then .no
    else
      match freeAll s.table s with
      | .ok t => .ok (({ t with closed := true } : State).see .closed)
      | .no => .no
      | .ub => .ub

end Gb.HidlWatch
