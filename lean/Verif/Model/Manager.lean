import Verif.Basic.Lts
import Verif.Model.Names
/-
src/gbinder_servicemanager.c: presence of the service manager and registration handlers.

All this happens on the main thread. A step is a call made by the application or by the event loop.
The callbacks (signal handlers) are the last thing these functions do, so whatever the application
does there are the next steps. There may be several GBinderServiceManager objects (of different types)
for the same binder device, which share the same remote object.

Simplified: the main loop isn't run (recursively) by the callbacks; the ping is one step (in particular
it doesn't cause the service manager to call us back); the iteration order of the hash table is that of
the list, and may change at any point (`rehash`); the detail of the signal is the name itself rather than
a GQuark of its MD5 checksum, i.e. there are no collisions; GASSERT does nothing.
-/
set_option autoImplicit false

namespace Gb.Manager

open Names

/-- gbinder_servicemanager.c:100-105 GBinderServiceManagerWatch -/
structure Watch where
  name : Bytes
  watched : Bool
  deriving DecidableEq, Repr

/-- A handler connected to the registration signal. `raw` is the name as given by the application, it
isn't stored anywhere (gbinder_servicemanager.c:929-979). -/
structure Handler where
  id : Nat
  raw : Bytes
  detail : Bytes
  deriving DecidableEq, Repr

/-- gbinder_servicemanager.c:107-115 -/
structure Mgr where
  kind : Kind
  watches : List Watch := []
  handlers : List Handler := []
  /-- handlers connected to the presence signal -/
  presence : List Nat := []
  /-- presence_check -/
  check : Option Nat := none
  /-- presence_check_delay_ms -/
  delay : Nat := 0
  deriving DecidableEq, Repr

/-- A timer which has been added to the event loop (gbinder_eventloop.c:60-110). -/
structure Timer where
  id : Nat
  mgr : Nat
  interval : Nat
  deriving DecidableEq, Repr

/-- What is observable of gbinder_servicemanager.c:318-427, 518-613, 739-782, 919-1029. -/
inductive Ev
  /-- a new GBinderServiceManager, and whether the service manager is there -/
  | created (m : Nat) (present : Bool)
  /-- a ping has been sent, and whether it was successful -/
  | ping (m : Nat) (ok : Bool)
  /-- a timer has been started, or (if it's periodic) restarted -/
  | armed (m : Nat) (interval : Nat)
  /-- the presence signal, and what gbinder_servicemanager_is_present returns at that point -/
  | presence (m : Nat) (present : Bool)
  /-- watch() and unwatch() callbacks -/
  | watch (m : Nat) (name : Bytes) (ok : Bool)
  | unwatch (m : Nat) (name : Bytes)
  /-- the registration handlers which are called -/
  | registered (m : Nat) (name : Bytes) (ids : List Nat)
  deriving DecidableEq, Repr

/-- The remote object (gbinder_remote_object.c:40-42), the service managers (gbinder_servicemanager.c:107-115) and the event loop (gbinder_eventloop.c:60-110). -/
structure State where
  /-- GBinderRemoteObject::dead -/
  dead : Bool := true
  mgrs : Nat → Option Mgr := fun _ => none
  /-- connected to the death signal of the remote object, in this order -/
  order : List Nat := []
  /-- yet to be notified about the death of the remote object -/
  pending : List Nat := []
  /-- one of the managers has been notified, and the application may have been called -/
  told : Bool := false
  timers : List Timer := []
  log : List Ev := []

/-- gbinder_servicemanager.c:318-427, 518-613, 739-782, 919-1029, 1070-1127: what happens next, see `step`. -/
inductive Label
  | create (m : Nat) (kind : Kind) (ok : Bool) (tid : Nat)
  | die
  | died (tid : Nat)
  | fire (t : Timer) (ok : Bool) (tid : Nat) (watch : Bytes → Bool)
  | wait (m : Nat) (ok : Bool) (watch : Bytes → Bool)
  | addHandler (m : Nat) (raw : Bytes) (id : Nat) (ok : Bool)
  | addPresence (m : Nat) (id : Nat)
  | removeHandlers (m : Nat) (ids : List Nat)
  | registered (m : Nat) (name : Bytes)
  | rehash (m : Nat) (ws : List Watch)
  | free (m : Nat)

/-- Adds to the log; no code in gbinder_servicemanager.c:318-427 corresponds to it. -/
def State.add (s : State) (e : List Ev) : State := { s with log := s.log ++ e }

/-- Stores to the fields of GBinderServiceManagerPriv (gbinder_servicemanager.c:107-115). -/
def State.set (s : State) (m : Nat) (x : Mgr) : State := { s with mgrs := upd s.mgrs m (some x) }

/-- gbinder_servicemanager.c:96-98 -/
def waitMin : Nat := 100
/-- gbinder_servicemanager.c:97 PRESENSE_WAIT_MS_MAX. -/
def waitMax : Nat := 1000
/-- gbinder_servicemanager.c:98 PRESENSE_WAIT_MS_STEP. -/
def waitStep : Nat := 100

/-- A timer which isn't there yet (gbinder_eventloop.c:284-291 relies on that). -/
def State.fresh (s : State) (tid : Nat) : Bool := s.timers.all fun t => t.id != tid

/-- gbinder_servicemanager.c:383-394 `gbinder_servicemanager_presence_check_start` -/
def State.checkStart (s : State) (m : Nat) (x : Mgr) (tid : Nat) : State :=
  (({ s with timers := s.timers ++ [⟨tid, m, waitMin⟩] } : State).set m
    { x with check := some tid, delay := waitMin }).add [.armed m waitMin]

/-- The timer is gone (gbinder_eventloop.c:92-98): it has been removed, or the function has returned
G_SOURCE_REMOVE. -/
def State.dropTimer (s : State) (c : Nat) : State := { s with timers := s.timers.filter fun t => t.id != c }

/-- gbinder_eventloop.c:284-291 `gbinder_timeout_remove`, which does nothing if the pointer is NULL; the
structure is gone if the timer is. -/
def State.removeTimer (s : State) : Option Nat → Out State
  | none => .ok s
  | some c =>
    if s.timers.any fun t => t.id == c then .ok (s.dropTimer c) else .ub

/-- gbinder_servicemanager.c:329-349 -/
def rearm (watch : Bytes → Bool) (ws : List Watch) : List Watch :=
  ws.map fun w => { w with watched := watch w.name }

/-- gbinder_servicemanager.c:318-351 `gbinder_servicemanager_reanimated` -/
def State.reanimated (s : State) (m : Nat) (x : Mgr) (watch : Bytes → Bool) : Out State :=
  match s.removeTimer x.check with
  | .ok s =>
    .ok ((s.set m { x with check := none, watches := rearm watch x.watches }).add
      (x.watches.map (fun w => Ev.watch m w.name (watch w.name)) ++ [.presence m (!s.dead)]))
  | .no => .no
  | .ub => .ub

/-- gbinder_remote_object.c:96-124 `gbinder_remote_object_reanimate` -/
def State.reanimate (s : State) (m : Nat) (ok : Bool) : State :=
  if s.dead then ({ s with dead := !ok } : State).add [.ping m ok] else s

/-- gbinder_servicemanager.c:408-425: unwatch everything. -/
def unwatchAll (ws : List Watch) : List Watch := ws.map fun w => { w with watched := false }

/-- gbinder_servicemanager.c:1011-1026: the loop in gbinder_servicemanager_remove_handlers. Names which
have been unwatched, and the watches. -/
def unwatchUnused (handlers : List Handler) : Nat → List Watch → List Bytes × List Watch
  | 0, ws => ([], ws)
  | _, [] => ([], [])
  | n + 1, w :: ws =>
    if w.watched ∧ ¬handlers.any (fun h => h.detail == w.name) then
      let r := unwatchUnused handlers n ws
      (w.name :: r.1, { w with watched := false } :: r.2)
    else
      let r := unwatchUnused handlers (n + 1) ws
      (r.1, w :: r.2)

/-- gbinder_servicemanager.c:958-962: the watch is created unless there is one. -/
def ensure (ws : List Watch) (name : Bytes) : List Watch :=
  if ws.any (fun w => w.name == name) then ws else ws ++ [⟨name, false⟩]

/-- The application may be doing something
(gbinder_servicemanager.c:396-427 is running for several objects in turn). -/
def State.free (s : State) : Bool := s.pending.isEmpty || s.told

/-- gbinder_servicemanager.c:318-427, 518-613, 739-782, 919-1029, 1070-1127, each step has its own lines below. -/
def step (s : State) : Label → Out State
  /- gbinder_servicemanager.c:518-583 `gbinder_servicemanager_new_with_type`, if there's no such object
  yet. The remote object is initially dead. -/
  | .create m kind ok tid =>
    if s.mgrs m ≠ none ∨ ¬s.free ∨ ¬s.fresh tid then .no
    else
      let x : Mgr := { kind := kind }
      let s := ({ s with order := s.order ++ [m] } : State).set m x
      let s := s.reanimate m ok
      let s := s.add [.created m (!s.dead)]
      .ok (if s.dead then s.checkStart m x tid else s)
  /- gbinder_remote_object.c:65-90: the death signal is emitted. -/
  | .die =>
    if s.dead ∨ s.pending ≠ [] then .no
    else .ok { s with dead := true, pending := s.order, told := false }
  /- gbinder_servicemanager.c:396-427 `gbinder_servicemanager_died` -/
  | .died tid =>
    if ¬s.fresh tid then .no
    else
      match s.pending with
      | [] => .no
      | m :: rest =>
        match s.mgrs m with
        | none => .ub
        | some x =>
          let s := { s with pending := rest, told := true }
          let s := s.checkStart m { x with watches := unwatchAll x.watches } tid
          .ok (s.add (((x.watches.filter (·.watched)).map fun w => Ev.unwatch m w.name) ++
            [.presence m (!s.dead)]))
  /- gbinder_servicemanager.c:353-381 `gbinder_servicemanager_presense_check_timer` -/
  | .fire t ok tid watch =>
    if t ∉ s.timers ∨ ¬s.free ∨ ¬s.fresh tid then .no
    else
      match s.mgrs t.mgr with
      | none => .ub
      | some x =>
        let s := s.reanimate t.mgr ok
        if !s.dead then
          (s.dropTimer t.id).reanimated t.mgr { x with check := none } watch
        else if x.delay < waitMax then
          let s := s.dropTimer t.id
          let s : State := { s with timers := s.timers ++ [⟨tid, t.mgr, x.delay + waitStep⟩] }
          .ok ((s.set t.mgr { x with check := some tid, delay := x.delay + waitStep }).add
            [.armed t.mgr (x.delay + waitStep)])
        else .ok (s.add [.armed t.mgr t.interval])
  /- gbinder_servicemanager.c:739-782 `gbinder_servicemanager_wait`, also see Model/Wait.lean; the pings
  are `ok` if the last one is. -/
  | .wait m ok watch =>
    if ¬s.free then .no
    else
      match s.mgrs m with
      | none => .no
      | some x =>
        if !s.dead then .ok s
        else
          let s := s.reanimate m ok
          if !s.dead then s.reanimated m x watch else .ok s
  /- gbinder_servicemanager.c:929-979 `gbinder_servicemanager_add_registration_handler` -/
  | .addHandler m raw id ok =>
    if ¬s.free then .no
    else
      match s.mgrs m with
      | none => .no
      | some x =>
        if id = 0 ∨ x.handlers.any (fun h => h.id == id) ∨ id ∈ x.presence then .no
        else
          match norm x.kind raw with
          | none => .ok s
          | some name =>
            let h : Handler := ⟨id, raw, name⟩
            let ws := ensure x.watches name
            if (ws.any fun w => w.name == name && w.watched) || s.dead then
              .ok (s.set m { x with watches := ws, handlers := x.handlers ++ [h] })
            else
              .ok ((s.set m { x with
                watches := ws.map fun w => if w.name = name then { w with watched := ok } else w
                handlers := x.handlers ++ [h] }).add [.watch m name ok])
  /- gbinder_servicemanager.c:919-927 -/
  | .addPresence m id =>
    if ¬s.free then .no
    else
      match s.mgrs m with
      | none => .no
      | some x =>
        if id = 0 ∨ x.handlers.any (fun h => h.id == id) ∨ id ∈ x.presence then .no
        else .ok (s.set m { x with presence := x.presence ++ [id] })
  /- gbinder_servicemanager.c:989-1029 `gbinder_servicemanager_remove_handlers` -/
  | .removeHandlers m ids =>
    if ¬s.free then .no
    else
      match s.mgrs m with
      | none => .no
      | some x =>
        let ids := ids.filter (· ≠ 0)
        let handlers := x.handlers.filter fun h => !ids.contains h.id
        let r := unwatchUnused handlers ids.length x.watches
        .ok ((s.set m { x with
            handlers := handlers
            watches := r.2
            presence := x.presence.filter fun i => !ids.contains i }).add
          (r.1.map fun n => Ev.unwatch m n))
  /- gbinder_servicemanager.c:585-613 `gbinder_servicemanager_service_registered` -/
  | .registered m name =>
    if ¬s.free then .no
    else
      match s.mgrs m with
      | none => .no
      | some x =>
        match (norm x.kind name).bind fun n => x.watches.find? fun w => w.name == n with
        | some w => .ok (s.add [.registered m name ((x.handlers.filter fun h => h.detail == w.name).map (·.id))])
        | none => .ok (s.add [.registered m name []])
  | .rehash m ws =>
    match s.mgrs m with
    | none => .no
    | some x => if ws.isPerm x.watches then .ok (s.set m { x with watches := ws }) else .no
  /- gbinder_servicemanager.c:1112-1127 `gbinder_servicemanager_finalize` -/
  | .free m =>
    if ¬s.free then .no
    else
      match s.mgrs m with
      | none => .no
      | some x =>
        match s.removeTimer x.check with
        | .ok s => .ok { s with mgrs := upd s.mgrs m none, order := s.order.filter (· ≠ m),
                                pending := s.pending.filter (· ≠ m) }
        | .no => .no
        | .ub => .ub

end Gb.Manager
