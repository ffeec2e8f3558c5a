import Verif.Basic.Lts
import Verif.Basic.Bytes
/-
src/gbinder_servicepoll.c, and those who use it, i.e. the watches of src/gbinder_servicemanager_aidl.c.

Simplified: the service manager stays there, and so does the GBinderServiceManager (those are in
Model/Manager.lean); what gbinder_servicemanager.c does is reduced to watching a name when its first handler is
added, and unwatching it when the last one is removed. The names are valid. When the signal is emitted, all
handlers are called before any of those does anything; what they do are the next steps. The lists
may arrive any time, and the timer isn't a part of the model. gutil_strv_sort sorts the strings with strcmp.
-/
set_option autoImplicit false

namespace Gb.Poll

/-- strcmp(a, b) <= 0 -/
def le : Bytes → Bytes → Bool
  | [], _ => true
  | _ :: _, [] => false
  | a :: as, b :: bs => a < b || (a == b && le as bs)

/-- One step of sorting (gbinder_servicepoll.c:88). -/
def insertName (a : Bytes) : List Bytes → List Bytes
  | [] => [a]
  | b :: l => if le a b then a :: b :: l else b :: insertName a l

/-- gutil_strv_sort(services, TRUE); the result doesn't depend on how it's done
(gbinder_servicepoll.c:88). -/
def sort (l : List Bytes) : List Bytes := l.foldr insertName []

/-- gbinder_servicepoll.c:93, 102-104: gutil_strv_find, and what's after the name if it's there. -/
def after : List Bytes → Bytes → Option (List Bytes)
  | [], _ => none
  | o :: os, n => if o = n then some os else after os n

/-- gbinder_servicepoll.c:93-112: the names for which the signal is emitted. -/
def announce : List Bytes → List Bytes → List Bytes
  | _, [] => []
  | [], n :: ns => n :: ns
  | o :: os, n :: ns =>
    match after (o :: os) n with
    | none => n :: announce (o :: os) ns
    | some os' => announce os' ns

/-- gbinder_servicepoll.c:44-50 -/
structure Poll where
  list : Option (List Bytes) := none
  /-- `gbinder_servicepoll_list` is running: the new list -/
  next : Option (Option (List Bytes)) := none
  /-- and the names for which the signal is yet to be emitted -/
  todo : List Bytes := []
  deriving DecidableEq, Repr

/-- gbinder_servicemanager_aidl.c:42-47 GBinderServiceManagerAidlWatch -/
structure Watch where
  name : Bytes
  notify : Bool
  deriving DecidableEq, Repr

/-- A handler connected to the registration signal (gbinder_servicemanager.c:929-979). -/
structure Handler where
  id : Nat
  name : Bytes
  deriving DecidableEq, Repr

/-- What is observable of gbinder_servicepoll.c:75-251 and gbinder_servicemanager_aidl.c:65-131. -/
inductive Ev
  /-- GBinderServicePoll has been created, and is gone -/
  | started
  | gone
  /-- gbinder_servicepoll_list is called, the signal is emitted, and the function returns -/
  | listed (l : List Bytes)
  | announced (n : Bytes)
  | finished
  /-- registration handlers are added, removed and called -/
  | added (id : Nat) (name : Bytes)
  | removed (id : Nat)
  | called (id : Nat) (name : Bytes)
  deriving DecidableEq, Repr

/-- gbinder_servicepoll.c:44-50, and the table of watches (gbinder_servicemanager_aidl.c:49-52). -/
structure State where
  poll : Option Poll := none
  watches : List Watch := []
  handlers : List Handler := []
  log : List Ev := []
  deriving DecidableEq, Repr

/-- gbinder_servicepoll.c:75-120, gbinder_servicemanager_aidl.c:65-131, 243-269: what happens next, see `step`. -/
inductive Label
  | add (id : Nat) (name : Bytes)
  | remove (id : Nat)
  | result (l : Option (List Bytes))
  | emit
  | finish
  | idle (name : Bytes)
  deriving DecidableEq, Repr

/-- gbinder_servicepoll.c:199-205 `gbinder_servicepoll_is_known_name` -/
def Poll.isKnown (p : Poll) (n : Bytes) : Bool := (p.list.getD []).contains n

/-- Registration handlers for the name are called (gbinder_servicemanager.c:585-613). -/
def call (hs : List Handler) (n : Bytes) : List Ev := (hs.filter fun h => h.name == n).map fun h => .called h.id h.name

/-- gbinder_servicepoll.c:240-252: the last reference is dropped by the last watch, unless
gbinder_servicepoll_list is running. -/
def State.release (s : State) : State :=
  match s.poll with
  | some p => if s.watches = [] ∧ p.next = none then { s with poll := none, log := s.log ++ [.gone] } else s
  | none => s

/-- gbinder_servicepoll.c:153-169 and gbinder_servicemanager_aidl.c:116-131 -/
def State.acquire (s : State) : State :=
  match s.poll with
  | some _ => s
  | none => { s with poll := some {}, log := s.log ++ [.started] }

/-- gbinder_servicepoll.c:75-120, gbinder_servicemanager_aidl.c:65-131, 243-269, each step has its own lines below. -/
def step (s : State) : Label → Out State
  /- gbinder_servicemanager.c:929-979 and gbinder_servicemanager_aidl.c:243-260 -/
  | .add id name =>
    if s.handlers.any fun h => h.id == id then .no
    else
      let s : State := { s with handlers := s.handlers ++ [⟨id, name⟩], log := s.log ++ [.added id name] }
      if s.watches.any fun w => w.name == name then .ok s
      else
        let s : State := s.acquire
        .ok { s with watches := s.watches ++ [⟨name, match s.poll with | some p => p.isKnown name | none => false⟩] }
  /- gbinder_servicemanager.c:989-1029, gbinder_servicemanager_aidl.c:262-272 -/
  | .remove id =>
    match s.handlers.find? fun h => h.id == id with
    | none => .no
    | some h =>
      let s : State := { s with handlers := s.handlers.filter (fun h => h.id != id), log := s.log ++ [.removed id] }
      if s.handlers.any fun h' => h'.name == h.name then .ok s
      else .ok ({ s with watches := s.watches.filter fun w => w.name != h.name } : State).release
  /- gbinder_servicepoll.c:75-112 `gbinder_servicepoll_list` -/
  | .result l =>
    match s.poll with
    | none => .no
    | some p =>
      if p.next ≠ none then .no
      else
        let l := l.map sort
        .ok { s with
          poll := some { p with next := some l, todo := announce (p.list.getD []) (l.getD []) }
          log := s.log ++ [.listed (l.getD [])] }
  /- gbinder_servicemanager_aidl.c:65-84 `gbinder_servicemanager_aidl_watch_proc` -/
  | .emit =>
    match s.poll with
    | none => .no
    | some p =>
      match p.todo with
      | [] => .no
      | n :: rest =>
        let s : State := { s with poll := some { p with todo := rest }, log := s.log ++ [.announced n] }
        if s.watches.any fun w => w.name == n then
          .ok { s with
            watches := s.watches.map fun w => if w.name = n then { w with notify := false } else w
            log := s.log ++ call s.handlers n }
        else .ok s
  /- gbinder_servicepoll.c:116-119 -/
  | .finish =>
    match s.poll with
    | none => .no
    | some p =>
      match p.next, p.todo with
      | some l, [] =>
        .ok ({ s with poll := some { list := l, next := none, todo := [] }, log := s.log ++ [.finished] } : State).release
      | _, _ => .no
  /- gbinder_servicemanager_aidl.c:86-100 `gbinder_servicemanager_aidl_watch_notify` -/
  | .idle n =>
    if s.watches.any fun w => w.name == n && w.notify then
      .ok { s with
        watches := s.watches.map fun w => if w.name = n then { w with notify := false } else w
        log := s.log ++ call s.handlers n }
    else .no

end Gb.Poll
