import Verif.Basic.Lts
/-
src/gbinder_servicemanager.c: objects returned by gbinder_servicemanager_get_service_sync. The caller doesn't own the reference,
the service manager drops it later.

Everything happens on the main thread, but dropping the last reference to an object may invoke the handlers of the application,
which may call gbinder_servicemanager_get_service_sync again, run the event loop or drop the last reference to the manager, i.e.
any steps may be made between those of g_slist_free_full.
-/
set_option autoImplicit false

namespace Gb.Autorelease

/-- What's seen (gbinder_servicemanager.c:442-454, 843-866, 1112-1127). -/
inductive Ev
  /-- gbinder_servicemanager_get_service_sync has returned the object -/
  | got (o : Nat)
  /-- gbinder_servicemanager_get_service_sync has returned NULL -/
  | missed
  /-- the event loop has invoked the callback -/
  | idle
  /-- the last reference to the service manager is gone -/
  | finalized
  /-- g_object_unref -/
  | released (o : Nat)
  /-- gbinder_idle_callback_schedule_new -/
  | callback (i : Nat)
  /-- nobody refers to the callback -/
  | freed (i : Nat)
  deriving DecidableEq, Repr

/-- gbinder_servicemanager.c:107-115 `GBinderServiceManagerPriv` (autorelease, autorelease_cb) and the callbacks, which are numbered. -/
structure State where
  alive : Bool := true
  /-- autorelease -/
  list : List Nat := []
  /-- autorelease_cb -/
  cb : Option Nat := none
  ncbs : Nat := 0
  /-- The callbacks for which gbinder_idle_callback_unref hasn't been called. -/
  owned : List Nat := []
  /-- The callbacks which are in the event loop. -/
  scheduled : List Nat := []
  /-- What's left of the lists which are being freed by g_slist_free_full, the innermost call is the first one. -/
  freeing : List (List Nat) := []
  log : List Ev := []

/-- Adds to the log; no code in gbinder_servicemanager.c:442-454 corresponds to it. -/
def State.see (s : State) (e : Ev) : State := { s with log := s.log ++ [e] }

/-- gbinder_eventloop.c:302-313 `gbinder_idle_callback_schedule_new`: the callback has a reference which is returned, and the one of
the event loop. -/
def State.schedule (s : State) : State :=
  { s with cb := some s.ncbs, ncbs := s.ncbs + 1, owned := s.ncbs :: s.owned, scheduled := s.ncbs :: s.scheduled }.see (.callback s.ncbs)

/-- gbinder_eventloop.c:353-363 `gbinder_idle_callback_destroy` -/
def State.destroy (s : State) : Option Nat → Out State
  | none => .ok s
  | some i =>
    if i ∈ s.owned then .ok ({ s with owned := s.owned.erase i, scheduled := s.scheduled.erase i }.see (.freed i)) else .ub

/-- GLib: the source is removed after its callback has been invoked, see `Model/EventLoop`. -/
def State.invoked (s : State) (i : Nat) : State :=
  let s := { s with scheduled := s.scheduled.erase i }
  if i ∈ s.owned then s else s.see (.freed i)

/-- gbinder_servicemanager.c:442-454, 843-866, 1112-1127: what happens next, see `step`. -/
inductive Label
  | get (obj : Option Nat)
  | idle (i : Nat)
  | unref
  | finalize
  deriving DecidableEq, Repr

/-- gbinder_servicemanager.c:442-454, 843-866, 1112-1127, each step has its own lines below. -/
def step (s : State) : Label → Out State
  /- gbinder_servicemanager.c:843-866 `gbinder_servicemanager_get_service_sync`. The caller has a reference to the manager. -/
  | .get obj =>
    if s.alive then
      match obj with
      | none => .ok (s.see .missed)
      | some o =>
        let s := { s with list := o :: s.list }
        let s := if s.cb.isNone then s.schedule else s
        .ok (s.see (.got o))
    else .no
  /- gbinder_servicemanager.c:442-454 `gbinder_servicemanager_autorelease_cb`, called by the event loop. It's a one-shot callback, see
  `Model/EventLoop`. -/
  | .idle i =>
    if i ∈ s.scheduled then
      if s.alive then
        .ok (State.invoked (State.see { s with cb := none, list := [], freeing := s.list :: s.freeing } .idle) i)
      else .ub
    else .no
  /- gbinder_servicemanager.c:453, 1123 g_slist_free_full -/
  | .unref =>
    match s.freeing with
    | [] => .no
    | [] :: rest => .ok { s with freeing := rest }
    | (o :: l) :: rest => .ok ({ s with freeing := l :: rest }.see (.released o))
  /- gbinder_servicemanager.c:1112-1127 `gbinder_servicemanager_finalize`; the manager doesn't
  have any other pointers to the callbacks -/
  | .finalize =>
    if s.alive then
      (s.destroy s.cb).andThen fun s =>
      .ok (State.see { s with alive := false, list := [], freeing := s.list :: s.freeing } .finalized)
    else .no

end Gb.Autorelease
