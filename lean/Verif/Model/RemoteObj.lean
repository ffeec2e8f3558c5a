import Verif.Basic.Lts
/-
Life of remote objects: src/gbinder_remote_object.c and the table of remote objects in
src/gbinder_ipc.c.

Like in Model/LocalObj.lean, a step is what a thread does between two synchronization points.
Objects are identified by their address, which may be reused once the object has been freed.
The references are held by threads and the application (`user`), by a thread which is handling
BR_DEAD_BINDER (`found`), by the callbacks scheduled on the main thread (`tasks`), by the main
thread declaring an object dead (`killing`) and by the threads which are in the middle of releasing
what seems to be the last one (`dying`).

The part played by the kernel: `reg` tells which object has registered for the death of a handle
(the second registration fails), `incoming` are BR_DEAD_BINDER notifications which have been sent
but not looked at yet. When a handle starts referring to something else, and what the application
does, is up to the environment.
-/
set_option autoImplicit false

namespace Gb.RemoteObj

/-- gbinder_remote_object_p.h:42-49, struct gbinder_remote_object_priv and GObject. -/
structure Obj where
  refs : Nat
  handle : Nat
  dead : Bool
  acquired : Bool
  deriving DecidableEq, Repr

/-- GBINDER_SERVICEMANAGER_HANDLE (gbinder_types_p.h:78). -/
def smHandle : Nat := 0

/-- gbinder_remote_object_handle_death_on_main_thread scheduled with
gbinder_idle_callback_invoke_later(): `ran` if the function has been called and the destroy
notification (g_object_unref) hasn't (gbinder_remote_object.c:65-90, 126-136). -/
structure Task where
  obj : Nat
  ran : Bool := false
  deriving DecidableEq, Repr

/-- The main thread is in the middle of gbinder_remote_object_handle_death_on_main_thread
(`notified`) or gbinder_remote_object_commit_suicide. There is only one main thread, so it doesn't
do anything else until it's done with that (gbinder_remote_object.c:65-90, 138-161). -/
structure Killing where
  obj : Nat
  notified : Bool
  deriving DecidableEq, Repr

/-- See LocalObj.Stage (g_object_unref called at gbinder_remote_object.c:201-220). -/
inductive Stage | disposing | disposed | finalizing | removed
  deriving DecidableEq, Repr

/-- A thread inside g_object_unref(), and the object; called at gbinder_remote_object.c:201-220. -/
structure Dying where
  obj : Nat
  stage : Stage
  deriving DecidableEq, Repr

/-- Commands written to the driver on behalf of an object: BC_ACQUIRE, BC_RELEASE,
BC_REQUEST_DEATH_NOTIFICATION, BC_CLEAR_DEATH_NOTIFICATION, BC_DEAD_BINDER_DONE
(gbinder_driver.c:1043-1128). -/
inductive Cmd | acquire | release | request | clear | deadDone
  deriving DecidableEq, Repr

/-- What is observable of gbinder_remote_object.c:65-305 and gbinder_driver.c:1043-1128. -/
inductive Ev
  /-- the object has been created, presumed dead or alive -/
  | new (id : Nat) (dead : Bool)
  | drv (id : Nat) (c : Cmd) (handle : Nat)
  /-- BC_DEAD_BINDER_DONE sent because there's no object -/
  | unknown (handle : Nat)
  /-- BR_DEAD_BINDER has been handled, and the object is known -/
  | handled (id : Nat)
  /-- the callback has found that the object is dead already -/
  | skipped (id : Nat)
  /-- the death signal has been emitted -/
  | signal (id : Nat)
  /-- the service manager is back -/
  | reanimated (id : Nat)
  | freed (id : Nat)
  deriving DecidableEq, Repr

/-- The objects (gbinder_remote_object.c:40-42), the table (gbinder_ipc.c:62-80), references held by various parties (gbinder_driver.c:621-729, gbinder_eventloop.c:366-380), and the registrations known to the kernel. -/
structure State where
  objs : Nat → Option Obj := fun _ => none
  /-- GBinderIpcPriv::remote_objects -/
  table : Nat → Option Nat := fun _ => none
  user : Nat → Nat := fun _ => 0
  found : List Nat := []
  tasks : List Task := []
  killing : List Killing := []
  dying : List Dying := []
  reg : Nat → Option Nat := fun _ => none
  incoming : List (Nat × Nat) := []
  log : List Ev := []

/-- gbinder_object_registry.h:38-42 and the `maybe_dead` argument. -/
inductive Create | no | dead | alive | acquired
  deriving DecidableEq, Repr

/-- gbinder_remote_object.c:65-305, gbinder_ipc.c:1123-1191, 1213-1266, 1318-1360, gbinder_driver.c:621-729: what happens next, see `step`. -/
inductive Label
  | lookup (h : Nat) (c : Create) (id : Nat)
  | ref (p : Nat)
  | unref (p : Nat)
  | deadBinder (h : Nat)
  | deliver (h a : Nat)
  | notify (p : Nat)
  | run (p : Nat)
  | bury (p : Nat)
  | done (p : Nat)
  | suicide (p : Nat)
  | vanish (p : Nat)
  | reanimate (p : Nat) (ok : Bool)
  | dispose (p : Nat)
  | settle (p : Nat)
  | invalidate (p : Nat)
  | free (p : Nat)
  deriving DecidableEq, Repr

/-- g_object_ref (called at gbinder_remote_object.c:201-220). -/
def State.addRef (s : State) (p : Nat) : Out State :=
  match s.objs p with
  | none => .ub
  | some o => if o.refs = 0 then .ub else .ok { s with objs := upd s.objs p (some { o with refs := o.refs + 1 }) }

/-- g_object_unref, the beginning (called at gbinder_remote_object.c:201-220). -/
def State.unref (s : State) (p : Nat) : Out State :=
  match s.objs p with
  | none => .ub
  | some o =>
    if o.refs = 0 then .ub
    else if o.refs = 1 then .ok { s with dying := ⟨p, .disposing⟩ :: s.dying }
    else .ok { s with objs := upd s.objs p (some { o with refs := o.refs - 1 }) }

/-- Adds to the log; no code in gbinder_remote_object.c:65-305 corresponds to it. -/
def State.add (s : State) (e : List Ev) : State := { s with log := s.log ++ e }

/-- The kernel ignores a registration if there is one already
(the kernel, gbinder_driver.c:1066-1092). -/
def request (reg : Nat → Option Nat) (h id : Nat) : Nat → Option Nat :=
  if reg h = none then upd reg h (some id) else reg

/-- gbinder_driver_release if acquired (gbinder_remote_object.c:286-305). -/
def relEv (p : Nat) (o : Obj) : List Ev := if o.acquired then [.drv p .release o.handle] else []

/-- gbinder_remote_object_new (gbinder_remote_object.c:167-199). -/
def create (s : State) (h : Nat) (c : Create) (id : Nat) : State :=
  match c with
  | .no => s
  | .dead => { s with objs := upd s.objs id (some ⟨1, h, true, false⟩) }.add [.new id true]
  | .alive =>
    { s with objs := upd s.objs id (some ⟨1, h, false, false⟩), reg := request s.reg h id }.add
      [.new id false, .drv id .request h]
  | .acquired =>
    { s with objs := upd s.objs id (some ⟨1, h, false, true⟩), reg := request s.reg h id }.add
      [.new id false, .drv id .acquire h, .drv id .request h]

/-- gbinder_remote_object.c:65-305, gbinder_ipc.c:1123-1191, 1213-1266, 1318-1360, gbinder_driver.c:621-729, each step has its own lines below. -/
def step (s : State) : Label → Out State
  -- gbinder_ipc_priv_get_remote_object (gbinder_ipc.c:1318-1360), under the lock. If a new object
  -- is created, its memory isn't used by any other object.
  | .lookup h c id =>
    match s.table h with
    | some p => State.addRef { s with user := upd s.user p (s.user p + 1) } p
    | none =>
      if c = .no then .ok s
      else if s.objs id = none then
        let s := create s h c id
        .ok { s with table := upd s.table h (some id), user := upd s.user id (s.user id + 1) }
      else .no
  -- gbinder_remote_object_ref (201-211), by someone who has a reference
  | .ref p =>
    if 0 < s.user p then State.addRef { s with user := upd s.user p (s.user p + 1) } p else .no
  -- gbinder_remote_object_unref (213-220)
  | .unref p =>
    if 0 < s.user p then State.unref { s with user := upd s.user p (s.user p - 1) } p else .no
  -- The kernel sends BR_DEAD_BINDER to the one who has registered for it.
  | .deadBinder h =>
    match s.reg h with
    | some a => .ok { s with reg := upd s.reg h none, incoming := (h, a) :: s.incoming }
    | none => .no
  -- gbinder_driver_handle_command (gbinder_driver.c:696-716): the lookup, under the lock
  | .deliver h a =>
    if (h, a) ∈ s.incoming then
      let s := { s with incoming := s.incoming.erase (h, a) }
      match s.table h with
      | some p => State.addRef { s with found := p :: s.found } p
      | none => .ok (s.add [.unknown h])
    else .no
  -- gbinder_remote_object_handle_death_notification (gbinder_remote_object.c:126-136), its
  -- reference and the one released by the caller cancel each other out
  | .notify p =>
    if p ∈ s.found then
      .ok ({ s with found := s.found.erase p, tasks := { obj := p } :: s.tasks }.add [.handled p])
    else .no
  -- gbinder_remote_object_handle_death_on_main_thread (65-90): up to the lock
  | .run p =>
    if s.killing = [] ∧ ⟨p, false⟩ ∈ s.tasks then
      match s.objs p with
      | none => .ub
      | some o =>
        if o.dead then
          .ok ({ s with tasks := ⟨p, true⟩ :: s.tasks.erase ⟨p, false⟩ }.add [.skipped p])
        else
          .ok ({ s with
            tasks := s.tasks.erase ⟨p, false⟩
            killing := ⟨p, true⟩ :: s.killing
            objs := upd s.objs p (some { o with dead := true, acquired := false }) }.add (relEv p o))
    else .no
  -- gbinder_ipc_invalidate_remote_handle (gbinder_ipc.c:1179-1191), under the lock, and the rest
  | .bury p =>
    if ⟨p, true⟩ ∈ s.killing then
      match s.objs p with
      | none => .ub
      | some o =>
        .ok ({ s with
          killing := s.killing.erase ⟨p, true⟩
          tasks := ⟨p, true⟩ :: s.tasks
          table := if o.handle ≠ smHandle then upd s.table o.handle none else s.table }.add
            [.drv p .deadDone o.handle, .signal p])
    else .no
  | .done p =>
    if ⟨p, true⟩ ∈ s.tasks then State.unref { s with tasks := s.tasks.erase ⟨p, true⟩ } p else .no
  -- gbinder_remote_object_commit_suicide (138-161), the caller has a reference: up to the lock
  | .suicide p =>
    if s.killing = [] ∧ 0 < s.user p then
      match s.objs p with
      | none => .ub
      | some o =>
        if o.dead then .ok s
        else
          .ok ({ s with
            user := upd s.user p (s.user p - 1)
            killing := ⟨p, false⟩ :: s.killing
            objs := upd s.objs p (some { o with dead := true, acquired := false })
            reg := upd s.reg o.handle none }.add (Ev.drv p .clear o.handle :: relEv p o))
    else .no
  -- gbinder_ipc_invalidate_remote_handle, under the lock, and the rest
  | .vanish p =>
    if ⟨p, false⟩ ∈ s.killing then
      match s.objs p with
      | none => .ub
      | some o =>
        .ok ({ s with
          killing := s.killing.erase ⟨p, false⟩
          user := upd s.user p (s.user p + 1)
          table := upd s.table o.handle none }.add [.signal p])
    else .no
  -- gbinder_remote_object_reanimate (96-124), only called for service manager objects; `ok` if
  -- there was a response to the ping
  | .reanimate p ok =>
    if s.killing = [] ∧ 0 < s.user p then
      match s.objs p with
      | none => .ub
      | some o =>
        if o.dead = true ∧ o.handle = smHandle ∧ ok = true then
          .ok ({ s with
            objs := upd s.objs p (some { o with dead := false, acquired := true })
            reg := request s.reg o.handle p }.add
              [.reanimated p, .drv p .acquire o.handle, .drv p .request o.handle])
        else .ok s
    else .no
  -- gbinder_remote_object_dispose (275-284), gbinder_ipc_remote_object_disposed
  -- (gbinder_ipc.c:1229-1266), under the lock
  | .dispose p =>
    if ⟨p, .disposing⟩ ∈ s.dying then
      match s.objs p with
      | none => .ub
      | some o =>
        let d := ⟨p, .disposed⟩ :: s.dying.erase ⟨p, .disposing⟩
        if o.refs = 1 then .ok { s with table := upd s.table o.handle none, dying := d }
        else .ok { s with dying := d }
    else .no
  -- g_object_unref, after dispose
  | .settle p =>
    if ⟨p, .disposed⟩ ∈ s.dying then
      match s.objs p with
      | none => .ub
      | some o =>
        let d := s.dying.erase ⟨p, .disposed⟩
        if o.refs = 0 then .ub
        else if o.refs = 1 then
          .ok { s with objs := upd s.objs p (some { o with refs := 0 }), dying := ⟨p, .finalizing⟩ :: d }
        else .ok { s with objs := upd s.objs p (some { o with refs := o.refs - 1 }), dying := d }
    else .no
  -- gbinder_remote_object_finalize (286-305), gbinder_ipc_invalidate_remote_handle
  -- (gbinder_ipc.c:1179-1191), under the lock
  | .invalidate p =>
    if ⟨p, .finalizing⟩ ∈ s.dying then
      match s.objs p with
      | none => .ub
      | some o => .ok { s with table := upd s.table o.handle none,
                               dying := ⟨p, .removed⟩ :: s.dying.erase ⟨p, .finalizing⟩ }
    else .no
  -- gbinder_remote_object_finalize (296-305), g_object_unref: the memory is freed
  | .free p =>
    if ⟨p, .removed⟩ ∈ s.dying then
      match s.objs p with
      | none => .ub
      | some o =>
        .ok ({ s with
          objs := upd s.objs p none
          dying := s.dying.erase ⟨p, .removed⟩
          reg := if o.dead then s.reg else upd s.reg o.handle none }.add
            ((if o.dead then [] else [Ev.drv p .clear o.handle]) ++ relEv p o ++ [Ev.freed p]))
    else .no

end Gb.RemoteObj
