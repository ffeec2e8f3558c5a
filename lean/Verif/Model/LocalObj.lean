import Verif.Basic.Lts
/-
Life of local objects: src/gbinder_local_object.c, the table of local objects in src/gbinder_ipc.c
and the commands which count the references in src/gbinder_driver.c.

All the threads (those which read from the driver, the main thread, the application) are modelled
by the steps they take; a step is what happens between two points at which threads synchronize:
mutex operations, atomic operations on the reference count, the queue of the event loop.

References to an object are held by the application (`user`), by the threads which have looked the
object up (`held`), by the cleanup lists of the driver contexts (`unrefs`), by the callbacks
scheduled on the main thread (`tasks`), by the object itself (one for each strong reference), and
by the threads which are in the middle of releasing what seems to be the last one (`dying`).

Not modelled: signal handlers connected by the application; GBinderProxyObject (see C50).
-/
set_option autoImplicit false

namespace Gb.LocalObj

/-- gbinder_local_object_p.h:54-63 and GObject. -/
structure Obj where
  /-- GObject::ref_count -/
  refs : Nat
  /-- gint strong_refs -/
  strong : Nat := 0
  /-- gint weak_refs -/
  weak : Int := 0
  deriving DecidableEq, Repr

/-- Callbacks scheduled by gbinder_local_object_handle_increfs/decrefs/acquire/release,
gbinder_local_object.c:566-613. -/
inductive Kind | increfs | decrefs | acquire | release
  deriving DecidableEq, Repr

/-- A callback scheduled with gbinder_idle_callback_invoke_later(), gbinder_eventloop.c:366-380:
`ran` if the function has been called and the destroy notification hasn't. -/
structure Task where
  kind : Kind
  obj : Nat
  ran : Bool := false
  deriving DecidableEq, Repr

/-- Where a thread is inside g_object_unref(), having found that the reference is the last one
(called at gbinder_local_object.c:462-469; GLib). -/
inductive Stage
  /-- dispose is about to be called -/
  | disposing
  /-- dispose has been called -/
  | disposed
  /-- the reference count is zero, finalize is about to be called -/
  | finalizing
  /-- the object has been removed from the table by finalize -/
  | removed
  deriving DecidableEq, Repr

/-- A thread inside g_object_unref() (called at gbinder_local_object.c:462-469), and the object. -/
structure Dying where
  obj : Nat
  stage : Stage
  deriving DecidableEq, Repr

/-- What has happened (gbinder_local_object.c:281-378, gbinder_ipc.c:1123-1191). -/
inductive Ev
  /-- an object has been created at this address -/
  | new (p : Nat)
  /-- BR_ACQUIRE etc. has been handled, and the object is known -/
  | handled (k : Kind) (p : Nat)
  /-- the callback has been called on the main thread -/
  | ran (k : Kind) (p : Nat)
  /-- BC_ACQUIRE_DONE has been written -/
  | ack (p : Nat)
  /-- the memory has been freed -/
  | freed (p : Nat)
  deriving DecidableEq, Repr

/-- The objects (gbinder_local_object.c:48-52), the table (gbinder_ipc.c:62-80), and the references to objects held by various parties (gbinder_driver.c:87-105, gbinder_eventloop.c:366-380). -/
structure State where
  /-- The objects in memory, by address. -/
  objs : Nat → Option Obj := fun _ => none
  /-- GBinderIpcPriv::local_objects -/
  table : Nat → Bool := fun _ => false
  user : Nat → Nat := fun _ => 0
  held : List Nat := []
  /-- GBinderDriverContext::unrefs (decrefs and release). -/
  unrefs : List (Kind × Nat) := []
  tasks : List Task := []
  dying : List Dying := []
  /-- How many BR_RELEASE the kernel may send: one for each acknowledged BR_ACQUIRE. -/
  credit : Nat → Nat := fun _ => 0
  log : List Ev := []

/-- gbinder_local_object.c:281-378, 640-680, gbinder_ipc.c:1123-1191, 1213-1316: what happens next, see `step`. -/
inductive Label
  | new (p : Nat)
  | ref (p : Nat)
  | unref (p : Nat)
  | getLocal (p : Nat)
  | handle (k : Kind) (p : Nat)
  | cleanup (k : Kind) (p : Nat)
  | put (p : Nat)
  | run (t : Task)
  | done (t : Task)
  | dispose (p : Nat)
  | settle (p : Nat)
  | invalidate (p : Nat)
  | free (p : Nat)
  deriving DecidableEq, Repr

/-- g_object_ref: the count is incremented. Undefined if the object has been freed, or is being
finalized (the count is zero, and the memory is going to be freed no matter what)
(called at gbinder_local_object.c:450-460). -/
def State.addRef (s : State) (p : Nat) : Out State :=
  match s.objs p with
  | none => .ub
  | some o => if o.refs = 0 then .ub else .ok { s with objs := upd s.objs p (some { o with refs := o.refs + 1 }) }

/-- g_object_unref, the beginning: the count is decremented, unless the reference is the last
one (called at gbinder_local_object.c:462-469). -/
def State.unref (s : State) (p : Nat) : Out State :=
  match s.objs p with
  | none => .ub
  | some o =>
    if o.refs = 0 then .ub
    else if o.refs = 1 then .ok { s with dying := ⟨p, .disposing⟩ :: s.dying }
    else .ok { s with objs := upd s.objs p (some { o with refs := o.refs - 1 }) }

/-- Adds to the log; no code in gbinder_local_object.c:281-378 corresponds to it. -/
def State.add (s : State) (e : Ev) : State := { s with log := s.log ++ [e] }

/-- gbinder_local_object_increfs_proc .. gbinder_local_object_release_proc,
gbinder_local_object.c:293-378. -/
def runTask (s : State) (t : Task) : Out State :=
  let s := { s with tasks := { t with ran := true } :: s.tasks.erase t }.add (.ran t.kind t.obj)
  match s.objs t.obj with
  | none => .ub
  | some o =>
    match t.kind with
    -- 293-303
    | .increfs => .ok { s with objs := upd s.objs t.obj (some { o with weak := o.weak + 1 }) }
    -- 305-316
    | .decrefs => .ok { s with objs := upd s.objs t.obj (some { o with weak := o.weak - 1 }) }
    -- 318-340
    | .acquire => State.addRef { s with objs := upd s.objs t.obj (some { o with strong := o.strong + 1 }) } t.obj
    -- 355-379
    | .release =>
      if o.strong > 0 then
        State.unref { s with objs := upd s.objs t.obj (some { o with strong := o.strong - 1 }) } t.obj
      else .ok s

/-- Destroy notifications: gbinder_local_object_acquire_done (gbinder_local_object.c:341-353),
g_object_unref for the rest (281-291). -/
def taskDone (s : State) (t : Task) : Out State :=
  let s := { s with tasks := s.tasks.erase t }
  match t.kind with
  | .acquire =>
    match s.objs t.obj with
    | none => .ub
    | some _ => State.unref
        ({ s with credit := upd s.credit t.obj (s.credit t.obj + 1) }.add (.ack t.obj)) t.obj
  | _ => s.unref t.obj

/-- gbinder_local_object.c:281-378, 640-680, gbinder_ipc.c:1123-1191, 1213-1316, each step has its own lines below. -/
def step (s : State) : Label → Out State
  -- gbinder_local_object_new (gbinder_local_object.c:385-411) and
  -- gbinder_ipc_register_local_object (gbinder_ipc.c:1268-1288). The memory isn't used by any
  -- other object.
  | .new p =>
    if p ≠ 0 ∧ s.objs p = none then
      .ok ({ s with objs := upd s.objs p (some { refs := 1 }), table := upd s.table p true,
                    user := upd s.user p (s.user p + 1) }.add (.new p))
    else .no
  -- gbinder_local_object_ref (450-460), by someone who has a reference
  | .ref p =>
    if 0 < s.user p then State.addRef { s with user := upd s.user p (s.user p + 1) } p else .no
  -- gbinder_local_object_unref (462-469), gbinder_local_object_drop (471-479)
  | .unref p =>
    if 0 < s.user p then State.unref { s with user := upd s.user p (s.user p - 1) } p else .no
  -- gbinder_ipc_priv_get_local_object (gbinder_ipc.c:1290-1316), under the lock; the pointer is
  -- whatever has been received from the kernel
  | .getLocal p =>
    if p ≠ 0 ∧ s.table p then State.addRef { s with held := p :: s.held } p else .ok s
  -- gbinder_driver_handle_command (gbinder_driver.c:643-697), once the object has been found.
  -- BR_RELEASE is sent only after BC_ACQUIRE_DONE.
  | .handle k p =>
    if p ∈ s.held then
      match k with
      | .increfs | .acquire =>
        State.addRef ({ s with tasks := { kind := k, obj := p } :: s.tasks }.add (.handled k p)) p
      | .decrefs =>
        .ok ({ s with held := s.held.erase p, unrefs := (k, p) :: s.unrefs }.add (.handled k p))
      | .release =>
        if 0 < s.credit p then
          .ok ({ s with held := s.held.erase p, unrefs := (k, p) :: s.unrefs,
                        credit := upd s.credit p (s.credit p - 1) }.add (.handled k p))
        else .no
    else .no
  -- gbinder_driver_cleanup_decrefs, gbinder_driver_cleanup_release (gbinder_driver.c:599-619)
  | .cleanup k p =>
    if (k, p) ∈ s.unrefs then
      State.addRef { s with unrefs := s.unrefs.erase (k, p), held := p :: s.held,
                            tasks := { kind := k, obj := p } :: s.tasks } p
    else .no
  -- gbinder_local_object_unref in gbinder_driver.c (596, 607, 618, 649, 674)
  | .put p => if p ∈ s.held then State.unref { s with held := s.held.erase p } p else .no
  | .run t => if t ∈ s.tasks ∧ t.ran = false then runTask s t else .no
  | .done t => if t ∈ s.tasks ∧ t.ran = true then taskDone s t else .no
  -- gbinder_local_object_dispose (gbinder_local_object.c:640-649),
  -- gbinder_ipc_local_object_disposed (gbinder_ipc.c:1213-1227), under the lock
  | .dispose p =>
    if ⟨p, .disposing⟩ ∈ s.dying then
      match s.objs p with
      | none => .ub
      | some o =>
        let d := ⟨p, .disposed⟩ :: s.dying.erase ⟨p, .disposing⟩
        if o.refs = 1 then .ok { s with table := upd s.table p false, dying := d }
        else .ok { s with dying := d }
    else .no
  -- g_object_unref, after dispose
  | .settle p =>
    if ⟨p, .disposed⟩ ∈ s.dying then
      match s.objs p with
      | none => .ub
      | some o =>
        let d := s.dying.erase ⟨p, .disposed⟩
        if o.refs = 0 then .ub
        else if o.refs = 1 then
          .ok { s with objs := upd s.objs p (some { o with refs := 0 }), dying := ⟨p, .finalizing⟩ :: d }
        else .ok { s with objs := upd s.objs p (some { o with refs := o.refs - 1 }), dying := d }
    else .no
  -- gbinder_local_object_finalize (gbinder_local_object.c:651-664),
  -- gbinder_ipc_invalidate_local_object (gbinder_ipc.c:1165-1177), under the lock
  | .invalidate p =>
    if ⟨p, .finalizing⟩ ∈ s.dying then
      match s.objs p with
      | none => .ub
      | some _ => .ok { s with table := upd s.table p false,
                               dying := ⟨p, .removed⟩ :: s.dying.erase ⟨p, .finalizing⟩ }
    else .no
  -- g_object_unref: the memory is freed
  | .free p =>
    if ⟨p, .removed⟩ ∈ s.dying then
      match s.objs p with
      | none => .ub
      | some _ => .ok ({ s with objs := upd s.objs p none, dying := s.dying.erase ⟨p, .removed⟩ }.add (.freed p))
    else .no

end Gb.LocalObj
