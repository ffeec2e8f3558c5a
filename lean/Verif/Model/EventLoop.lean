import Verif.Basic.Lts
/-
src/gbinder_eventloop.c: callbacks and timeouts, on top of GSource.

Calls may be made by any thread; GLib does everything but calling the functions under a lock. So a step is a call,
or the part of g_main_dispatch before or after the call to the function. Anything may be happening in between.

The functions to be called when the data isn't needed any more are called in the course of such a step. What they do comes
after it.

What's relied upon: GLib (gmain.c), as described by the comments below. Another integration (gbinder_eventloop_set) is supposed to
be doing the same, include/gbinder_eventloop.h requires that.

Simplified: nothing is ever called with NULL (that does nothing, gbinder_eventloop.c:284-363). GLib identifies timeouts by
numbers which are never the same. Objects are numbered, i.e. the memory is not reused.
-/
set_option autoImplicit false

namespace Gb.EventLoop

/-- The functions of the integration, gbinder_eventloop.h:60-150. -/
inductive Op
  | new
  | ref
  | unref
  | schedule
  | cancel
  | add (interval : Nat)
  | remove
  deriving DecidableEq, Repr

/-- A callback: gbinder_eventloop.c:59-62 GBinderEventLoopCallbackGLib and the GSource. -/
structure Src where
  /-- callback.eventloop -/
  loop : Nat
  /-- references of those who use it (nobody stores that, it's a part of `refs`) -/
  users : Nat := 1
  /-- the reference count of GSource -/
  refs : Nat := 1
  /-- added to the context and hasn't been removed from there -/
  attached : Bool := false
  /-- G_HOOK_FLAG_ACTIVE is off -/
  destroyed : Bool := false
  /-- the function is being called (G_HOOK_FLAG_IN_CALL) -/
  running : Bool := false
  /-- GSource refers to GSourceCallback, which has the function and the data -/
  cb : Bool := true
  /-- the reference count of GSourceCallback -/
  cbrefs : Nat := 1
  /-- made by gbinder_idle_callback_invoke_later -/
  later : Bool := false
  /-- there's something to call: GBinderIdleCallbackData (gbinder_eventloop.c:37-42), otherwise there always is -/
  func : Bool := true
  /-- there's something to call in the end -/
  fin : Bool
  /-- GBinderIdleCallbackData hasn't been freed -/
  idle : Bool := true
  /-- has been called (nobody stores that) -/
  called : Bool := false
  deriving DecidableEq, Repr

/-- A timeout: gbinder_eventloop.c:52-57 GBinderEventLoopTimeoutGLib and the GSource, which is freed with it. -/
structure Tmo where
  loop : Nat
  /-- G_HOOK_FLAG_ACTIVE is off -/
  destroyed : Bool := false
  running : Bool := false
  /-- the reference count of GSourceCallback -/
  cbrefs : Nat := 1
  /-- whoever has added it, has removed it (nobody stores that) -/
  removed : Bool := false
  deriving DecidableEq, Repr

/-- What is observable of gbinder_eventloop.c:234-397. -/
inductive Ev
  /-- gbinder_eventloop_set has been called -/
  | set (k : Nat)
  /-- the function of an integration is called, for a callback or for a timeout -/
  | cleanup (k : Nat)
  | asked (k : Nat) (op : Op) (c : Nat)
  | askedTimeout (k : Nat) (op : Op) (t : Nat)
  /-- a new callback, what there is to call, and whether that's all that will ever be done with it -/
  | made (c : Nat) (func fin later : Bool)
  /-- the main loop has something to call, and has called it -/
  | start (c : Nat)
  | stop (c : Nat)
  /-- the function is called -/
  | func (c : Nat)
  /-- the finalize function is called -/
  | final (c : Nat)
  /-- the memory has been freed -/
  | freed (c : Nat)
  /-- the same for timeouts -/
  | fire (t : Nat)
  | fired (t : Nat) (again : Bool)
  | gone (t : Nat)
  deriving DecidableEq, Repr

/-- gbinder_eventloop.c:264-265 and all the objects. -/
structure State where
  /-- gbinder_eventloop: which one it is, zero is the default -/
  loop : Nat := 0
  srcs : Nat := 0
  src : Nat → Option Src := fun _ => none
  tmos : Nat := 0
  tmo : Nat → Option Tmo := fun _ => none
  log : List Ev := []

/-- Adds to the log; no code in gbinder_eventloop.c:234-397 corresponds to it. -/
def State.see (s : State) (l : List Ev) : State := { s with log := s.log ++ l }

/-- Stores to the fields (gbinder_eventloop.c:52-57). -/
def State.setTmo (s : State) (t : Nat) (x : Option Tmo) : State := { s with tmo := upd s.tmo t x }

/-- What has become of a callback in the course of a step, and what's been seen (gbinder_eventloop.c:59-62). -/
abbrev Done := Out (Option Src × List Ev)

/-- One thing after another; no code in gbinder_eventloop.c:234-397 corresponds to it. -/
def Done.then (o : Done) (f : Option Src → Done) : Done :=
  match o with
  | .ok (x, l) =>
    match f x with
    | .ok (y, m) => .ok (y, l ++ m)
    | .no => .no
    | .ub => .ub
  | .no => .no
  | .ub => .ub

/-- g_source_callback_unref of GLib, which calls the finalize function in the end; that's gbinder_eventloop.c:247-258
`gbinder_idle_callback_invoke_done` if the callback was made by gbinder_idle_callback_invoke_later. -/
def cbUnref (c : Nat) : Option Src → Done
  | none => .ub
  | some x =>
    match x.cbrefs with
    | 0 => .ub
    | n + 1 =>
      if n = 0 then
        if x.later then
          if x.idle then .ok (some { x with cbrefs := 0, idle := false }, if x.fin then [.final c] else [])
          else .ub
        else .ok (some { x with cbrefs := 0 }, if x.fin then [.final c] else [])
      else .ok (some { x with cbrefs := n }, [])

/-- GLib: GSource doesn't refer to GSourceCallback any more (in g_source_unref_internal and g_source_destroy_internal);
that's for gbinder_eventloop.c:177-210. -/
def cbClear (c : Nat) : Option Src → Done
  | none => .ub
  | some x => if x.cb then cbUnref c (some { x with cb := false }) else .ok (some x, [])

/-- g_source_unref of GLib (gbinder_eventloop.c:185-191) -/
def unref (c : Nat) : Option Src → Done
  | none => .ub
  | some x =>
    match x.refs with
    | 0 => .ub
    | n + 1 =>
      if n = 0 then (cbClear c (some { x with refs := 0 })).then fun _ => .ok (none, [.freed c])
      else .ok (some { x with refs := n }, [])

/-- g_source_destroy of GLib (gbinder_eventloop.c:204-210). If it hasn't been attached then the data isn't released, that
only happens when the source is freed. -/
def destroy (c : Nat) : Option Src → Done
  | none => .ub
  | some x =>
    if x.destroyed then .ok (some x, [])
    else if x.attached then (cbClear c (some { x with destroyed := true, attached := false })).then (unref c)
    else .ok (some { x with destroyed := true }, [])

/-- g_source_attach of GLib (gbinder_eventloop.c:193-202): if it's been attached or destroyed already, then it's only a
warning. -/
def attach : Option Src → Done
  | none => .ub
  | some x =>
    if x.destroyed || x.attached then .ok (some x, [])
    else .ok (some { x with attached := true, refs := x.refs + 1 }, [])

/-- A user's reference is gone (nobody stores that), then gbinder_eventloop.c:185-191. -/
def userUnref (c : Nat) : Option Src → Done
  | none => .ub
  | some x =>
    match x.users with
    | 0 => .ub
    | n + 1 => Done.then (.ok (some { x with users := n }, [.asked x.loop .unref c])) (unref c)

/-- The integration which the callback belongs to is asked to do something with it (gbinder_eventloop.c:315-363). -/
def ask (op : Op) (c : Nat) (x : Src) : Done := .ok (some x, [.asked x.loop op c])

/-- Stores what a step does to a callback (gbinder_eventloop.c:59-62). -/
def State.put (s : State) (c : Nat) : Done → Out State
  | .ok (x, l) => .ok ({ s with src := upd s.src c x } |>.see l)
  | .no => .no
  | .ub => .ub

/-- gbinder_eventloop.c:156-175 `gbinder_eventloop_glib_callback_new` -/
def create (loop c : Nat) (func fin later : Bool) : Done :=
  .ok (some { loop, func, fin, later }, [.asked loop .new c, .made c func fin later])

/-- One more callback, number `srcs` (gbinder_eventloop.c:156-175). -/
def State.add (s : State) (o : Done) : Out State := ({ s with srcs := s.srcs + 1 } : State).put s.srcs o

/-- g_main_dispatch of GLib and the part of gbinder_eventloop.c:234-245 up to the call of the function -/
def startProc (c : Nat) (x : Src) : Done :=
  if !x.cb then .ub
  else if x.later && !x.idle then .ub
  else .ok (some { x with running := true, refs := x.refs + 1, cbrefs := x.cbrefs + 1, called := x.func },
    .start c :: if x.func then [.func c] else [])

/-- The rest of gbinder_eventloop.c:234-245; GLib has no use for the data any more. -/
def stopProc (c : Nat) (x : Src) : Done :=
  (Done.then (.ok (some x, [.stop c])) fun _ =>
    if x.later then (if x.idle then userUnref c (some x) else .ub) else .ok (some x, [])).then fun y =>
      match y with
      | none => .ub
      | some x => cbUnref c (some { x with running := false })

/-- g_source_callback_unref of GLib for a timeout, with gbinder_eventloop.c:92-98
`gbinder_eventloop_glib_timeout_finalize` -/
def State.tmoUnref (s : State) (t : Nat) : Out State :=
  match s.tmo t with
  | none => .ub
  | some x =>
    match x.cbrefs with
    | 0 => .ub
    | n + 1 =>
      if n = 0 then .ok ((s.setTmo t none).see [.gone t])
      else .ok (s.setTmo t (some { x with cbrefs := n }))

/-- gbinder_eventloop.c:234-397: what happens next, see `step`. -/
inductive Label
  | set (k : Nat)
  | new (fin : Bool)
  | scheduleNew (fin : Bool)
  | later (func fin : Bool)
  | ref (c : Nat)
  | unref (c : Nat)
  | schedule (c : Nat)
  | cancel (c : Nat)
  | destroy (c : Nat)
  | start (c : Nat)
  | stop (c : Nat)
  | add (interval : Nat)
  | idle
  | remove (t : Nat)
  | fire (t : Nat)
  | fired (t : Nat) (again : Bool)

/-- Whoever uses a callback has a reference to it. Those made by gbinder_idle_callback_invoke_later aren't known to
anybody (gbinder_eventloop.c:366-380). -/
def State.known (s : State) (c : Nat) : Option Src :=
  match s.src c with
  | none => none
  | some x => if x.users = 0 || x.later then none else some x

/-- gbinder_eventloop.c:234-397, each step has its own lines below. -/
def step (s : State) : Label → Out State
  /- gbinder_eventloop.c:386-397 `gbinder_eventloop_set` -/
  | .set k =>
    if s.loop = k then .ok (s.see [.set k])
    else .ok (({ s with loop := k } : State).see [.set k, .cleanup s.loop])
  /- gbinder_eventloop.c:293-300 `gbinder_idle_callback_new` -/
  | .new fin => s.add (create s.loop s.srcs true fin false)
  /- gbinder_eventloop.c:302-313 `gbinder_idle_callback_schedule_new` -/
  | .scheduleNew fin =>
    s.add ((create s.loop s.srcs true fin false).then fun _ =>
      (ask .schedule s.srcs { loop := s.loop, func := true, fin, later := false }).then attach)
  /- gbinder_eventloop.c:366-380 `gbinder_idle_callback_invoke_later` -/
  | .later func fin =>
    s.add ((create s.loop s.srcs func fin true).then fun _ =>
      (ask .schedule s.srcs { loop := s.loop, func, fin, later := true }).then attach)
  /- gbinder_eventloop.c:315-324 `gbinder_idle_callback_ref` -/
  | .ref c =>
    match s.known c with
    | none => .no
    | some x => s.put c ((ask .ref c x).then fun _ => .ok (some { x with users := x.users + 1, refs := x.refs + 1 }, []))
  /- gbinder_eventloop.c:326-333 `gbinder_idle_callback_unref` -/
  | .unref c =>
    match s.known c with
    | none => .no
    | some x => s.put c (userUnref c (some x))
  /- gbinder_eventloop.c:335-342 `gbinder_idle_callback_schedule` -/
  | .schedule c =>
    match s.known c with
    | none => .no
    | some x => s.put c ((ask .schedule c x).then attach)
  /- gbinder_eventloop.c:344-351 `gbinder_idle_callback_cancel` -/
  | .cancel c =>
    match s.known c with
    | none => .no
    | some x => s.put c ((ask .cancel c x).then (destroy c))
  /- gbinder_eventloop.c:353-363 `gbinder_idle_callback_destroy` -/
  | .destroy c =>
    match s.known c with
    | none => .no
    | some x => s.put c (((ask .cancel c x).then (destroy c)).then (userUnref c))
  /- g_main_dispatch of GLib: a source which hasn't been destroyed and isn't being dispatched is dispatched, i.e.
  gbinder_eventloop.c:137-143 is called, and then gbinder_eventloop.c:234-245 `gbinder_idle_callback_invoke_proc` if it's
  been made by gbinder_idle_callback_invoke_later. -/
  | .start c =>
    match s.src c with
    | none => .no
    | some x =>
      if !x.attached || x.destroyed || x.running then .no
      else s.put c (startProc c x)
  /- The function has returned: the rest of gbinder_eventloop.c:234-245, then G_SOURCE_REMOVE is returned and the rest of
  g_main_dispatch destroys the source. -/
  | .stop c =>
    match s.src c with
    | none => .no
    | some x =>
      if !x.running then .no
      else s.put c (((stopProc c x).then (destroy c)).then (unref c))
  /- gbinder_eventloop.c:267-274 `gbinder_timeout_add`, 100-116 -/
  | .add interval =>
    .ok ((({ s with tmos := s.tmos + 1 } : State).setTmo s.tmos (some { loop := s.loop })).see
      [.askedTimeout s.loop (.add interval) s.tmos])
  /- gbinder_eventloop.c:276-282 `gbinder_idle_add` -/
  | .idle =>
    .ok ((({ s with tmos := s.tmos + 1 } : State).setTmo s.tmos (some { loop := s.loop })).see
      [.askedTimeout s.loop (.add 0) s.tmos])
  /- gbinder_eventloop.c:284-291 `gbinder_timeout_remove`, 118-124. It's not allowed after the function has returned
  G_SOURCE_REMOVE, or after the timeout has been removed. -/
  | .remove t =>
    match s.tmo t with
    | none => .no
    | some x =>
      if x.removed then .no
      else
        let s := s.see [.askedTimeout x.loop .remove t]
        if x.destroyed then .ok (s.setTmo t (some { x with removed := true }))
        else (s.setTmo t (some { x with removed := true, destroyed := true })).tmoUnref t
  /- g_main_dispatch of GLib and gbinder_eventloop.c:82-90 `gbinder_eventloop_glib_timeout_callback` -/
  | .fire t =>
    match s.tmo t with
    | none => .no
    | some x =>
      if x.destroyed || x.running then .no
      else .ok ((s.setTmo t (some { x with running := true, cbrefs := x.cbrefs + 1 })).see [.fire t])
  | .fired t again =>
    match s.tmo t with
    | none => .no
    | some x =>
      if !x.running then .no
      else
        ((s.setTmo t (some { x with running := false })).see [.fired t again]).tmoUnref t |>.andThen fun s =>
          if again then .ok s
          else
            match s.tmo t with
            | none => .ok s
            | some x =>
              if x.destroyed then .ok s
              else (s.setTmo t (some { x with destroyed := true })).tmoUnref t

end Gb.EventLoop
