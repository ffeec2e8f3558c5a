import Verif.Basic.Lts
/-
src/gbinder_ipc.c: the threads which accept incoming transactions (loopers), and the two lists they
are in.

Loopers are numbered, i.e. the memory is not reused. The lists are linked by `looper->next`, so a
looper can't be in two lists at the same time. What the transactions are about and how they are
completed is in Verif/Model/LooperTx.lean.

A step is what a thread does between two points at which threads synchronize (mutexes, pipes).
Loopers are created by any thread (gbinder_ipc_looper_check), stopped by one thread at a time. That
can be a looper, if it releases the last reference to GBinderIpc.
-/
set_option autoImplicit false

namespace Gb.Loopers

/-- gbinder_ipc.c:156-171 `GBinderIpcLooper`: `ipc` is whether looper->ipc is not NULL. -/
structure Obj where
  refs : Nat
  exit : Bool := false
  ipc : Bool := true
  deriving DecidableEq, Repr

/-- Where the thread is (gbinder_ipc.c:649-855). -/
inductive Thread
  /-- gbinder_ipc.c:777 -/
  | starting
  /-- gbinder_ipc.c:793, the condition of the loop -/
  | loop
  /-- gbinder_ipc.c:797-801 -/
  | reading
  /-- gbinder_ipc.c:680 -/
  | waiting
  /-- gbinder_ipc.c:723, and `was_blocked` -/
  | blocked (was : Bool)
  /-- gbinder_ipc.c:750 -/
  | finishing (was : Bool)
  /-- gbinder_ipc.c:806, the last reference to GBinderIpc is being released by this thread -/
  | disposing
  /-- gbinder_ipc.c:821 -/
  | leaving
  /-- gbinder_ipc.c:853 -/
  | last
  | gone
  deriving DecidableEq, Repr

/-- gbinder_ipc_stop_loopers: `by_` is the looper it's called by (none if it's another thread),
`any` is whether `loopers` is not NULL, and `tmp` (gbinder_ipc.c:2070-2100). -/
inductive Stop
  | idle
  | list (by_ : Option Nat) (any : Bool) (tmp : Option Nat)
  | join (by_ : Option Nat) (any : Bool) (tmp : Option Nat) (x : Nat)
  deriving DecidableEq, Repr

/-- gbinder_ipc.c:62-80 GBinderIpcPriv (the lists of loopers), the loopers (gbinder_ipc.c:156-171) and where the threads are in gbinder_ipc.c:649-855, 2070-2100. -/
structure State where
  /-- The number of loopers created so far. -/
  n : Nat := 0
  obj : Nat → Option Obj := fun _ => none
  thread : Nat → Thread := fun _ => .gone
  /-- looper->next -/
  next : Nat → Option Nat := fun _ => none
  /-- priv->primary_loopers -/
  primary : Option Nat := none
  /-- priv->blocked_loopers -/
  blocked : Option Nat := none
  /-- References held by those who wait until the looper is started. -/
  temps : List Nat := []
  stop : Stop := .idle

/-- gbinder_ipc.c:649-929, 2070-2100: what happens next, see `step`. -/
inductive Label
  | check (ok : Bool)
  | release (x : Nat)
  | start (x : Nat) (ok : Bool)
  | poll (x : Nat)
  | idle (x : Nat)
  | begin (x : Nat)
  | done (x : Nat)
  | block (x : Nat) (ok : Bool)
  | unblock (x : Nat)
  | back (x : Nat)
  | leave (x : Nat)
  | remove (x : Nat)
  | last (x : Nat)
  | stop (by_ : Option Nat)
  | pop
  | joined
  | again
  deriving DecidableEq, Repr

/-- GBINDER_IPC_MAX_PRIMARY_LOOPERS (gbinder_ipc.c:97) -/
def maxPrimary : Nat := 5

/-- The elements of a list, no more than `fuel` of them (gbinder_ipc.c:950-966, 592-602). -/
def walk (next : Nat → Option Nat) : Nat → Option Nat → List Nat
  | 0, _ => []
  | _, none => []
  | f + 1, some x => x :: walk next f (next x)

/-- gbinder_ipc.c:592-602 the loop in gbinder_ipc_looper_remove_from_list: the one before `x`. -/
def findPrev (next : Nat → Option Nat) (x : Nat) : Nat → Nat → Option Nat
  | 0, _ => none
  | f + 1, p =>
    match next p with
    | none => none
    | some q => if q = x then some p else findPrev next x f q

/-- gbinder_ipc.c:581-607 `gbinder_ipc_looper_remove_from_list`: the pointers and the list, or none if
it returns FALSE. -/
def removeFrom (fuel : Nat) (next : Nat → Option Nat) (list : Option Nat) (x : Nat) :
    Option ((Nat → Option Nat) × Option Nat) :=
  match list with
  | none => none
  | some h =>
    if h = x then some (upd next x none, next x)
    else match findPrev next x fuel h with
      | none => none
      | some p => some (upd (upd next p (next x)) x none, list)

/-- gbinder_ipc.c:950-966 `gbinder_ipc_looper_stop_all`: the pointers and the new list. -/
def stopAll : List Nat → (Nat → Option Nat) → Option Nat → (Nat → Option Nat) × Option Nat
  | [], next, loopers => (next, loopers)
  | x :: l, next, loopers => stopAll l (upd next x loopers) (some x)

/-- gbinder_ipc.c:436-475 `gbinder_ipc_looper_unref`, `gbinder_ipc_looper_free` -/
def State.unref (s : State) (x : Nat) : Out State :=
  match s.obj x with
  | none => .ub
  | some o =>
    match o.refs with
    | 0 => .ub
    | 1 => .ok { s with obj := upd s.obj x none }
    | r + 2 => .ok { s with obj := upd s.obj x (some { o with refs := r + 1 }) }

/-- gbinder_ipc.c:857-900 `gbinder_ipc_looper_new`, put in the empty list of primary loopers. The
references belong to the list, the thread and the caller. -/
def State.create (s : State) : State :=
  { s with
    n := s.n + 1
    obj := upd s.obj s.n (some { refs := 3 })
    thread := upd s.thread s.n .starting
    next := upd s.next s.n none
    primary := some s.n
    temps := s.n :: s.temps }

/-- The elements of the list are accessed (gbinder_ipc.c:950-966). -/
def State.walk (s : State) (list : Option Nat) : List Nat := Loopers.walk s.next (s.n + 1) list

/-- None of them has been freed (gbinder_ipc.c:950-966). -/
def State.alive (s : State) (l : List Nat) : Bool := l.all fun x => (s.obj x).isSome

/-- gbinder_ipc.c:931-948 gbinder_ipc_looper_stop: looper->exit -/
def setExit (obj : Nat → Option Obj) (l : List Nat) : Nat → Option Obj :=
  fun x => if l.contains x then (obj x).map (fun o => { o with exit := true }) else obj x

/-- gbinder_ipc.c:2082-2088 the beginning of the loop in `gbinder_ipc_stop_loopers` -/
def State.collect (s : State) (by_ : Option Nat) : Out State :=
  let l1 := s.walk s.primary
  let l2 := s.walk s.blocked
  if s.alive l1 ∧ s.alive l2 then
    let a := stopAll l1 s.next none
    let b := stopAll l2 a.1 a.2
    .ok { s with
      obj := setExit s.obj (l1 ++ l2), next := b.1, primary := none, blocked := none
      stop := .list by_ b.2.isSome b.2 }
  else .ub

/-- The steps (gbinder_ipc.c:649-929, 2070-2100, each step has its own lines below). -/
def step (s : State) : Label → Out State
  -- gbinder_ipc.c:902-929 gbinder_ipc_looper_check
  | .check ok => .ok (if s.primary = none ∧ ok = true then s.create else s)
  -- gbinder_ipc.c:718, 926
  | .release x => if x ∈ s.temps then State.unref { s with temps := s.temps.erase x } x else .no
  -- gbinder_ipc.c:777-790, 847-850
  | .start x ok =>
    if s.thread x = .starting then
      match s.obj x with
      | none => .ub
      | some _ => .ok { s with thread := upd s.thread x (if ok then .loop else .last) }
    else .no
  -- gbinder_ipc.c:793
  | .poll x =>
    if s.thread x = .loop then
      match s.obj x with
      | none => .ub
      | some o => if o.exit then .no else .ok { s with thread := upd s.thread x .reading }
    else .no
  -- gbinder_ipc.c:809-814
  | .idle x => if s.thread x = .reading then .ok { s with thread := upd s.thread x .loop } else .no
  -- gbinder_ipc.c:659-677
  | .begin x =>
    if s.thread x = .reading then
      match s.obj x with
      | none => .ub
      | some o => if o.ipc then .ok { s with thread := upd s.thread x .waiting } else .ub
    else .no
  -- gbinder_ipc.c:731-748, the transaction didn't block
  | .done x => if s.thread x = .waiting then .ok { s with thread := upd s.thread x .reading } else .no
  -- gbinder_ipc.c:692-715, TX_BLOCKED
  | .block x ok =>
    if s.thread x = .waiting then
      if s.alive (s.walk s.primary) then
        match removeFrom (s.n + 1) s.next s.primary x with
        | none => .ok { s with thread := upd s.thread x (.blocked false) }
        | some (next, primary) =>
          let s := { s with
            thread := upd s.thread x (.blocked true)
            next := upd next x s.blocked, blocked := some x, primary }
          .ok (if primary = none ∧ ok = true then s.create else s)
      else .ub
    else .no
  -- gbinder_ipc.c:725-747
  | .unblock x =>
    match s.thread x with
    | .blocked was => .ok { s with thread := upd s.thread x (.finishing was) }
    | _ => .no
  -- gbinder_ipc.c:750-764
  | .back x =>
    match s.thread x with
    | .finishing false => .ok { s with thread := upd s.thread x .reading }
    | .finishing true =>
      match s.obj x with
      | none => .ub
      | some o =>
        if s.alive (s.walk s.primary) = true ∧ s.alive (s.walk s.blocked) = true ∧ o.ipc = true then
          if maxPrimary ≤ (s.walk s.primary).length then
            .ok { s with
              thread := upd s.thread x .reading
              obj := upd s.obj x (some { o with exit := true }) }
          else
            let r := (removeFrom (s.n + 1) s.next s.blocked x).getD (s.next, s.blocked)
            .ok { s with
              thread := upd s.thread x .reading
              next := upd r.1 x s.primary, blocked := r.2, primary := some x }
        else .ub
    | _ => .no
  -- gbinder_ipc.c:793, 808-810, 814-816: exit, an error or something in the pipe
  | .leave x => if s.thread x = .loop then .ok { s with thread := upd s.thread x .leaving } else .no
  -- gbinder_ipc.c:825-846
  | .remove x =>
    if s.thread x = .leaving then
      match s.obj x with
      | none => .ub
      | some o =>
        let s := { s with thread := upd s.thread x .last }
        if o.ipc then
          if s.alive (s.walk s.blocked) = true ∧ s.alive (s.walk s.primary) = true then
            match removeFrom (s.n + 1) s.next s.blocked x with
            | some (next, blocked) => State.unref { s with next, blocked } x
            | none =>
              match removeFrom (s.n + 1) s.next s.primary x with
              | some (next, primary) => State.unref { s with next, primary } x
              | none => .ok s
          else .ub
        else .ok s
    else .no
  -- gbinder_ipc.c:853
  | .last x =>
    if s.thread x = .last then State.unref { s with thread := upd s.thread x .gone } x else .no
  -- gbinder_ipc.c:2070-2079 gbinder_ipc_stop_loopers
  | .stop by_ =>
    match s.stop, by_ with
    | .idle, none => s.collect none
    | .idle, some b =>
      if s.thread b = .reading then State.collect { s with thread := upd s.thread b .disposing } by_
      else .no
    | _, _ => .no
  -- gbinder_ipc.c:2092-2096
  | .pop =>
    match s.stop with
    | .list by_ any (some x) =>
      match s.obj x with
      | none => .ub
      | some _ => .ok { s with next := upd s.next x none, stop := .join by_ any (s.next x) x }
    | _ => .no
  -- gbinder_ipc.c:968-1006 gbinder_ipc_looper_join returns, and 2098. If it takes too long then the
  -- driver gets closed, which isn't modelled.
  | .joined =>
    match s.stop with
    | .join by_ any tmp x =>
      if by_ = some x ∨ s.thread x = .gone then
        match s.obj x with
        | none => .ub
        | some o =>
          State.unref { s with stop := .list by_ any tmp, obj := upd s.obj x (some { o with ipc := false }) } x
      else .no
    | _ => .no
  -- gbinder_ipc.c:2099
  | .again =>
    match s.stop with
    | .list by_ any none =>
      if any then s.collect by_
      else .ok { s with
        stop := .idle
        thread := match by_ with | some b => upd s.thread b .loop | none => s.thread }
    | _ => .no

end Gb.Loopers
