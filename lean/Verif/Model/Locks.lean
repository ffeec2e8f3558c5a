import Verif.Basic.Lts
/-
What the functions of libgbinder do with mutexes and which other threads they wait for. A function is a list of such
actions, its parameters tell which way it goes. Everything that has nothing to do with mutexes and waiting is left out.
-/
set_option autoImplicit false

namespace Gb.Locks

/-- Mutexes: gbinder_ipc.c:94 (`gbinder_ipc_mutex`), :71-77 (`looper_mutex`, `local_objects_mutex` and
`remote_objects_mutex` of GBinderIpc), :164 (`mutex` of GBinderIpcLooper), gbinder_servicemanager_p.h:58 (`mutex`
of GBinderServiceManagerClass). GBinderIpc's, loopers and classes are numbers. -/
inductive Lock
  | table
  | manager (k : Nat)
  | locals (i : Nat)
  | remotes (i : Nat)
  | loopers (i : Nat)
  | looper (x : Nat)
deriving DecidableEq, Repr

/-- What a thread does.
* `lock`, `unlock`: g_mutex_lock, g_mutex_unlock (or pthread functions);
* `sys`: system call which comes back by itself (an ioctl of the driver, poll with the pipe which is used for stopping the
  looper);
* `pause`: waiting with a timeout (g_cond_wait_until, pthread_timedjoin_np);
* `other`: the application's function gets called, or the last reference to an object may go away. All kinds of things
  may be done at this point, see `Prog`;
* `drop x`: a reference to the looper goes away (gbinder_ipc.c:466-475). If that was the last one, the thread of the
  looper gets joined, but it has nothing to do anymore, because it has released its own reference (C73_no_wait_partial);
* `stop x`: the looper is told to stop (gbinder_ipc.c:934-947);
* `join u`: pthread_join without a timeout, or waiting for the thread of the pool (g_thread_pool_free);
* `joinUnset`: pthread_join of the thread which doesn't exist;
* `ask r w`: gbinder_ipc_wait, gbinder_ipc.c:238-266: until the main thread responds to the request `r`, or until the
  looper `w` is told to stop;
* `answer r`: the response of the main thread. -/
inductive Act
  | lock (l : Lock)
  | unlock (l : Lock)
  | sys
  | pause
  | other
  | drop (x : Nat)
  | stop (x : Nat)
  | join (u : Nat)
  | joinUnset
  | ask (r : Nat) (w : Option Nat)
  | answer (r : Nat)
deriving DecidableEq, Repr

/-- Under the lock. -/
def locked (l : Lock) (body : List Act) : List Act := .lock l :: (body ++ [.unlock l])

/-- How gbinder_ipc_looper_new ends, gbinder_ipc.c:861-900: the pipe isn't there, pthread_create has failed, or there's a
new looper. -/
inductive Created
  | noPipe
  | noThread (x : Nat)
  | ok (x : Nat)
deriving DecidableEq, Repr

/-- gbinder_ipc_looper_new, gbinder_ipc.c:857-900. If pthread_create fails then gbinder_ipc_looper_unref (895) calls
gbinder_ipc_looper_free, and that one calls pthread_join (441), `thread` being zero. -/
def looperNew : Created → List Act
  | .noPipe => []
  | .noThread x => locked (.looper x) [.sys] ++ [.joinUnset]
  | .ok x => locked (.looper x) [.sys]

/-- What gbinder_ipc_looper_start finds, gbinder_ipc.c:567-577. -/
inductive Started
  | already
  | meanwhile
  | notYet
deriving DecidableEq, Repr

/-- gbinder_ipc_looper_start, gbinder_ipc.c:562-579. g_cond_wait_until unlocks the mutex while it waits. -/
def looperStart (x : Nat) : Started → List Act
  | .already => []
  | .meanwhile => locked (.looper x) []
  | .notYet => locked (.looper x) [.unlock (.looper x), .pause, .lock (.looper x)]

/-- What the caller does with the new looper, gbinder_ipc.c:715-719 and :921-924. -/
def looperWait (w : Started) : Created → List Act
  | .ok x => looperStart x w ++ [.drop x]
  | _ => []

/-- gbinder_ipc_looper_check, gbinder_ipc.c:904-927. `none` means that there's a primary looper. -/
def looperCheck (i : Nat) (c : Option Created) (w : Started) : List Act :=
  match c with
  | none => locked (.loopers i) []
  | some c => locked (.loopers i) (looperNew c) ++ looperWait w c

/-- gbinder_ipc_invalidate_local_object (gbinder_ipc.c:1165-1177), gbinder_ipc_local_object_disposed (1212-1226),
gbinder_ipc_priv_get_local_object (1284-1307) and gbinder_ipc_find_local_object (1360-1390; the only function passed there is
the one in
gbinder_proxy_object.c:93-105, it only compares). -/
def localsOnly (i : Nat) : List Act := locked (.locals i) []

/-- gbinder_ipc_invalidate_remote_handle (gbinder_ipc.c:1179-1191) and gbinder_ipc_remote_object_disposed (1228-1265). -/
def remotesOnly (i : Nat) : List Act := locked (.remotes i) []

/-- gbinder_ipc_register_local_object, gbinder_ipc.c:1268-1282. -/
def registerLocal (i : Nat) (c : Option Created) (w : Started) : List Act := localsOnly i ++ looperCheck i c w

/-- gbinder_remote_object_new, gbinder_remote_object.c:167-199. -/
def remoteNew (i : Nat) (dead : Bool) (c : Option Created) (w : Started) : List Act :=
  if dead then [] else looperCheck i c w ++ [.sys, .sys]

/-- gbinder_ipc_priv_get_remote_object, gbinder_ipc.c:1309-1357. -/
def getRemote (i : Nat) (create dead : Bool) (c : Option Created) (w : Started) : List Act :=
  locked (.remotes i) (if create then remoteNew i dead c w else [])

/-- gbinder_ipc_new, gbinder_ipc.c:1850-1899. The driver is opened under the lock. -/
def ipcNew (found : Bool) : List Act := locked .table (if found then [] else [.sys])

/-- One looper which is stopped, how it's joined. -/
structure Joining where
  x : Nat
  self : Bool
  stuck : Bool
deriving DecidableEq, Repr

/-- gbinder_ipc_looper_join, gbinder_ipc.c:968-1006, and gbinder_ipc_looper_unref (2095). -/
def looperJoin (i : Nat) (j : Joining) : List Act :=
  (if j.self then [] else
    if j.stuck then .pause :: (locked (.loopers i) [.sys] ++ [.join j.x]) else [.join j.x]) ++ [.drop j.x]

/-- gbinder_ipc_stop_loopers, gbinder_ipc.c:2070-2100. Each element of the list is one iteration, the last one finds no
loopers. -/
def stopLoopers (i : Nat) : List (List Joining) → List Act
  | [] => locked (.loopers i) []
  | js :: more => locked (.loopers i) (js.map fun j => .stop j.x) ++ js.flatMap (looperJoin i) ++ stopLoopers i more

/-- gbinder_ipc_dispose (gbinder_ipc.c:2102-2132), gbinder_ipc_finalize (2132-2155). `pool` are the threads of the pool
which haven't finished yet. -/
def ipcDispose (i : Nat) (js : List (List Joining)) (pool : List Nat) : List Act :=
  locked .table [] ++ stopLoopers i js ++ pool.map .join ++ [.sys]

/-- One GBinderIpc in gbinder_ipc_exit, gbinder_ipc.c:2190-2249: loopers, the pool, completions of transactions,
references held by the kernel. -/
def ipcExitOne (e : Nat × List (List Joining) × List Nat) : List Act :=
  stopLoopers e.1 e.2.1 ++ e.2.2.map .join ++ [.other] ++ localsOnly e.1 ++ [.other]

/-- gbinder_ipc_exit, gbinder_ipc.c:2171-2253. -/
def ipcExit (es : List (Nat × List (List Joining) × List Nat)) : List Act :=
  locked .table [] ++ es.flatMap ipcExitOne ++ [.other]

/-- gbinder_local_object_dispose and gbinder_local_object_finalize, gbinder_local_object.c:640-664. -/
def localGone (i : Nat) : List Act := localsOnly i ++ localsOnly i ++ [.other]

/-- gbinder_remote_object_dispose and gbinder_remote_object_finalize, gbinder_remote_object.c:275-305. -/
def remoteGone (i : Nat) : List Act := remotesOnly i ++ remotesOnly i ++ [.sys, .sys, .other]

/-- gbinder_remote_object_handle_death_on_main_thread and gbinder_remote_object_commit_suicide,
gbinder_remote_object.c:65-90 and 140-162. -/
def remoteDied (i : Nat) : List Act := .sys :: (remotesOnly i ++ [.sys, .other])

/-- gbinder_remote_object_reanimate, gbinder_remote_object.c:96-124: the ping is a transaction (`other`). -/
def reanimate (i : Nat) (alive : Bool) (c : Option Created) (w : Started) : List Act :=
  .other :: (if alive then looperCheck i c w ++ [.sys, .sys] else [])

/-- gbinder_remote_object_add_death_handler, gbinder_remote_object.c:236-248. -/
def addDeathHandler (i : Nat) (c : Option Created) (w : Started) : List Act := looperCheck i c w

/-- gbinder_servicemanager_new_with_type, gbinder_servicemanager.c:518-583. `first` means that there was no such manager,
in which case gbinder_client_new (gbinder_client.c:293-303) is called under the lock, it locks nothing. -/
def managerNew (k i : Nat) (found first alive : Bool) (c c' c'' : Option Created) (w w' w'' : Started) : List Act :=
  ipcNew found ++ getRemote i true true c w ++ locked (.manager k) [] ++
    (if first then addDeathHandler i c' w' ++ reanimate i alive c'' w'' else []) ++ [.other, .other]

/-- gbinder_servicemanager_dispose, gbinder_servicemanager.c:1070-1110, then the parent's dispose and finalize. -/
def managerGone (k : Nat) : List Act := locked (.manager k) [] ++ [.other]

/-- How gbinder_ipc_looper_transact goes: the handler is done with the request, the looper gets blocked, or it's stopped.
For a blocked looper: it's on the primary list or it isn't (stopped already). What it
waits for then is the completion of the request, `q`. -/
inductive Handled
  | done
  | blocked (q : Nat) (primary : Bool) (c : Option Created) (w : Started)
deriving DecidableEq, Repr

/-- gbinder_ipc_looper_transact, gbinder_ipc.c:656-767: the request is handled by the main thread, the looper `x` waits. -/
def looperTransact (i x r : Nat) : Handled → List Act
  | .done => [.ask r (some x), .other]
  | .blocked q p c w =>
    [.ask r (some x)] ++
      (match p, c with
        | true, some c => locked (.loopers i) (looperNew c) ++ looperWait w c
        | _, _ => locked (.loopers i) []) ++
      [.ask q (some x), .other] ++ (if p then locked (.loopers i) [] else [])

/-- gbinder_ipc_tx_handler_transact, gbinder_ipc.c:1062-1117: the same thing on a thread of the pool. Nobody ever writes
anything to `h->pipefd`. The second wait is there if the handler has blocked the request. -/
def poolTransact (r : Nat) : Handled → List Act
  | .done => [.ask r none, .other]
  | .blocked q _ _ _ => [.ask r none, .ask q none, .other]

/-- One thing which happens when the driver reads commands (gbinder_driver.c:541-1014): an ioctl, an object looked up or
created by the registry of objects, a reference released, and the request being handled. `looper` is the thread which
does it, `none` is a thread of the pool. -/
inductive Reading
  | sys
  | getLocal
  | getRemote (create : Bool) (c : Option Created) (w : Started)
  | other
  | request (r : Nat) (h : Handled)
deriving DecidableEq, Repr

/-- What's done for the looper's part of the above, see gbinder_ipc.c:1438-1456 and 656-769. -/
def looperReading (i x : Nat) : Reading → List Act
  | .sys => [.sys]
  | .getLocal => localsOnly i
  | .getRemote create c w => getRemote i create false c w
  | .other => [.other]
  | .request r h => looperTransact i x r h

/-- The same for a thread of the pool. -/
def poolReading (i : Nat) : Reading → List Act
  | .sys => [.sys]
  | .getLocal => localsOnly i
  | .getRemote create c w => getRemote i create false c w
  | .other => [.other]
  | .request r h => poolTransact r h

/-- The same for the main thread, gbinder_driver.c:754-795: without a GBinderHandler requests are handled in place. -/
def mainReading (i : Nat) : Reading → List Act
  | .sys => [.sys]
  | .getLocal => localsOnly i
  | .getRemote create c w => getRemote i create false c w
  | .other => [.other]
  | .request _ _ => [.other]

/-- gbinder_ipc_looper_thread, gbinder_ipc.c:769-855. `reads` is what has been read before the looper stops, `abandoned`
means that `looper->ipc` is NULL by then. If gbinder_driver_enter_looper fails, the thread ends right away. -/
def looperThread (i x : Nat) (entered : Bool) (reads : List Reading) (abandoned : Bool) : List Act :=
  locked (.looper x) [.sys] ++
    (if entered then
      .sys :: (reads.flatMap (looperReading i x) ++ [.sys] ++
        (if abandoned then [] else locked (.loopers i) [.drop x]))
    else []) ++ [.drop x]

/-- gbinder_ipc_tx_proc, gbinder_ipc.c:1706-1722, with gbinder_ipc_tx_internal_exec (1588-1603) or
gbinder_ipc_tx_custom_exec (`other`). -/
def txProc (i : Nat) (reads : List Reading) : List Act := reads.flatMap (poolReading i)

/-- Synchronous calls made by the main thread, gbinder_ipc.c:1772-1818. -/
def mainCall (i : Nat) (reads : List Reading) : List Act := reads.flatMap (mainReading i)

/-- Handling of a request by the main loop: gbinder_ipc_looper_tx_handle (gbinder_ipc.c:477-552) and
gbinder_remote_request_complete (gbinder_ipc.c:389-429). -/
def mainServe (r : Nat) : List Act := [.other, .answer r]

/-- All functions which have anything to do with locks. -/
inductive Fn : List Act → Prop
  | sys : Fn [.sys]
  | other : Fn [.other]
  | localsOnly (i) : Fn (localsOnly i)
  | remotesOnly (i) : Fn (remotesOnly i)
  | looperCheck (i c w) : Fn (looperCheck i c w)
  | registerLocal (i c w) : Fn (registerLocal i c w)
  | getRemote (i create dead c w) : Fn (getRemote i create dead c w)
  | ipcNew (found) : Fn (ipcNew found)
  | ipcDispose (i js pool) : Fn (ipcDispose i js pool)
  | ipcExit (es) : Fn (ipcExit es)
  | localGone (i) : Fn (localGone i)
  | remoteGone (i) : Fn (remoteGone i)
  | remoteDied (i) : Fn (remoteDied i)
  | reanimate (i alive c w) : Fn (reanimate i alive c w)
  | addDeathHandler (i c w) : Fn (addDeathHandler i c w)
  | managerNew (k i found first alive c c' c'' w w' w'') : Fn (managerNew k i found first alive c c' c'' w w' w'')
  | managerGone (k) : Fn (managerGone k)
  | looperThread (i x entered reads abandoned) : Fn (looperThread i x entered reads abandoned)
  | txProc (i reads) : Fn (txProc i reads)
  | mainCall (i reads) : Fn (mainCall i reads)
  | mainServe (r) : Fn (mainServe r)

/-- What a thread may do: call any functions one after another, and call them again where the application's code or
destructors get control. -/
inductive Prog : List Act → Prop
  | nil : Prog []
  | call {f r : List Act} : Fn f → Prog r → Prog (f ++ r)
  | inside {a b p : List Act} : Prog (a ++ .other :: b) → Prog p → Prog (a ++ .other :: (p ++ b))

/-- Threads and mutexes: who holds what, what the threads are still going to do, which loopers have been told to stop and
which requests have been responded to. -/
structure State where
  held : Lock → Option Nat := fun _ => none
  rest : Nat → List Act
  stopped : Nat → Bool := fun _ => false
  answered : Nat → Bool := fun _ => false

/-- The lock is taken or released. -/
def State.set (s : State) (l : Lock) (o : Option Nat) : State :=
  { s with held := fun k => if k = l then o else s.held k }

/-- The thread has done one thing. -/
def State.next (s : State) (t : Nat) (r : List Act) : State := { s with rest := upd s.rest t r }

/-- The next thing the thread does. Mutexes of GLib are not recursive, and those which aren't locked by the thread must
not be unlocked by it. -/
def step (s : State) (t : Nat) : Out State :=
  match s.rest t with
  | [] => .no
  | .lock l :: r =>
    match s.held l with
    | none => .ok ((s.set l (some t)).next t r)
    | some u => if u = t then .ub else .no
  | .unlock l :: r => if s.held l = some t then .ok ((s.set l none).next t r) else .ub
  | .join u :: r => if s.rest u = [] then .ok (s.next t r) else .no
  | .joinUnset :: _ => .ub
  | .stop x :: r => .ok ({ s with stopped := upd s.stopped x true }.next t r)
  | .ask q w :: r => if s.answered q = true ∨ w.any s.stopped = true then .ok (s.next t r) else .no
  | .answer q :: r => .ok ({ s with answered := upd s.answered q true }.next t r)
  | .sys :: r => .ok (s.next t r)
  | .pause :: r => .ok (s.next t r)
  | .other :: r => .ok (s.next t r)
  | .drop _ :: r => .ok (s.next t r)

end Gb.Locks
