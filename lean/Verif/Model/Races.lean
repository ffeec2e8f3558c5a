import Verif.Model.Locks
/-
The same functions as in Model/Locks, this time with the shared variables which they read and write. What's stored in the
variables doesn't matter here.
-/
set_option autoImplicit false

namespace Gb.Races

open Gb.Locks (Lock Created Started Joining Handled Reading)

/-- What is shared by threads:
* `ipcs`: gbinder_ipc.c:93 (`gbinder_ipc_table`);
* `managers k`: gbinder_servicemanager_p.h:58-59 (`table` of GBinderServiceManagerClass);
* `locals i`, `remotes i`: gbinder_ipc.c:75, 72 (`local_objects`, `remote_objects`);
* `loopers i`: gbinder_ipc.c:78-79 (`primary_loopers`, `blocked_loopers`);
* `next i`: gbinder_ipc.c:157 (`next` of all loopers of this GBinderIpc);
* `dead i`: gbinder_remote_object_p.h:48 (`dead` of all remote objects of this GBinderIpc);
* `fd i`: gbinder_driver.c:80 (`fd`);
* `protocols`: gbinder_rpc_protocol.c:68, 76 (`gbinder_rpc_protocol_map`, `gbinder_rpc_protocol_default`);
* `types`: gbinder_servicemanager.c:92-93 (`gbinder_servicemanager_map`, `gbinder_servicemanager_default`);
* `config`: gbinder_config.c:50-51 (`gbinder_config_keyfile`, `gbinder_config_autorelease`).
Left out: reference counters, `started` and `exit` of GBinderIpcLooper (those are atomic), `ipc` and `joined` of loopers
(written when the thread has been joined or by the thread itself), `tx_table`, `tx_pool` and local objects' counters of
references (main thread only). -/
inductive Var
  | ipcs
  | managers (k : Nat)
  | locals (i : Nat)
  | remotes (i : Nat)
  | loopers (i : Nat)
  | next (i : Nat)
  | dead (i : Nat)
  | fd (i : Nat)
  | protocols
  | types
  | config
deriving DecidableEq, Repr

/-- What a thread does: something from Model/Locks, or access to a variable. -/
inductive Act
  | act (a : Locks.Act)
  | use (v : Var) (write : Bool)
deriving DecidableEq, Repr

/-- Under the lock. -/
def locked (l : Lock) (body : List Act) : List Act := .act (.lock l) :: (body ++ [.act (.unlock l)])

/-- Kernel call of the driver, gbinder_driver.c:229-250, 263-300 (`self->fd`) or poll, 970-985. -/
def ioctl (i : Nat) : List Act := [.use (.fd i) false, .act .sys]

/-- gbinder_ipc_looper_new, gbinder_ipc.c:857-900. `Locks.looperNew` has the same. The looper isn't known to anyone yet, except
for its own thread. -/
def looperNew (c : Created) : List Act := (Locks.looperNew c).map .act

/-- gbinder_ipc_looper_start and the rest of what's done with the new looper, gbinder_ipc.c:562-579, 715-719 and 921-924. -/
def looperWait (w : Started) (c : Created) : List Act := (Locks.looperWait w c).map .act

/-- gbinder_ipc_looper_check, gbinder_ipc.c:904-927. -/
def looperCheck (i : Nat) (c : Option Created) (w : Started) : List Act :=
  match c with
  | none => locked (.loopers i) [.use (.loopers i) false]
  | some c => locked (.loopers i) (.use (.loopers i) false :: (looperNew c ++ [.use (.loopers i) true])) ++ looperWait w c

/-- gbinder_ipc_priv_get_local_object (gbinder_ipc.c:1284-1307), gbinder_ipc_find_local_object (1360-1390) and the part of
gbinder_ipc_exit where objects are collected (2227-2236). -/
def readLocals (i : Nat) : List Act := locked (.locals i) [.use (.locals i) false]

/-- gbinder_ipc_invalidate_local_object (gbinder_ipc.c:1124-1141, 1165-1177), gbinder_ipc_local_object_disposed (1212-1226)
and the first part of gbinder_ipc_register_local_object (1274-1282). -/
def changeLocals (i : Nat) : List Act := locked (.locals i) [.use (.locals i) false, .use (.locals i) true]

/-- gbinder_ipc_invalidate_remote_handle (gbinder_ipc.c:1143-1163, 1179-1191) and gbinder_ipc_remote_object_disposed
(1228-1265). -/
def changeRemotes (i : Nat) : List Act := locked (.remotes i) [.use (.remotes i) false, .use (.remotes i) true]

/-- gbinder_ipc_register_local_object, gbinder_ipc.c:1268-1287. -/
def registerLocal (i : Nat) (c : Option Created) (w : Started) : List Act := changeLocals i ++ looperCheck i c w

/-- gbinder_remote_object_new, gbinder_remote_object.c:167-199. `dead` is not shared yet. -/
def remoteNew (i : Nat) (dead : Bool) (c : Option Created) (w : Started) : List Act :=
  if dead then [] else looperCheck i c w ++ ioctl i ++ ioctl i

/-- gbinder_ipc_priv_get_remote_object, gbinder_ipc.c:1309-1357. -/
def getRemote (i : Nat) (create dead : Bool) (c : Option Created) (w : Started) : List Act :=
  locked (.remotes i) (.use (.remotes i) false ::
    (if create then remoteNew i dead c w ++ [.use (.remotes i) true] else []))

/-- What the file with the configuration has been needed for so far: there's none, it has been loaded, it gets loaded now. -/
inductive Loaded
  | none
  | before
  | now
deriving DecidableEq, Repr

/-- gbinder_config_get, gbinder_config.c:347-361. -/
def configGet : Loaded → List Act
  | .none => [.use .config false]
  | .before => [.use .config false]
  | .now => [.use .config false, .use .config true]

/-- gbinder_config_autorelease_cb, gbinder_config.c:338-345. -/
def configForget : List Act := [.use .config true]

/-- gbinder_rpc_protocol_for_device, gbinder_rpc_protocol.c:362-395. -/
def protocolFor : Option Loaded → List Act
  | none => [.use .protocols false]
  | some c => .use .protocols false :: (configGet c ++ [.use .protocols true, .use .protocols false])

/-- gbinder_ipc_new, gbinder_ipc.c:1850-1899. `named` means that the protocol is given by its name. The new driver isn't known to
anyone yet. -/
def ipcNew (named : Bool) (p : Option Loaded) (found : Bool) : List Act :=
  (if named then [] else protocolFor p) ++
    locked .table (.use .ipcs false :: (if found then [] else [.act .sys, .use .ipcs true]))

/-- gbinder_ipc_looper_join, gbinder_ipc.c:968-1006, and gbinder_ipc_looper_unref (2095). If the looper doesn't stop, the
driver is closed (gbinder_driver.c:947-960). -/
def looperJoin (i : Nat) (j : Joining) : List Act :=
  (if j.self then [] else
    if j.stuck then .act .pause :: (locked (.loopers i) [.use (.fd i) true, .act .sys] ++ [.act (.join j.x)])
    else [.act (.join j.x)]) ++ [.act (.drop j.x)]

/-- gbinder_ipc_stop_loopers, gbinder_ipc.c:2070-2100: the loopers are taken from the lists under the lock, and their `next`
fields are used again without it. -/
def stopLoopers (i : Nat) : List (List Joining) → List Act
  | [] => locked (.loopers i) [.use (.loopers i) false, .use (.loopers i) true]
  | js :: more =>
    locked (.loopers i) (.use (.loopers i) false ::
      (js.flatMap (fun j => [.act (.stop j.x), .use (.next i) true]) ++ [.use (.loopers i) true])) ++
      js.flatMap (fun j => .use (.next i) true :: looperJoin i j) ++ stopLoopers i more

/-- gbinder_ipc_dispose (gbinder_ipc.c:2102-2132), gbinder_ipc_finalize (2132-2155). -/
def ipcDispose (i : Nat) (js : List (List Joining)) (pool : List Nat) : List Act :=
  locked .table [.use .ipcs false, .use .ipcs true] ++ stopLoopers i js ++ pool.map (fun u => .act (.join u)) ++
    [.use (.fd i) true, .act .sys]

/-- One GBinderIpc in gbinder_ipc_exit, gbinder_ipc.c:2190-2249. -/
def ipcExitOne (e : Nat × List (List Joining) × List Nat) : List Act :=
  stopLoopers e.1 e.2.1 ++ e.2.2.map (fun u => .act (.join u)) ++ [.act .other] ++ readLocals e.1 ++ [.act .other]

/-- gbinder_ipc_exit, gbinder_ipc.c:2171-2253. -/
def ipcExit (es : List (Nat × List (List Joining) × List Nat)) : List Act :=
  locked .table [.use .ipcs false] ++ es.flatMap ipcExitOne ++ [.act .other]

/-- gbinder_local_object_dispose and gbinder_local_object_finalize, gbinder_local_object.c:640-664. -/
def localGone (i : Nat) : List Act := changeLocals i ++ changeLocals i ++ [.act .other]

/-- gbinder_remote_object_dispose and gbinder_remote_object_finalize, gbinder_remote_object.c:275-305. -/
def remoteGone (i : Nat) : List Act :=
  changeRemotes i ++ changeRemotes i ++ [.use (.dead i) false] ++ ioctl i ++ ioctl i ++ [.act .other]

/-- gbinder_remote_object_handle_death_on_main_thread and gbinder_remote_object_commit_suicide,
gbinder_remote_object.c:65-90 and 140-162. -/
def remoteDied (i : Nat) : List Act :=
  [.use (.dead i) false, .use (.dead i) true] ++ ioctl i ++ changeRemotes i ++ ioctl i ++ [.act .other]

/-- gbinder_remote_object_reanimate, gbinder_remote_object.c:96-124. -/
def reanimate (i : Nat) (alive : Bool) (c : Option Created) (w : Started) : List Act :=
  .use (.dead i) false :: .act .other ::
    (if alive then .use (.dead i) true :: (looperCheck i c w ++ ioctl i ++ ioctl i) else [])

/-- gbinder_remote_object_add_death_handler, gbinder_remote_object.c:236-248. -/
def addDeathHandler (i : Nat) (c : Option Created) (w : Started) : List Act := looperCheck i c w

/-- gbinder_servicemanager_new2, gbinder_servicemanager.c:626-671: the table of types is made when it's first needed, unless
`named`. -/
def typeFor (named : Bool) (p : Option Loaded) : List Act :=
  if named then [] else
    match p with
    | none => [.use .types false]
    | some c => .use .types false :: (configGet c ++ [.use .types true, .use .types false])

/-- gbinder_servicemanager_new_with_type, gbinder_servicemanager.c:518-583. -/
def managerNew (k i : Nat) (named : Bool) (p : Option Loaded) (found first alive : Bool) (c c' c'' : Option Created)
    (w w' w'' : Started) : List Act :=
  ipcNew named p found ++ getRemote i true true c w ++
    locked (.manager k) (.use (.managers k) false :: (if first then [.use (.managers k) true] else [])) ++
    (if first then addDeathHandler i c' w' ++ reanimate i alive c'' w'' else []) ++ [.act .other, .act .other]

/-- gbinder_servicemanager_dispose, gbinder_servicemanager.c:1070-1110. -/
def managerGone (k : Nat) : List Act :=
  locked (.manager k) [.use (.managers k) false, .use (.managers k) true] ++ [.act .other]

/-- gbinder_ipc_looper_transact, gbinder_ipc.c:656-767. A looper which was blocked puts itself back to the list
(745-763). -/
def looperTransact (i x r : Nat) : Handled → List Act
  | .done => [.act (.ask r (some x)), .act .other]
  | .blocked q p c w =>
    [.act (.ask r (some x))] ++
      (match p, c with
        | true, some c =>
          locked (.loopers i) ([.use (.loopers i) false, .use (.next i) true, .use (.loopers i) true] ++ looperNew c ++
            [.use (.loopers i) true]) ++ looperWait w c
        | true, none =>
          locked (.loopers i) [.use (.loopers i) false, .use (.next i) true, .use (.loopers i) true]
        | false, _ => locked (.loopers i) [.use (.loopers i) false, .use (.next i) false]) ++
      [.act (.ask q (some x)), .act .other] ++
      (if p then locked (.loopers i) [.use (.loopers i) false, .use (.next i) true, .use (.loopers i) true] else [])

/-- gbinder_ipc_tx_handler_transact, gbinder_ipc.c:1062-1117. -/
def poolTransact (r : Nat) (h : Handled) : List Act := (Locks.poolTransact r h).map .act

/-- What happens when the driver reads commands (gbinder_driver.c:541-1014) on a looper's thread. -/
def looperReading (i x : Nat) : Reading → List Act
  | .sys => ioctl i
  | .getLocal => readLocals i
  | .getRemote create c w => getRemote i create false c w
  | .other => [.act .other]
  | .request r h => looperTransact i x r h

/-- The same on a thread of the pool, gbinder_driver.c:541-1014. -/
def poolReading (i : Nat) : Reading → List Act
  | .sys => ioctl i
  | .getLocal => readLocals i
  | .getRemote create c w => getRemote i create false c w
  | .other => [.act .other]
  | .request r h => poolTransact r h

/-- The same on the main thread, gbinder_driver.c:541-1014. -/
def mainReading (i : Nat) : Reading → List Act
  | .sys => ioctl i
  | .getLocal => readLocals i
  | .getRemote create c w => getRemote i create false c w
  | .other => [.act .other]
  | .request _ _ => [.act .other]

/-- gbinder_ipc_looper_thread, gbinder_ipc.c:769-855. -/
def looperThread (i x : Nat) (entered : Bool) (reads : List Reading) (abandoned : Bool) : List Act :=
  locked (.looper x) (ioctl i) ++
    (if entered then
      ioctl i ++ (reads.flatMap (looperReading i x) ++ ioctl i ++
        (if abandoned then [] else
          locked (.loopers i) [.use (.loopers i) false, .use (.next i) true, .use (.loopers i) true, .act (.drop x)]))
    else []) ++ [.act (.drop x)]

/-- gbinder_ipc_tx_proc, gbinder_ipc.c:1706-1722, with gbinder_ipc_tx_internal_exec (1588-1603). -/
def txProc (i : Nat) (reads : List Reading) : List Act := reads.flatMap (poolReading i)

/-- gbinder_client_transact_sync_reply2 and gbinder_client_transact_sync_oneway2 (gbinder_client.c:185-250) on any thread other
than the main one, gbinder_ipc.c:1728-1789. -/
def workerCall (i : Nat) (reads : List Reading) : List Act := .use (.dead i) false :: txProc i reads

/-- The same on the main thread, gbinder_ipc.c:1795-1838. -/
def mainCall (i : Nat) (reads : List Reading) : List Act := .use (.dead i) false :: reads.flatMap (mainReading i)

/-- Handling of a request by the main loop: gbinder_ipc_looper_tx_handle (gbinder_ipc.c:477-552) and
gbinder_remote_request_complete (gbinder_ipc.c:389-429). -/
def mainServe (r : Nat) : List Act := [.act .other, .act (.answer r)]

/-- All functions which have anything to do with the variables or locks, gbinder_ipc.c, gbinder_remote_object.c,
gbinder_servicemanager.c, gbinder_config.c. -/
inductive Fn : List Act → Prop
  | ioctl (i) : Fn (ioctl i)
  | other : Fn [.act .other]
  | readLocals (i) : Fn (readLocals i)
  | changeLocals (i) : Fn (changeLocals i)
  | changeRemotes (i) : Fn (changeRemotes i)
  | looperCheck (i c w) : Fn (looperCheck i c w)
  | registerLocal (i c w) : Fn (registerLocal i c w)
  | getRemote (i create dead c w) : Fn (getRemote i create dead c w)
  | configForget : Fn configForget
  | typeFor (named p) : Fn (typeFor named p)
  | ipcNew (named p found) : Fn (ipcNew named p found)
  | ipcDispose (i js pool) : Fn (ipcDispose i js pool)
  | ipcExit (es) : Fn (ipcExit es)
  | localGone (i) : Fn (localGone i)
  | remoteGone (i) : Fn (remoteGone i)
  | remoteDied (i) : Fn (remoteDied i)
  | reanimate (i alive c w) : Fn (reanimate i alive c w)
  | addDeathHandler (i c w) : Fn (addDeathHandler i c w)
  | managerNew (k i named p found first alive c c' c'' w w' w'') :
      Fn (managerNew k i named p found first alive c c' c'' w w' w'')
  | managerGone (k) : Fn (managerGone k)
  | looperThread (i x entered reads abandoned) : Fn (looperThread i x entered reads abandoned)
  | txProc (i reads) : Fn (txProc i reads)
  | workerCall (i reads) : Fn (workerCall i reads)
  | mainCall (i reads) : Fn (mainCall i reads)
  | mainServe (r) : Fn (mainServe r)

/-- What a thread may do, the same as `Locks.Prog`. -/
inductive Prog : List Act → Prop
  | nil : Prog []
  | call {f r : List Act} : Fn f → Prog r → Prog (f ++ r)
  | inside {a b p : List Act} : Prog (a ++ .act .other :: b) → Prog p → Prog (a ++ .act .other :: (p ++ b))

/-- What has happened, which thread has done it. -/
inductive Ev
  | locked (t : Nat) (l : Lock)
  | unlocked (t : Nat) (l : Lock)
  | used (t : Nat) (v : Var) (write : Bool)
deriving DecidableEq, Repr

/-- `Locks.State` with the log of what has happened, the oldest event is the first one. -/
structure State where
  held : Lock → Option Nat := fun _ => none
  rest : Nat → List Act
  stopped : Nat → Bool := fun _ => false
  answered : Nat → Bool := fun _ => false
  log : List Ev := []

/-- The lock is taken or released. -/
def State.set (s : State) (l : Lock) (o : Option Nat) : State :=
  { s with held := fun k => if k = l then o else s.held k }

/-- The thread has done one thing. -/
def State.next (s : State) (t : Nat) (r : List Act) : State := { s with rest := upd s.rest t r }

/-- It goes to the log. -/
def State.see (s : State) (e : Ev) : State := { s with log := s.log ++ [e] }

/-- The next thing the thread does, see `Locks.step`. -/
def step (s : State) (t : Nat) : Out State :=
  match s.rest t with
  | [] => .no
  | .use v w :: r => .ok ((s.see (.used t v w)).next t r)
  | .act (.lock l) :: r =>
    match s.held l with
    | none => .ok (((s.set l (some t)).see (.locked t l)).next t r)
    | some u => if u = t then .ub else .no
  | .act (.unlock l) :: r =>
    if s.held l = some t then .ok (((s.set l none).see (.unlocked t l)).next t r) else .ub
  | .act (.join u) :: r => if s.rest u = [] then .ok (s.next t r) else .no
  | .act .joinUnset :: _ => .ub
  | .act (.stop x) :: r => .ok ({ s with stopped := upd s.stopped x true }.next t r)
  | .act (.ask q w) :: r => if s.answered q = true ∨ w.any s.stopped = true then .ok (s.next t r) else .no
  | .act (.answer q) :: r => .ok ({ s with answered := upd s.answered q true }.next t r)
  | .act .sys :: r => .ok (s.next t r)
  | .act .pause :: r => .ok (s.next t r)
  | .act .other :: r => .ok (s.next t r)
  | .act (.drop _) :: r => .ok (s.next t r)

end Gb.Races
