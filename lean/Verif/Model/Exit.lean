import Verif.Basic.Lts
/-
src/gbinder_ipc.c: gbinder_ipc_exit, which runs when the process exits.

It's called on the main thread, possibly from a callback (if that's where exit() is called), and
it calls the destroy callbacks, which may do anything. What has been interrupted by exit() never
resumes. Those who look at the transactions and the objects meanwhile are the threads of the pool;
the loopers have been stopped (see C73).

The identifier of a transaction is its number: those of the live transactions are different (see
C26). Memory isn't reused.
-/
set_option autoImplicit false

namespace Gb.Exit

/-- Where a transaction is: the pool has it (gbinder_ipc.c:1984-1985), its completion is scheduled
(1720), gbinder_ipc_tx_done is running (1505-1516), or there was no pool to push it to: then
g_thread_pool_push(NULL) complains and returns. -/
inductive Stage
  | pool
  | posted
  | completing
  | lost
  deriving DecidableEq, Repr

/-- gbinder_ipc.c:175-188 `GBinderIpcTxPriv`: GBinderIpc it belongs to, and the above. -/
structure Tx where
  ipc : Nat
  stage : Stage
  deriving DecidableEq, Repr

/-- A local object: gbinder_local_object_p.h:54-63 and GObject. `user` is how many of `refs` are
references held by anyone other than the object itself and gbinder_ipc_exit. -/
structure Obj where
  ipc : Nat
  refs : Nat := 1
  strong : Nat := 0
  user : Nat := 1
  deriving DecidableEq, Repr

/-- What happens (gbinder_ipc.c:1487-1516, 1966-2012, 2171-2255). -/
inductive Ev
  | submit (p i : Nat)
  /-- The completion callback is called. -/
  | done (p : Nat)
  /-- The destroy callback is called. -/
  | destroy (p : Nat)
  /-- A local object has been freed. -/
  | freed (o : Nat)
  | exit
  | exited
  deriving DecidableEq, Repr

/-- Where gbinder_ipc_exit is (gbinder_ipc.c:2171-2255). -/
inductive Pc
  | off
  /-- The loop, the rest of `ipcs` -/
  | next (todo : List Nat)
  /-- g_thread_pool_free -/
  | pool (i : Nat) (todo : List Nat)
  /-- The loop, the rest of `tx_keys` -/
  | cancel (i : Nat) (keys todo : List Nat)
  /-- The loop, the rest of `local_objs` and all of it -/
  | drop (objs all todo : List Nat)
  /-- g_slist_free_full(local_objs) -/
  | put (objs todo : List Nat)
  | done
  deriving DecidableEq, Repr

/-- gbinder_ipc.c:62-80 GBinderIpcPriv of all the instances: tx_pool, tx_table, local_objects; and
where the main thread is. -/
structure State where
  /-- gbinder_ipc_table -/
  ipcs : List Nat := []
  /-- priv->tx_pool isn't NULL -/
  hasPool : Nat → Bool := fun _ => true
  /-- The number of transactions so far. -/
  calls : Nat := 0
  txs : Nat → Option Tx := fun _ => none
  /-- The number of local objects so far. -/
  made : Nat := 0
  objs : Nat → Option Obj := fun _ => none
  pc : Pc := .off
  /-- A destroy callback called by gbinder_ipc_exit is running. -/
  callback : Bool := false
  log : List Ev := []

/-- What happens next, see `step` (gbinder_ipc.c:1487-1516, 1706-1722, 1966-2012, 2171-2255). -/
inductive Label
  | open (i : Nat)
  | submit (i : Nat)
  | finish (p : Nat)
  | complete (p : Nat)
  | destroy (p : Nat)
  | newObj (i : Nat)
  | ref (o : Nat)
  | unref (o : Nat)
  | acquire (o : Nat)
  | release (o : Nat)
  | exit (ipcs : List Nat)
  | next
  | wait (keys : List Nat)
  | cancel
  | ret
  | objects (objs : List Nat)
  | drop
  | put
  deriving DecidableEq, Repr

/-- Keys of priv->tx_table (gbinder_ipc.c:65, 1984, 1498). -/
def State.table (s : State) (i : Nat) : List Nat :=
  (List.range s.calls).filter fun p => (s.txs p).map (·.ipc) = some i

/-- The pool still has something to do (gbinder_ipc.c:2207, g_thread_pool_free waits for that). -/
def State.busy (s : State) (i : Nat) : Bool :=
  (List.range s.calls).any fun p => s.txs p = some ⟨i, .pool⟩

/-- priv->local_objects (gbinder_ipc.c:75, 1268-1288). -/
def State.locals (s : State) (i : Nat) : List Nat :=
  (List.range s.made).filter fun o => (s.objs o).map (·.ipc) = some i

/-- Adds to the log; no code in gbinder_ipc.c:2171-2255 corresponds to it. -/
def State.add (s : State) (e : Ev) : State := { s with log := s.log ++ [e] }

/-- The application runs on the main thread: that's before gbinder_ipc_exit is called, or in one of
the callbacks that it calls (gbinder_ipc.c:2223). -/
def State.app (s : State) : Prop := s.pc = .off ∨ s.callback = true

instance (s : State) : Decidable s.app := inferInstanceAs (Decidable (_ ∨ _))

/-- g_object_ref, undefined if the object has been freed (called at gbinder_ipc.c:2236). -/
def addRef (s : State) (o : Nat) (user strong : Nat) : Out State :=
  match s.objs o with
  | some x => .ok { s with objs := upd s.objs o (some
      { x with refs := x.refs + 1, user := x.user + user, strong := x.strong + strong }) }
  | none => .ub

/-- g_object_unref (called at gbinder_ipc.c:2248, 2251): the last one frees the object. -/
def unref (s : State) (o : Nat) (user strong : Nat) : Out State :=
  match s.objs o with
  | some x =>
    if x.refs ≤ 1 then .ok ({ s with objs := upd s.objs o none }.add (.freed o))
    else .ok { s with objs := upd s.objs o (some
      { x with refs := x.refs - 1, user := x.user - user, strong := x.strong - strong }) }
  | none => .ub

/-- References taken by gbinder_ipc_exit (gbinder_ipc.c:2232-2237). -/
def refAll : List Nat → State → Out State
  | [], s => .ok s
  | o :: l, s => (addRef s o 0 0).andThen (refAll l)

/-- gbinder_ipc.c:1487-1516, 1706-1722, 1966-2012, 2171-2255, each step has its own lines below. -/
def step (s : State) : Label → Out State
  -- gbinder_ipc_new (gbinder_ipc.c:1793-1851), there's none for this device yet
  | .open i => if s.app ∧ i ∉ s.ipcs then .ok { s with ipcs := i :: s.ipcs } else .no
  -- gbinder_ipc_transact (1966-1990), gbinder_ipc_transact_custom (1992-2012)
  | .submit i =>
    if s.app ∧ i ∈ s.ipcs then
      .ok ({ s with
        calls := s.calls + 1
        txs := upd s.txs s.calls (some ⟨i, if s.hasPool i then .pool else .lost⟩) }.add
          (.submit s.calls i))
    else .no
  -- gbinder_ipc_tx_proc (1705-1722), any thread of the pool
  | .finish p =>
    match s.txs p with
    | some ⟨i, .pool⟩ => .ok { s with txs := upd s.txs p (some ⟨i, .posted⟩) }
    | _ => .no
  -- gbinder_ipc_tx_done (1505-1516), the event loop runs
  | .complete p =>
    match s.txs p with
    | some ⟨i, .posted⟩ =>
      if s.app then .ok ({ s with txs := upd s.txs p (some ⟨i, .completing⟩) }.add (.done p)) else .no
    | _ => .no
  -- gbinder_ipc_tx_free (1487-1503), when it has returned
  | .destroy p =>
    match s.txs p with
    | some ⟨_, .completing⟩ =>
      if s.app then .ok ({ s with txs := upd s.txs p none }.add (.destroy p)) else .no
    | _ => .no
  -- gbinder_local_object_new (gbinder_local_object.c:385-411)
  | .newObj i =>
    if s.app ∧ i ∈ s.ipcs then
      .ok { s with made := s.made + 1, objs := upd s.objs s.made (some { ipc := i }) }
    else .no
  -- gbinder_local_object_ref, by someone who has a reference
  | .ref o =>
    match s.objs o with
    | some x => if s.app ∧ 0 < x.user then addRef s o 1 0 else .no
    | none => .no
  -- gbinder_local_object_unref, by someone who has a reference
  | .unref o =>
    match s.objs o with
    | some x => if s.app ∧ 0 < x.user then unref s o 1 0 else .no
    | none => .no
  -- gbinder_local_object_default_acquire (gbinder_local_object.c:318-328), the event loop runs
  | .acquire o =>
    match s.objs o with
    | some _ => if s.app then addRef s o 0 1 else .no
    | none => .no
  -- gbinder_local_object_default_release (gbinder_local_object.c:355-368), the event loop runs
  | .release o =>
    match s.objs o with
    | some x => if s.app ∧ 0 < x.strong then unref s o 0 1 else .no
    | none => .no
  -- 2179-2188, in the order of the hash table
  | .exit l => if s.pc = .off ∧ l.isPerm s.ipcs then .ok ({ s with pc := .next l }.add .exit) else .no
  -- 2190-2206, or 2253-2254
  | .next =>
    match s.pc with
    | .next [] => .ok ({ s with pc := .done }.add .exited)
    | .next (i :: todo) => .ok { s with pc := .pool i todo, hasPool := upd s.hasPool i false }
    | _ => .no
  -- 2207-2218, in the order of the hash table
  | .wait keys =>
    match s.pc with
    | .pool i todo =>
      if s.busy i = false ∧ keys.isPerm (s.table i) then .ok { s with pc := .cancel i keys todo } else .no
    | _ => .no
  -- 2219-2224. The source may be one which is being dispatched (then GLib calls gbinder_ipc_tx_free
  -- after that), or one which has never been scheduled (then it doesn't).
  | .cancel =>
    match s.pc with
    | .cancel i (p :: keys) todo =>
      if s.callback then .no
      else
        match s.txs p with
        | some ⟨_, .posted⟩ =>
          .ok ({ s with txs := upd s.txs p none, pc := .cancel i keys todo, callback := true }.add (.destroy p))
        | some _ => .ok { s with pc := .cancel i keys todo }
        | none => .ub
    | _ => .no
  -- The destroy callback returns
  | .ret => if s.callback then .ok { s with callback := false } else .no
  -- 2230-2239, in the order of the hash table
  | .objects l =>
    match s.pc with
    | .cancel i [] todo =>
      if s.callback = false ∧ l.isPerm (s.locals i) then refAll l { s with pc := .drop l l todo } else .no
    | _ => .no
  -- 2242-2250
  | .drop =>
    match s.pc with
    | .drop [] all todo => .ok { s with pc := .put all todo }
    | .drop (o :: objs) all todo =>
      match s.objs o with
      | some x => if 0 < x.strong then unref s o 0 1 else .ok { s with pc := .drop objs all todo }
      | none => .ub
    | _ => .no
  -- 2251
  | .put =>
    match s.pc with
    | .put [] todo => .ok { s with pc := .next todo }
    | .put (o :: objs) todo => unref { s with pc := .put objs todo } o 0 0
    | _ => .no

end Gb.Exit
