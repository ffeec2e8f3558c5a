import Verif.Model.Async
/-
src/gbinder_client.c: GBinderClient objects, asynchronous calls which are made with them, and what those keep alive.

All clients use the same GBinderIpc, whose transactions are described by `Async`. Here is what they have: requests, replies and
the data of the application, i.e. GBinderIpcTxInternal from src/gbinder_ipc.c and GBinderClientTx from src/gbinder_client.c.

Objects are numbered and the numbers aren't reused. What's in the requests and replies doesn't matter here, and what the
remote side does is up to it. Callbacks may do anything that the application can do on the main thread, i.e. any steps can be
made after `done` and `free`.
-/
set_option autoImplicit false

namespace Gb.ClientCalls

/-- Those which have reference counts: GBinderClient, GBinderRemoteObject, GBinderLocalRequest, GBinderRemoteReply (gbinder_client.c:48-67,
gbinder_ipc.c:193-203). -/
inductive Obj
  | client (i : Nat)
  | remote (i : Nat)
  | request (i : Nat)
  | reply (i : Nat)
  deriving DecidableEq, Repr

/-- The number (there's no such thing in gbinder_client.c:48-67, where those are pointers). -/
def Obj.no : Obj → Nat
  | .client i | .remote i | .request i | .reply i => i

/-- Assignment to one of them (gbinder_client.c:267, 313, 326: the reference count is in the object). -/
def set (f : Obj → Nat) (o : Obj) (v : Nat) : Obj → Nat := fun x => if x = o then v else f x

/-- gbinder_client.c:48-60 GBinderClientPriv, GBinderClientIfaceRange: the remote object, last_code and basic_req of each range. -/
structure Client where
  remote : Nat
  ranges : List (Nat × Nat)
  deriving DecidableEq, Repr

/-- gbinder_client.c:130-150: the references which the client has. -/
def Client.holds (c : Client) : List Obj := c.ranges.map (fun r => .request r.2) ++ [.remote c.remote]

/-- gbinder_client.c:427-434, the arguments of `gbinder_client_transact`: `reply` and `destroy` may be NULL. -/
structure Args where
  code : Nat
  oneway : Bool
  reply : Bool
  destroy : Bool
  data : Nat
  deriving DecidableEq, Repr

/-- gbinder_client.c:62-67 GBinderClientTx and gbinder_ipc.c:193-203 GBinderIpcTxInternal. `over`: gbinder_ipc.c:1567-1570, the request
and the reply have been released and gbinder_client_transact_destroy is running. -/
structure Call where
  client : Nat
  handle : Nat
  req : Nat
  args : Args
  reply : Option Nat := none
  status : Int := 0
  over : Bool := false
  deriving DecidableEq, Repr

/-- The references of the transaction which gbinder_ipc.c:1561-1562 drops. -/
def Call.inner (c : Call) : List Obj := .request c.req :: c.reply.toList.map .reply

/-- gbinder_client.c:63, gbinder_ipc.c:199-200: the references which the transaction has. -/
def Call.holds (c : Call) : List Obj := (if c.over then [] else c.inner) ++ [.client c.client]

/-- What's observable of gbinder_client.c:256-330, 427-477. -/
inductive Ev
  | made (o : Obj)
  | freed (o : Obj)
  /-- the application has got a reference -/
  | ref (o : Obj)
  /-- the application has dropped a reference -/
  | unref (o : Obj)
  | died (r : Nat)
  /-- zero has been returned -/
  | refused
  | called (p client handle req : Nat) (a : Args)
  /-- the transaction has been performed by the driver -/
  | performed (p handle code : Nat) (oneway : Bool) (req : Nat) (reply : Option Nat) (status : Int)
  | cancelled (p : Nat)
  /-- `reply` has been called -/
  | told (p client : Nat) (reply : Option Nat) (status : Int) (data : Nat)
  /-- the request and the reply have been released, `destroy` has been called with this unless it's NULL -/
  | destroyed (p : Nat) (data : Option Nat)
  /-- nothing is left of the call -/
  | over (p : Nat)
  deriving DecidableEq, Repr

/-- The state: gbinder_client.c:48-67 and gbinder_ipc.c:193-203, reference counts, references which belong to the application. -/
structure State where
  tx : Async.State := {}
  clients : Nat → Option Client := fun _ => none
  calls : Nat → Option Call := fun _ => none
  handle : Nat → Nat := fun _ => 0
  dead : Nat → Bool := fun _ => false
  refs : Obj → Nat := fun _ => 0
  app : Obj → Nat := fun _ => 0
  next : Nat := 0
  log : List Ev := []

/-- Adds to the log; no code in gbinder_client.c:256-477 corresponds to it. -/
def State.see (s : State) (e : List Ev) : State := { s with log := s.log ++ e }

/-- A new object with one reference (gbinder_client.c:262-267, 284, gbinder_ipc.c:1746). -/
def State.make (s : State) (o : Obj) : State := { s with refs := set s.refs o 1, next := s.next + 1 }.see [.made o]

/-- gbinder_client_ref, gbinder_remote_object_ref, gbinder_local_request_ref (gbinder_client.c:268, 305-316, 452, gbinder_ipc.c:1628). -/
def State.take (s : State) (o : Obj) : Out State :=
  if s.refs o = 0 then .ub else .ok { s with refs := set s.refs o (s.refs o + 1) }

/-- gbinder_local_request_unref, gbinder_remote_reply_unref, gbinder_remote_object_unref (gbinder_client.c:141, 148, gbinder_ipc.c:1561-1562),
and the part of gbinder_client_unref which is the same (gbinder_client.c:318-330). -/
def State.drop (s : State) (o : Obj) : Out State :=
  if s.refs o = 0 then .ub
  else if s.refs o = 1 then .ok ({ s with refs := set s.refs o 0 }.see [.freed o])
  else .ok { s with refs := set s.refs o (s.refs o - 1) }

/-- One after another (gbinder_client.c:139-148). -/
def State.dropAll (s : State) : List Obj → Out State
  | [] => .ok s
  | o :: l => (s.drop o).andThen fun s => s.dropAll l

/-- gbinder_client.c:318-330 `gbinder_client_unref`, 132-150 `gbinder_client_free` -/
def State.dropClient (s : State) (i : Nat) : Out State :=
  if s.refs (.client i) = 1 then
    match s.clients i with
    | none => .ub
    | some c =>
      (s.drop (.client i)).andThen fun s =>
      State.dropAll { s with clients := upd s.clients i none } c.holds
  else s.drop (.client i)

/-- Whatever it is. -/
def State.dropAny (s : State) : Obj → Out State
  | .client i => s.dropClient i
  | o => s.drop o

/-- gbinder_ipc.c:1584, gbinder_client.c:163: the client and the reply are passed to the callback. -/
def State.lent (s : State) (o : Obj) : Bool :=
  s.tx.finishing.any fun p => (s.calls p).any fun c => o = .client c.client || c.reply.any fun r => o = .reply r

/-- The application can use it: it has a reference, or a callback which has been given the object is running. (Not only
gbinder_client.c:163, the application could have got it from elsewhere.) -/
def State.has (s : State) (o : Obj) : Bool := 0 < s.app o || s.lent o

/-- gbinder_client.c:76-92 `gbinder_client_find_range` -/
def findRange : List (Nat × Nat) → Nat → Option Nat
  | [], _ => none
  | r :: l, code => if r.1 ≥ code then some r.2 else findRange l code

/-- gbinder_client.c:270-290: the ranges with the requests, which are numbered from `n`. -/
def ranges (n : Nat) : List Nat → List (Nat × Nat)
  | [] => []
  | c :: l => (c, n) :: ranges (n + 1) l

/-- gbinder_client.c:268-290: last_code of the ranges in the order in which they are after qsort, UINT_MAX if there aren't any. -/
def codes (l : List Nat) : List Nat := if l = [] then [2 ^ 32 - 1] else l

/-- gbinder_client.c:256-330, 427-477, gbinder_ipc.c:1487-1628, 1707-1760: what happens next, see `step`. -/
inductive Label
  | newRemote (handle : Nat)
  | die (r : Nat)
  | newRequest
  | newClient (remote : Option Nat) (infos : List Nat)
  | ref (o : Obj)
  | unref (o : Obj)
  | call (client : Option Nat) (req : Option Nat) (a : Args)
  | cancel (client id : Nat)
  | check (p : Nat)
  | exec (p : Nat)
  | executed (p : Nat) (reply : Bool) (status : Int)
  | post (p : Nat)
  | done (p : Nat)
  | free (p : Nat)
  | leave (p : Nat)
  | flush (p : Nat)
  deriving DecidableEq, Repr

/-- The application gets a reference (gbinder_client.c:288, 315). -/
def State.give (s : State) (o : Obj) : State := { s with app := set s.app o (s.app o + 1) }.see [.ref o]

/-- gbinder_client.c:270-290: new requests. -/
def State.makeAll (s : State) : List Obj → State
  | [] => s
  | o :: l => (s.make o).makeAll l

/-- gbinder_client.c:256-291 `gbinder_client_new2`, the remote object isn't NULL -/
def newClient (s : State) (r : Nat) (infos : List Nat) : Out State :=
  (s.take (.remote r)).andThen fun s =>
  let rs := ranges s.next (codes infos)
  let s := s.makeAll (rs.map fun r => .request r.2)
  let i := s.next
  let s := s.make (.client i)
  .ok (State.give { s with clients := upd s.clients i (some ⟨r, rs⟩) } (.client i))

/-- gbinder_client.c:440-447: the request, if there's one, or the default one -/
def choose (c : Client) (req : Option Nat) (code : Nat) : Option Nat :=
  match req with
  | some q => some q
  | none => findRange c.ranges code

/-- gbinder_client.c:436-463 `gbinder_client_transact`, the client isn't NULL, gbinder_ipc.c:1605-1628 `gbinder_ipc_tx_internal_new` -/
def transact (s : State) (i : Nat) (req : Option Nat) (a : Args) : Out State :=
  match s.clients i with
  | none => .ub
  | some c =>
    if s.refs (.remote c.remote) = 0 then .ub
    else if s.dead c.remote then .ok (s.see [.refused])
    else
      match choose c req a.code with
      | none => .ok (s.see [.refused])
      | some q =>
        match Async.step s.tx .submit with
        | .no => .no
        | .ub => .ub
        | .ok tx =>
          (s.take (.client i)).andThen fun s =>
          (s.take (.request q)).andThen fun s =>
          .ok (State.see { s with
            tx := tx
            calls := upd s.calls s.tx.calls (some { client := i, handle := s.handle c.remote, req := q, args := a }) }
            [.called s.tx.calls i (s.handle c.remote) q a])

/-- gbinder_ipc.c:1588-1603 `gbinder_ipc_tx_internal_exec`: there's no reply to a one-way transaction, and there must be one if the
transaction has succeeded (gbinder_ipc.c:1751). -/
def plausible (oneway reply : Bool) (status : Int) : Bool := if oneway then !reply else reply || status ≠ 0

/-- The steps (gbinder_client.c:256-330, 427-477, gbinder_ipc.c:1487-1628, 1707-1760, each step has its own lines below). -/
def step (s : State) : Label → Out State
  /- gbinder_remote_object.c:168-189: somehow the application gets one -/
  | .newRemote h =>
    .ok (State.give { s.make (.remote s.next) with handle := upd s.handle s.next h } (.remote s.next))
  /- gbinder_remote_object.c:112-130: it has died -/
  | .die r => if s.refs (.remote r) = 0 then .no else .ok (State.see { s with dead := upd s.dead r true } [.died r])
  /- gbinder_client.c:371-403 `gbinder_client_new_request`, `gbinder_client_new_request2` and other ways to create a request -/
  | .newRequest => .ok ((s.make (.request s.next)).give (.request s.next))
  /- gbinder_client.c:256-291 `gbinder_client_new2` -/
  | .newClient none _ => .ok s
  | .newClient (some r) infos => if s.has (.remote r) && infos.Pairwise (· ≤ ·) then newClient s r infos else .no
  /- gbinder_client.c:305-316 `gbinder_client_ref`, gbinder_remote_reply.c:84-93 and others -/
  | .ref o => if s.has o then (s.take o).andThen fun s => .ok (s.give o) else .no
  /- gbinder_client.c:318-330 `gbinder_client_unref` and others -/
  | .unref o =>
    if 0 < s.app o then State.dropAny (State.see { s with app := set s.app o (s.app o - 1) } [.unref o]) o else .no
  /- gbinder_client.c:426-467 `gbinder_client_transact` -/
  | .call none _ _ => .ok (s.see [.refused])
  | .call (some i) req a =>
    if s.has (.client i) && req.all fun q => s.has (.request q) then transact s i req a else .no
  /- gbinder_client.c:469-477 `gbinder_client_cancel` -/
  | .cancel i id =>
    if s.has (.client i) then
      if s.refs (.client i) = 0 then .ub
      else
        match Async.step s.tx (.cancel id) with
        | .no => .no
        | .ub => .ub
        | .ok tx =>
          match s.tx.table.find? (fun e => e.1 = id) with
          | some (_, p) => .ok (State.see { s with tx := tx } [.cancelled p])
          | none => .ok { s with tx := tx }
    else .no
  /- gbinder_ipc.c:1714 -/
  | .check p =>
    match Async.step s.tx (.check p) with
    | .no => .no
    | .ub => .ub
    | .ok tx => .ok { s with tx := tx }
  /- gbinder_ipc.c:1588-1603 `gbinder_ipc_tx_internal_exec` -/
  | .exec p =>
    match Async.step s.tx (.exec p) with
    | .no => .no
    | .ub => .ub
    | .ok tx => .ok { s with tx := tx }
  /- the driver has used the request, and has returned -/
  | .executed p reply status =>
    match Async.step s.tx (.executed p) with
    | .no => .no
    | .ub => .ub
    | .ok tx =>
      match s.calls p with
      | none => .ub
      | some c =>
        if s.refs (.request c.req) = 0 then .ub
        else if plausible c.args.oneway reply status then
          let r := if reply then some s.next else none
          let s := if reply then s.make (.reply s.next) else s
          .ok (State.see { s with
            tx := tx
            calls := upd s.calls p (some { c with reply := r, status := status }) }
            [.performed p c.handle c.args.code c.args.oneway c.req r status])
        else .no
  /- gbinder_ipc.c:1721 -/
  | .post p =>
    match Async.step s.tx (.post p) with
    | .no => .no
    | .ub => .ub
    | .ok tx => .ok { s with tx := tx }
  /- gbinder_ipc.c:1505-1516 `gbinder_ipc_tx_done`, 1575-1586 `gbinder_ipc_tx_internal_done`, gbinder_client.c:152-165
  `gbinder_client_transact_reply` -/
  | .done p =>
    match Async.step s.tx (.done p) with
    | .no => .no
    | .ub => .ub
    | .ok tx =>
      match s.tx.txs p, s.calls p with
      | some t, some c =>
        if t.cancelled || !c.args.reply then .ok { s with tx := tx }
        else if c.holds.any fun o => s.refs o = 0 then .ub
        else .ok (State.see { s with tx := tx } [.told p c.client c.reply c.status c.args.data])
      | _, _ => .ub
  /- gbinder_ipc.c:1487-1503 `gbinder_ipc_tx_free`, 1554-1569 `gbinder_ipc_tx_internal_free`, gbinder_client.c:169-176
  `gbinder_client_transact_destroy` -/
  | .free p =>
    match Async.step s.tx (.free p) with
    | .no => .no
    | .ub => .ub
    | .ok tx =>
      match s.calls p with
      | none => .ub
      | some c =>
        (s.dropAll c.inner).andThen fun s =>
        .ok (State.see { s with tx := tx, calls := upd s.calls p (some { c with over := true }) }
          [.destroyed p (if c.args.destroy then some c.args.data else none)])
  /- gbinder_client.c:177-178, gbinder_ipc.c:1570-1572 -/
  | .leave p =>
    match s.calls p with
    | none => .no
    | some c => if c.over then State.dropClient (State.see { s with calls := upd s.calls p none } [.over p]) c.client else .no
  /- gbinder_ipc.c:2204-2224 gbinder_ipc_exit -/
  | .flush p =>
    match Async.step s.tx (.flush p) with
    | .no => .no
    | .ub => .ub
    | .ok tx => .ok { s with tx := tx }

end Gb.ClientCalls
