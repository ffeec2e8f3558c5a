import Verif.Basic.Lts
import Verif.Model.Rpc
import Verif.Model.Tx
/-
src/gbinder_proxy_object.c: local objects which forward the requests to remote objects.

The state machine: requests are handled on the main thread, and that's also where the results of the forwarded
transactions arrive (see C25). References may be dropped by any thread at any moment, in
particular before `suicide`, which is the rest of gbinder_proxy_tx_reply. Objects are numbered, i.e. the memory
is not reused.

What is modelled elsewhere: the threads which send the transactions (Model/Async), the loopers which wait for the
requests to be completed (Model/LooperTx), the registry of local objects (Model/LocalObj).

Simplified: objects in the table of local objects are those which have references; conversion of the contents isn't a
part of the state machine, and the proxies created by the converter belong to somebody (those are `find` steps).
-/
set_option autoImplicit false

namespace Gb.Proxy

/-- gbinder_proxy_object.c:60-63 and GBinderLocalObject. `held` is how many of the references belong to others
(the application, the kernel, loopers, parcels): it isn't stored anywhere. -/
structure Obj where
  refs : Nat
  held : Nat
  ipc : Nat
  remote : Nat
  acquired : Bool := false
  dropped : Bool := false
  /-- priv->tx -/
  queue : List Nat := []
  deriving DecidableEq, Repr

/-- GBinderRemoteObject (gbinder_remote_object_p.h:43-49); `held` as above. -/
structure Remote where
  refs : Nat
  held : Nat
  ipc : Nat
  handle : Nat
  dead : Bool := false
  deriving DecidableEq, Repr

/-- GBinderRemoteRequest (gbinder_remote_request.c:45-57); `tx` is whether `req->tx` is not NULL; `held` as above. -/
structure Req where
  refs : Nat
  held : Nat
  tx : Bool
  deriving DecidableEq, Repr

/-- gbinder_proxy_object.c:53-57 GBinderProxyTx. `replied` is whether gbinder_ipc has called gbinder_proxy_tx_reply. -/
structure Tx where
  req : Nat
  proxy : Option Nat
  replied : Bool := false
  deriving DecidableEq, Repr

/-- What is observable of gbinder_proxy_object.c:157-386. -/
inductive Ev
  /-- there's a remote object with this handle -/
  | remote (rm ipc handle : Nat)
  /-- there's a proxy for a remote object -/
  | made (p ipc rm : Nat)
  | freed (p : Nat)
  | dropped (p : Nat)
  | dead (rm : Nat)
  /-- proxy `p` is handling a request, which has been received either by a looper thread, or by the main thread which is
  waiting for a reply -/
  | received (r p : Nat) (looper : Bool) (code flags : Nat)
  /-- gbinder_ipc_transact has been called -/
  | forwarded (r t ipc handle code flags : Nat)
  /-- the result of that -/
  | replied (t : Nat) (reply : Option Nat) (status : Int)
  /-- the sender of the request has got this -/
  | answered (r : Nat) (reply : Option Nat) (status : Int)
  /-- BC_ACQUIRE and BC_RELEASE for the handle of the remote object -/
  | acquire (p rm : Nat)
  | release (p rm : Nat)
  deriving DecidableEq, Repr

/-- The objects (gbinder_proxy_object.c:53-66), and the main thread. -/
structure State where
  no : Nat := 0
  obj : Nat → Option Obj := fun _ => none
  remotes : Nat := 0
  remote : Nat → Option Remote := fun _ => none
  reqs : Nat := 0
  req : Nat → Option Req := fun _ => none
  txs : Nat := 0
  tx : Nat → Option Tx := fun _ => none
  /-- gbinder_proxy_object.c:214 is next, for this object -/
  main : Option Nat := none
  log : List Ev := []

/-- gbinder_proxy_object.c:107-386: what happens next, see `step`. -/
inductive Label
  | newRemote (ipc handle : Nat)
  | refRemote (rm : Nat)
  | unrefRemote (rm : Nat)
  | die (rm : Nat)
  | new (ipc rm : Nat)
  | find (ipc rm : Nat) (p : Option Nat)
  | ref (p : Nat)
  | unref (p : Nat)
  | acquire (p : Nat)
  | drop (p : Nat)
  | handle (p : Nat) (looper : Bool) (code flags : Nat)
  | refReq (r : Nat)
  | unrefReq (r : Nat)
  | reply (t : Nat) (reply : Option Nat) (status : Int)
  | suicide
  | destroy (t : Nat)
  deriving DecidableEq, Repr

/-- -EBADMSG (gbinder_proxy_object.c:279). -/
def ebadmsg : Int := -74
/-- -EFAULT (gbinder_proxy_object.c:213). -/
def efault : Int := -14
/-- -ECANCELED (gbinder_remote_request.c:132). -/
def ecanceled : Int := -125
/-- gbinder_types.h:173 GBINDER_STATUS_DEAD_OBJECT -/
def deadObject : Int := 2

/-- Adds to the log; no code in gbinder_proxy_object.c:157-386 corresponds to it. -/
def State.see (s : State) (l : List Ev) : State := { s with log := s.log ++ l }

/-- Stores to the fields of GBinderProxyObject (gbinder_proxy_object.c:60-63). -/
def State.setObj (s : State) (p : Nat) (x : Option Obj) : State := { s with obj := upd s.obj p x }

/-- Stores to the fields of GBinderRemoteObject (gbinder_remote_object_p.h:43-49). -/
def State.setRemote (s : State) (rm : Nat) (x : Option Remote) : State := { s with remote := upd s.remote rm x }

/-- Stores to the fields of GBinderRemoteRequest (gbinder_remote_request.c:45-57). -/
def State.setReq (s : State) (r : Nat) (x : Option Req) : State := { s with req := upd s.req r x }

/-- Stores to the fields of GBinderProxyTx (gbinder_proxy_object.c:53-57). -/
def State.setTx (s : State) (t : Nat) (x : Option Tx) : State := { s with tx := upd s.tx t x }

/-- gbinder_remote_object_unref (called by gbinder_proxy_object.c:126, 384); `mine` if it's the reference of a proxy. -/
def State.remoteUnref (s : State) (rm : Nat) (mine : Bool) : Out State :=
  match s.remote rm with
  | none => .ub
  | some x =>
    if x.refs ≤ 1 then .ok (s.setRemote rm none)
    else .ok (s.setRemote rm (some { x with refs := x.refs - 1, held := if mine then x.held else x.held - 1 }))

/-- g_object_unref, and gbinder_proxy_object.c:359-386 `gbinder_proxy_object_finalize`; `mine` if it's the reference of a
transaction. -/
def State.objUnref (s : State) (p : Nat) (mine : Bool) : Out State :=
  match s.obj p with
  | none => .ub
  | some x =>
    if x.refs ≤ 1 then
      match s.remote x.remote with
      | none => .ub
      | some _ =>
        ((s.see (if x.acquired then [.release p x.remote, .freed p] else [.freed p])).setObj p none).remoteUnref
          x.remote true
    else .ok (s.setObj p (some { x with refs := x.refs - 1, held := if mine then x.held else x.held - 1 }))

/-- gbinder_ipc.c:389-429 `gbinder_remote_request_complete` of a blocked request, or one which isn't handled by a
looper. -/
def State.complete (s : State) (r : Nat) (reply : Option Nat) (status : Int) : Out State :=
  match s.req r with
  | none => .ub
  | some x => .ok (if x.tx then (s.setReq r (some { x with tx := false })).see [.answered r reply status] else s)

/-- gbinder_remote_request.c:209-221 and 121-138 `gbinder_remote_request_free`; `mine` as above. -/
def State.reqUnref (s : State) (r : Nat) (mine : Bool) : Out State :=
  match s.req r with
  | none => .ub
  | some x =>
    if x.refs ≤ 1 then
      .ok (((if x.tx then s.see [.answered r none ecanceled] else s)).setReq r none)
    else .ok (s.setReq r (some { x with refs := x.refs - 1, held := if mine then x.held else x.held - 1 }))

/-- gbinder_proxy_object.c:157-186 `gbinder_proxy_tx_dequeue`. The list is traversed (no further than to this
transaction). -/
def State.dequeue (s : State) (t : Nat) : Out State :=
  match s.tx t with
  | none => .ub
  | some x =>
    match x.proxy with
    | none => .ok s
    | some p =>
      match s.obj p with
      | none => .ub
      | some o =>
        if o.queue.all fun q => (s.tx q).isSome then
          ((s.setObj p (some { o with queue := o.queue.erase t })).setTx t (some { x with proxy := none })).objUnref p true
        else .ub

/-- gbinder_proxy_object.c:328-353 `gbinder_proxy_object_new` -/
def State.create (s : State) (ipc rm : Nat) : Out State :=
  match s.remote rm with
  | none => .ub
  | some x =>
    .ok (({ s with no := s.no + 1 } : State).setObj s.no (some { refs := 1, held := 1, ipc, remote := rm })
      |>.setRemote rm (some { x with refs := x.refs + 1 }) |>.see [.made s.no ipc rm])

/-- gbinder_proxy_object.c:107-386, each step has its own lines below. -/
def step (s : State) : Label → Out State
  /- gbinder_object_registry_get_remote: it's created or found (see C29), here it's created. -/
  | .newRemote ipc handle =>
    .ok (({ s with remotes := s.remotes + 1 } : State).setRemote s.remotes (some { refs := 1, held := 1, ipc, handle })
      |>.see [.remote s.remotes ipc handle])
  | .refRemote rm =>
    match s.remote rm with
    | none => .ub
    | some x => .ok (s.setRemote rm (some { x with refs := x.refs + 1, held := x.held + 1 }))
  | .unrefRemote rm => s.remoteUnref rm false
  /- gbinder_remote_object.c:65-90: death of the remote object, before the handlers are called -/
  | .die rm =>
    match s.remote rm with
    | none => .no
    | some x => .ok ((s.setRemote rm (some { x with dead := true })).see [.dead rm])
  | .new ipc rm => s.create ipc rm
  /- gbinder_proxy_object.c:107-128 `gbinder_proxy_object_converter_handle_to_local`, and gbinder_ipc.c:1362-1394
  `gbinder_ipc_find_local_object` -/
  | .find ipc rm p =>
    match s.remote rm with
    | none => .ub
    | some x =>
      match p with
      | some p =>
        match s.obj p with
        | none => .no
        | some o =>
          if o.ipc = ipc ∧ o.remote = rm then
            .ok (s.setObj p (some { o with refs := o.refs + 1, held := o.held + 1 }))
          else .no
      | none =>
        if ∃ q, q < s.no ∧ ((s.obj q).any fun o => o.ipc == ipc && o.remote == rm) = true then .no
        else if x.dead then .ok s
        else s.create ipc rm
  | .ref p =>
    match s.obj p with
    | none => .ub
    | some x => .ok (s.setObj p (some { x with refs := x.refs + 1, held := x.held + 1 }))
  | .unref p => s.objUnref p false
  /- gbinder_proxy_object.c:295-310 `gbinder_proxy_object_acquire` (the reference is a separate step) -/
  | .acquire p =>
    match s.obj p with
    | none => .ub
    | some o =>
      match s.remote o.remote with
      | none => .ub
      | some x =>
        if !x.dead && !o.dropped && !o.acquired then
          .ok ((s.setObj p (some { o with acquired := true })).see [.acquire p o.remote])
        else .ok s
  /- gbinder_local_object.c:471-479, gbinder_proxy_object.c:312-322 `gbinder_proxy_object_drop` -/
  | .drop p =>
    match s.obj p with
    | none => .ub
    | some o => ((s.setObj p (some { o with dropped := true })).see [.dropped p]).objUnref p false
  /- gbinder_proxy_object.c:237-282 `gbinder_proxy_object_handle_transaction` of a new request. Before that,
  gbinder_ipc.c:488-495 for a looper; afterwards, gbinder_ipc.c:502-544 (the request is blocked, or the status is what was
  returned; then req->tx is cleared), and gbinder_driver.c:562-568 (what's returned is the answer) without a looper.
  The looper or the driver has a reference to the request. -/
  | .handle p looper code flags =>
    if s.main ≠ none then .no
    else
      match s.obj p with
      | none => .ub
      | some o =>
        match s.remote o.remote with
        | none => .ub
        | some x =>
          if !o.dropped && !x.dead then
            .ok (({ s with txs := s.txs + 1, reqs := s.reqs + 1 } : State)
              |>.setObj p (some { o with refs := o.refs + 1, queue := s.txs :: o.queue })
              |>.setReq s.reqs (some { refs := 2, held := 1, tx := looper })
              |>.setTx s.txs (some { req := s.reqs, proxy := some p })
              |>.see ([.received s.reqs p looper code flags, .forwarded s.reqs s.txs x.ipc x.handle code flags] ++
                if looper then [] else [.answered s.reqs none 0]))
          else
            .ok (({ s with reqs := s.reqs + 1 } : State)
              |>.setReq s.reqs (some { refs := 1, held := 1, tx := false })
              |>.see [.received s.reqs p looper code flags, .answered s.reqs none ebadmsg])
  | .refReq r =>
    match s.req r with
    | none => .ub
    | some x => .ok (s.setReq r (some { x with refs := x.refs + 1, held := x.held + 1 }))
  | .unrefReq r => s.reqUnref r false
  /- gbinder_proxy_object.c:188-213 `gbinder_proxy_tx_reply`, up to gbinder_remote_request_complete -/
  | .reply t reply status =>
    if s.main ≠ none then .no
    else
      match s.tx t with
      | none => .ub
      | some x =>
        match x.proxy with
        | none => .ub
        | some p =>
          match s.obj p with
          | none => .ub
          | some _ =>
            (((s.setTx t (some { x with replied := true })).see [.replied t reply status]).dequeue t).andThen fun s =>
              (s.complete x.req reply (if status > 0 then efault else status)).andThen fun s =>
                .ok (if status = deadObject then { s with main := some p } else s)
  /- gbinder_proxy_object.c:214-221, gbinder_remote_object.c:138-161 `gbinder_remote_object_commit_suicide`, before the
  handlers are called -/
  | .suicide =>
    match s.main with
    | none => .no
    | some p =>
      match s.obj p with
      | none => .ub
      | some o =>
        match s.remote o.remote with
        | none => .ub
        | some x =>
          .ok (({ s with main := none } : State).setRemote o.remote (some { x with dead := true }) |>.see [.dead o.remote])
  /- gbinder_proxy_object.c:225-235 `gbinder_proxy_tx_destroy` (nobody sees whether it's freed before or after the
  request is unreferenced) -/
  | .destroy t =>
    if s.main ≠ none then .no
    else
      match s.tx t with
      | none => .ub
      | some x => (s.dequeue t).andThen fun s => (s.setTx t none).reqUnref x.req true

/-! ### Contents -/

/-- gbinder_remote_request.c:95-119 `gbinder_remote_request_convert_to_local`: `io` and `p` are those of the converter,
`f` is what it does; `buf` is what has been received, which may be nothing; NULL (`none`) is returned if
there's no buffer to take the protocol from (gbinder_local_request.c:74-82, 129-141). -/
def convertRequest (e : Env) (q : RemoteReq) (buf : Option RxBuffer) (io : Io) (p : Protocol) (m : Mem)
    (f : Nat → Option LocalRef) : Except UB (Option Writer) :=
  if p = q.protocol then
    match buf with
    | none => .ok none
    | some b => (Writer.appendContents e (newRequest q.io b.protocol m none) b 0 (some f)).map some
  else
    match newRequestIface e io p m q.iface with
    | .error x => .error x
    | .ok w =>
      match buf with
      | none => .ok (some w)
      | some b => (Writer.appendContents e w b q.headerSize (some f)).map some

/-- GBinderIpc, as far as the proxies are concerned: gbinder_ipc_io and gbinder_ipc_protocol (gbinder_ipc.c:1943-1948). -/
structure Ipc where
  io : Io
  protocol : Protocol
  deriving DecidableEq, Repr

/-- gbinder_proxy_object.c:130-151, 257-268: what's forwarded. `src` is the GBinderIpc of the proxy and `dest` is that
of the remote object. -/
def forwardedRequest (e : Env) (q : RemoteReq) (buf : Option RxBuffer) (src _dest : Ipc) (m : Mem)
    (f : Nat → Option LocalRef) : Except UB (Option Writer) :=
  convertRequest e q buf src.io src.protocol m f

/-- gbinder_proxy_object.c:206-207, gbinder_remote_reply.c:121-137 `gbinder_remote_reply_convert_to_local`: `io` is
that of the GBinderIpc which has received the reply. The buffer, if there is one, is a new buffer
so nothing is released. If there is none, the reply is empty. -/
def forwardedReply (e : Env) (buf : Option RxBuffer) (io : Io) (m : Mem) (f : Nat → Option LocalRef) :
    Except UB Writer :=
  match buf with
  | none => .ok (newRequest io .aidl m none)
  | some b => (Writer.setContents e (newRequest io b.protocol m none) b (some f)).map (·.2)

/-- gbinder_driver.c:1225-1274 `gbinder_driver_transact`, up to the point when the command is there: the request
is accessed without checking it. -/
def sendRequest (io : Io) (w : Option Writer) (handle code : Nat) (oneway : Bool) (bufPtr offPtr : Nat) :
    Except UB (Bytes × Bytes) :=
  match w with
  | none => .error .oob
  | some w => .ok (transactionCommand io w handle code oneway bufPtr offPtr)

end Gb.Proxy
