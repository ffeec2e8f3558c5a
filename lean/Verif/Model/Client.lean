import Verif.Model.Rpc
import Verif.Model.Driver
/-
src/gbinder_client.c, the part of src/gbinder_ipc.c between it and the driver, and the functions of
src/gbinder_servicemanager_aidl*.c and src/gbinder_servicemanager_hidl.c which register services.
-/
set_option autoImplicit false

namespace Gb.Client
open Driver (World Cfg St Run Ev Stop)

/-! ### Interfaces -/

/-- include/gbinder_client.h:40-43 GBinderClientIfaceInfo, last_code is a guint32. -/
structure Info where
  iface : Option Bytes
  last : Nat
  deriving DecidableEq, Repr

/-- gbinder_client.c:48-53 GBinderClientIfaceRange -/
structure Range where
  iface : Option Bytes
  header : Option Bytes
  basic : Writer
  last : Nat
  deriving DecidableEq, Repr

/-- qsort(3) with gbinder_client_sort_ranges (gbinder_client.c:117-128), which compares last_code. Not
necessarily a stable one. -/
structure Qsort where
  sort : List Range → List Range
  perm : ∀ l, (sort l).Perm l
  sorted : ∀ l, (sort l).Pairwise fun a b => a.last ≤ b.last

/-- gbinder_client.c:101-115 `gbinder_client_init_range` -/
def initRange (e : Env) (io : Io) (p : Protocol) (m : Mem) (info : Info) : Except UB Range := do
  let req ← newRequestIface e io p m info.iface
  .ok { iface := info.iface, header := some req.bytes, basic := req, last := info.last }

/-- gbinder_client.c:272-274 -/
def initRanges (e : Env) (io : Io) (p : Protocol) (m : Mem) : List Info → Except UB (List Range)
  | [] => .ok []
  | i :: l => do
    let r ← initRange e io p m i
    let rs ← initRanges e io p m l
    .ok (r :: rs)

/-- gbinder_client.c:256-291 `gbinder_client_new2`: priv->ranges. priv->nr is 32 bits wide, more than
that wouldn't fit there (and the array would be too small). -/
def new2 (e : Env) (q : Qsort) (io : Io) (p : Protocol) (m : Mem) (infos : List Info) :
    Except UB (List Range) :=
  if infos.length > 0 then
    if infos.length ≥ 2 ^ 32 then .error .oob
    else do
      let rs ← initRanges e io p m infos
      .ok (q.sort rs)
  else .ok [{ iface := none, header := none, basic := newRequest io p m none, last := 2 ^ 32 - 1 }]

/-- gbinder_client.c:293-303 `gbinder_client_new` -/
def new (e : Env) (q : Qsort) (io : Io) (p : Protocol) (m : Mem) (iface : Option Bytes) :
    Except UB (List Range) := new2 e q io p m [⟨iface, 2 ^ 32 - 1⟩]

/-- gbinder_client.c:76-92 `gbinder_client_find_range` -/
def findRange : List Range → Nat → Option Range
  | [], _ => none
  | r :: l, code => if r.last ≥ code then some r else findRange l code

/-- gbinder_client.c:332-337 `gbinder_client_interface`: ranges[0] -/
def interface (rs : List Range) : Option Bytes := (rs.head?.map (·.iface)).getD none

/-- gbinder_client.c:339-353 `gbinder_client_interface2` -/
def interface2 (rs : List Range) (code : Nat) : Option Bytes :=
  match findRange rs code with
  | some r => r.iface
  | none => none

/-- gbinder_client.c:355-369 `gbinder_client_rpc_header` -/
def rpcHeader (rs : List Range) (code : Nat) : Option Bytes :=
  match findRange rs code with
  | some r => r.header
  | none => none

/-- gbinder_client.c:371-383 `gbinder_client_new_request`: ranges[0] -/
def firstRequest (io : Io) (p : Protocol) (m : Mem) (rs : List Range) : Except UB Writer :=
  match rs with
  | r :: _ => .ok (newRequest io p m r.header)
  | [] => .error .oob

/-- gbinder_client.c:385-403 `gbinder_client_new_request2` -/
def newRequest2 (io : Io) (p : Protocol) (m : Mem) (rs : List Range) (code : Nat) : Option Writer :=
  (findRange rs code).map fun r => newRequest io p m r.header

/-! ### Transactions -/

/-- GBinderClient: whether the remote object is dead (gbinder_remote_object_p.h:42-47), its handle, and
gbinder_client.c:55-60. -/
structure Client where
  dead : Bool
  handle : Nat
  ranges : List Range
  deriving DecidableEq, Repr

/-- gbinder_client.c:197-205, 230-238, 439-447: the request to send -/
def Client.request (c : Client) (code : Nat) (req : Option Writer) : Option Writer :=
  match req with
  | some w => some w
  | none => (findRange c.ranges code).map (·.basic)

/-- gbinder_ipc.c:1728-1760, 1795-1821 `gbinder_ipc_transact_sync_reply_worker` and
`gbinder_ipc_transact_sync_reply`: whether the reply is not NULL, and the status. `full` is whether there
are any data in the reply (gbinder_remote_reply.c:107-112), the driver model doesn't keep those. -/
def syncReply (k : Cfg) (W : World) (full : List Ev → Bool) (f handle code : Nat) (req : Writer) (s : St) :
    Run (Bool × Int) :=
  (Driver.transact k W f handle code req true s).bind fun ret s => .done (ret == 0 || full s.log, ret) s

/-- gbinder_client.c:185-217 `gbinder_client_transact_sync_reply2`: whether the reply is not NULL, and
what has been stored to *status (`none` if nothing has). -/
def transactSyncReply (k : Cfg) (W : World) (full : List Ev → Bool) (f : Nat) (c : Option Client) (code : Nat)
    (req : Option Writer) (s : St) : Run (Bool × Option Int) :=
  match c with
  | some c =>
    if !c.dead then
      match c.request code req with
      | some req => (syncReply k W full f c.handle code req s).bind fun r s => .done (r.1, some r.2) s
      | none => .done (false, none) s
    else .done (false, none) s
  | none => .done (false, none) s

/-- gbinder_client.c:219-250 `gbinder_client_transact_sync_oneway2`. ESTALE is 116, EINVAL is 22. -/
def transactSyncOneway (k : Cfg) (W : World) (f : Nat) (c : Option Client) (code : Nat) (req : Option Writer)
    (s : St) : Run Int :=
  match c with
  | some c =>
    if !c.dead then
      match c.request code req with
      | some req => Driver.transact k W f c.handle code req false s
      | none => .done (-22) s
    else .done (-116) s
  | none => .done (-22) s

/-- What is passed to gbinder_ipc_transact, see Model/Async.lean (gbinder_client.c:453-456). -/
structure Submission where
  handle : Nat
  code : Nat
  flags : Nat
  req : Writer
  deriving DecidableEq, Repr

/-- gbinder_client.c:426-467 `gbinder_client_transact`; if nothing is submitted then it returns zero, otherwise
whatever gbinder_ipc_transact does. -/
def transact (c : Option Client) (code flags : Nat) (req : Option Writer) : Option Submission :=
  match c with
  | some c =>
    if !c.dead then
      match c.request code req with
      | some req => some ⟨c.handle, code, flags, req⟩
      | none => none
    else none
  | none => none

/-- gbinder_ipc.c:1588-1603 `gbinder_ipc_tx_internal_exec`: whether the reply is not NULL, and the status. -/
def execTx (k : Cfg) (W : World) (full : List Ev → Bool) (f : Nat) (x : Submission) (s : St) : Run (Bool × Int) :=
  if x.flags % 2 = 1 then
    (Driver.transact k W f x.handle x.code x.req false s).bind fun st s => .done (false, st) s
  else syncReply k W full f x.handle x.code x.req s

/-! ### Registration of services -/

/-- gbinder_servicemanager.c:80-86: the types. -/
inductive Kind | aidl | aidl2 | aidl3 | aidl4 | hidl
  deriving DecidableEq, Repr

/-- gbinder_servicemanager_aidl.c:145-158, gbinder_servicemanager_aidl2.c:62-76,
gbinder_servicemanager_aidl3.c:121-135, gbinder_servicemanager_aidl4.c:55-88 and
gbinder_servicemanager_hidl.c:241-246: what is appended to a new request. `at_` is the address of the name
(the HIDL one isn't copied). DUMP_FLAG_PRIORITY_DEFAULT is 8 (gbinder_servicemanager_aidl.h:65);
GBINDER_FOURCC(GBINDER_STABILITY_SYSTEM, 0, 0, 1). -/
def addServiceOps (name : Bytes) (at_ : Nat) (obj : LocalRef) : Kind → List WOp
  | .aidl => [.string16 (some name), .localObject (some obj), .int32 0]
  | .aidl2 | .aidl3 => [.string16 (some name), .localObject (some obj), .int32 0, .int32 8]
  | .aidl4 =>
    [.string16 (some name), .localObject (some obj), .int32 (UInt32.ofNat (packChars 0x0c 0 0 1)), .int32 0, .int32 8]
  | .hidl => [.hidlString at_, .localObject (some obj)]

/-- The codes of the transactions: gbinder_servicemanager_aidl.h:58-63 ADD_SERVICE_TRANSACTION,
gbinder_servicemanager_hidl.c:74-76 ADD_TRANSACTION. -/
def Kind.addCode : Kind → Nat
  | .hidl => 2
  | _ => 3

/-- gbinder_servicemanager_aidl.c:214-232 and gbinder_servicemanager_hidl.c:232-254: `status` isn't
initialized. The reply isn't looked at. -/
def addService (k : Cfg) (W : World) (full : List Ev → Bool) (f : Nat) (c : Client) (kind : Kind) (req : Writer)
    (s : St) : Run Int :=
  (transactSyncReply k W full f (some c) kind.addCode (some req) s).bind fun r s =>
    match r.2 with
    | some st => .done st s
    | none => .stop (.ub .uninit) s

/-- gbinder_servicemanager.c:895-907 `gbinder_servicemanager_add_service_sync`. `args` is whether neither of the
arguments is NULL. -/
def addServiceSync (k : Cfg) (W : World) (full : List Ev → Bool) (f : Nat) (c : Client) (kind : Kind)
    (args : Bool) (req : Writer) (s : St) : Run Int :=
  if args then addService k W full f c kind req s else .done (-22) s

end Gb.Client
