import Verif.Model.Rpc
import Verif.Model.Driver
/-
src/gbinder_local_object.c: interfaces of a local object, and how it handles transactions, with the
part of src/gbinder_driver.c which decides who does it and src/gbinder_ipc.c which moves it to the
main thread.
-/
set_option autoImplicit false

namespace Gb.Dispatch
open Driver (Support EBADMSG)

/-- gbinder_types_p.h:57-61, 65-67 and GBINDER_FOURCC of include/gbinder_types.h -/
def pingTx : Nat := packChars 0x5f 0x50 0x4e 0x47
/-- gbinder_types_p.h:61 GBINDER_INTERFACE_TRANSACTION. -/
def interfaceTx : Nat := packChars 0x5f 0x4e 0x54 0x46
/-- gbinder_types_p.h:66 HIDL_PING_TRANSACTION. -/
def hidlPingTx : Nat := packChars 0x0f 0x50 0x4e 0x47
/-- gbinder_types_p.h:67 HIDL_DESCRIPTOR_CHAIN_TRANSACTION. -/
def hidlChainTx : Nat := packChars 0x0f 0x43 0x48 0x4e
/-- gbinder_types_p.h:68 HIDL_GET_DESCRIPTOR_TRANSACTION. -/
def hidlDescriptorTx : Nat := packChars 0x0f 0x44 0x53 0x43

/-- gbinder_local_object.c:84 `hidl_base_interface` -/
def hidlBase : Bytes := "android.hidl.base@1.0::IBase".toUTF8.data.toList

/-- gbinder_rpc_protocol.c:126, 174, 231, 277: `ping_tx` -/
def protoPing : Protocol → Nat
  | .hidl => hidlPingTx
  | _ => pingTx

/-! ### Interfaces -/

/-- g_strdup (used at gbinder_local_object.c:434-439). -/
def strdup (e : Env) (m : Mem) (s : Bytes) : Nat × Mem :=
  let a := e.alloc m (s.length + 1)
  (a, (a, s ++ [0]) :: m)

/-- A store to the array allocated by g_new, the elements of which aren't initialized (none)
(used at gbinder_local_object.c:432-441). -/
def put (arr : List (Option Nat)) (i x : Nat) : Except UB (List (Option Nat)) :=
  if i < arr.length then .ok (arr.set i (some x)) else .error .oob

/-- gbinder_local_object.c:432-436: the loop. -/
def copyIfaces (e : Env) : List Bytes → Mem → List (Option Nat) → Nat →
    Except UB (Mem × List (Option Nat) × Nat)
  | [], m, arr, i => .ok (m, arr, i)
  | s :: l, m, arr, i => do
    let (a, m) := strdup e m s
    let arr ← put arr i a
    copyIfaces e l m arr (i + 1)

/-- gbinder_local_object.c:413-448 `gbinder_local_object_init_base`: priv->ifaces. `ifaces` is NULL or
the strings before the terminating NULL. -/
def initBase (e : Env) (m : Mem) (ifaces : Option (List Bytes)) :
    Except UB (Mem × List (Option Nat)) := do
  let l := ifaces.getD []
  let n := l.length
  let base := decide (l.getLast? ≠ some hidlBase)
  let n := if base then n + 1 else n
  let arr := List.replicate (n + 1) none
  let (m, arr, i) ← copyIfaces e l m arr 0
  if base then
    let (a, m) := strdup e m hidlBase
    let arr ← put arr i a
    let arr ← put arr (i + 1) 0
    .ok (m, arr)
  else
    let arr ← put arr i 0
    .ok (m, arr)

/-! ### Transactions -/

/-- The parts of GBinderLocalObject and its private data used below: the strings in `ifaces` up to the
terminating NULL, and whether txproc is not NULL
(gbinder_local_object_p.h:55-63, gbinder_local_object.c:48-52). -/
structure Target where
  io : Io
  proto : Protocol
  ifaces : List Nat
  txproc : Bool
  deriving DecidableEq, Repr

/-- gbinder_local_object.c:99-121 `gbinder_local_object_default_can_handle_transaction` -/
def canHandle (o : Target) (iface : Option Bytes) (code : Nat) : Support :=
  let other := if o.txproc then Support.supported else .notSupported
  if code = pingTx ∨ code = interfaceTx then .looper
  else if code = hidlPingTx ∨ code = hidlDescriptorTx ∨ code = hidlChainTx then
    if iface = some hidlBase then .looper else other
  else other

/-- gbinder_local_object.c:90-97 `gbinder_local_object_create_reply` -/
def createReply (m : Mem) (o : Target) : Writer := { io := o.io, protocol := o.proto, mem := m }

/-- gbinder_local_object.c:142-155, 173-188 -/
def ping (e : Env) (m : Mem) (o : Target) : Except UB (Option Writer × Int) := do
  let w ← (createReply m o).appendInt32 e 0
  .ok (some w, 0)

/-- gbinder_local_object.c:157-171: ifaces[0] is NULL if there are none. -/
def interface (e : Env) (m : Mem) (o : Target) : Except UB (Option Writer × Int) :=
  match o.ifaces with
  | [] => do
    let w ← (createReply m o).appendString16 e none
    .ok (some w, 0)
  | a :: _ =>
    match m.cstr a with
    | none => .error .oob
    | some s => do
      let w ← (createReply m o).appendString16 e (some s)
      .ok (some w, 0)

/-- gbinder_local_object.c:190-209 -/
def hidlDescriptor (e : Env) (m : Mem) (o : Target) : Except UB (Option Writer × Int) := do
  let w ← (createReply m o).appendInt32 e 0
  let w ← Writer.appendHidlString e w (o.ifaces.headD 0)
  .ok (some w, 0)

/-- gbinder_local_object.c:211-231 -/
def hidlChain (e : Env) (m : Mem) (o : Target) : Except UB (Option Writer × Int) := do
  let w ← (createReply m o).appendInt32 e 0
  let w ← Writer.appendHidlStringVec e w o.ifaces
  .ok (some w, 0)

/-- gbinder_local_object.c:233-267 `gbinder_local_object_default_handle_looper_transaction` -/
def handleLooper (e : Env) (m : Mem) (o : Target) (code : Nat) : Except UB (Option Writer × Int) :=
  if code = pingTx then ping e m o
  else if code = interfaceTx then interface e m o
  else if code = hidlPingTx then ping e m o
  else if code = hidlDescriptorTx then hidlDescriptor e m o
  else if code = hidlChainTx then hidlChain e m o
  else .ok (none, -(EBADMSG : Int))

/-- Calls of the function provided by the application, made on the main thread: code and flags
(gbinder_local_object.c:123-140). -/
abbrev Calls := List (Nat × Nat)

/-- gbinder_local_object.c:123-140 `gbinder_local_object_default_handle_transaction`; `user` is what
the function returns. -/
def handleMain (o : Target) (user : Nat → Nat → Option Writer × Int) (code flags : Nat) :
    Option Writer × Int × Calls :=
  if o.txproc then ((user code flags).1, (user code flags).2, [(code, flags)])
  else (none, -(EBADMSG : Int), [])

/-- gbinder_driver.c:549-575 (the switch in `gbinder_driver_handle_transaction`) with
gbinder_local_object.c:527-578. `o` is the object, if there is one, `o'` is what it's like when the
main thread gets to it: gbinder_local_object_drop can be called meanwhile. `run` is whether the main
thread gets to it before the looper is stopped, otherwise the status is that of
gbinder_ipc.c:662, 1074. -/
def dispatch (e : Env) (m : Mem) (o : Option Target) (o' : Target) (run : Bool)
    (user : Nat → Nat → Option Writer × Int) (iface : Option Bytes) (code flags : Nat) :
    Except UB (Option Writer × Int × Calls) :=
  match o with
  | none => .ok (none, -(EBADMSG : Int), [])
  | some o =>
    match canHandle o iface code with
    | .looper => (handleLooper e m o code).map fun r => (r.1, r.2, [])
    | .supported =>
      if run then .ok (handleMain o' user code flags) else .ok (none, -(Driver.EFAULT : Int), [])
    | .notSupported => .ok (none, -(EBADMSG : Int), [])

/-- gbinder_driver.c:530-575: the request is parsed (`data` is empty if there's none) and handled. -/
def transaction (e : Env) (m : Mem) (o : Option Target) (o' : Target) (run : Bool) (io : Io)
    (proto : Protocol) (user : Nat → Nat → Option Writer × Int) (code flags : Nat) (data : Bytes)
    (objects : List Nat) : Except UB (Option Writer × Int × Calls) :=
  if data = [] then dispatch e m o o' run user none code flags
  else do
    let q ← RemoteReq.setData io proto code data objects
    dispatch e m o o' run user q.iface code flags

end Gb.Dispatch
