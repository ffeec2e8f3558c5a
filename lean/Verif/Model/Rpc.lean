import Verif.Model.Reader
import Verif.Model.WriterOps
/-
src/gbinder_rpc_protocol.c (RPC headers), src/gbinder_remote_request.c (how an incoming request
is parsed) and the functions of src/gbinder_local_request.c and src/gbinder_client.c which
create requests.
-/
set_option autoImplicit false

namespace Gb

/-- gbinder_rpc_protocol.c:40-41 `BINDER_RPC_FLAGS`. -/
def rpcFlags : UInt32 := 0x400000
/-- gbinder_rpc_protocol.c:42 `UNSET_WORK_SOURCE` as a 32-bit word. -/
def unsetWorkSource : UInt32 := 0xffffffff
/-- gbinder_rpc_protocol.c:45 `BINDER_SYS_HEADER`. -/
def sysHeader : UInt32 := UInt32.ofNat (packChars 0x53 0x59 0x53 0x54)
/-- gbinder_types_p.h:57 `GBINDER_TRANSACTION(0,0,0)`. -/
def internalTx : Nat := packChars 0x5f 0 0 0

/-- gbinder_rpc_protocol.c:91-104, 136-151, 184-194, 243-253: the `write_rpc_header` callbacks. -/
def writeRpcHeader (e : Env) (w : Writer) (p : Protocol) (iface : Bytes) : Except UB Writer :=
  match p with
  | .aidl => do
    let w1 ← w.appendInt32 e rpcFlags
    w1.appendString16 e (some iface)
  | .aidl2 => do
    let w1 ← w.appendInt32 e rpcFlags
    let w2 ← w1.appendInt32 e unsetWorkSource
    w2.appendString16 e (some iface)
  | .aidl3 => do
    let w1 ← w.appendInt32 e rpcFlags
    let w2 ← w1.appendInt32 e unsetWorkSource
    let w3 ← w2.appendInt32 e sysHeader
    w3.appendString16 e (some iface)
  | .hidl => w.appendString8 e (some iface)

/-- gbinder_rpc_protocol.c:83-89, 255-262: the `write_ping` callbacks. That's what gbinder_driver_local_request_new_ping
(gbinder_driver.c:1324-1334) appends to an empty request for gbinder_ipc_ping_sync (gbinder_ipc.c:1951-1964). -/
def writePing (e : Env) (w : Writer) (p : Protocol) : Except UB Writer :=
  match p with
  | .hidl => writeRpcHeader e w .hidl ("android.hidl.base@1.0::IBase".toUTF8.data.toList)
  | _ => .ok w

/-- `gbinder_reader_read_int32(reader, NULL)` as a condition: continue or give up with NULL. -/
def skipInt (r : Reader) (k : Reader → Res (Option Bytes)) : Res (Option Bytes) :=
  match r.readUInt32 with
  | .ok _ r1 => k r1
  | .fail r1 => .ok none r1
  | .ub x => .ub x

/-- gbinder_rpc_protocol.c:106-122, 153-170, 196-214, 264-273: the `read_rpc_header` callbacks.
The result is the interface, `none` being NULL. -/
def readRpcHeader (p : Protocol) (txcode : Nat) (r : Reader) : Res (Option Bytes) :=
  match p with
  | .aidl => if internalTx < txcode then .ok none r else skipInt r Reader.readString16
  | .aidl2 =>
    if internalTx < txcode then .ok none r
    else skipInt r fun r1 => skipInt r1 Reader.readString16
  | .aidl3 =>
    if internalTx < txcode then .ok none r
    else skipInt r fun r1 => skipInt r1 fun r2 => skipInt r2 Reader.readString16
  | .hidl =>
    match r.readString8 with
    | .ok s r1 => .ok (some s) r1
    | .fail r1 => .ok none r1
    | .ub x => .ub x

/-- gbinder_local_request.c:74-109 `gbinder_local_request_new`: `init` is the initial contents. -/
def newRequest (io : Io) (p : Protocol) (m : Mem) (init : Option Bytes) : Writer :=
  { io := io, protocol := p, bytes := init.getD [], mem := m }

/-- gbinder_local_request.c:111-127 `gbinder_local_request_new_iface`. -/
def newRequestIface (e : Env) (io : Io) (p : Protocol) (m : Mem) (iface : Option Bytes) :
    Except UB Writer :=
  match iface with
  | some s => writeRpcHeader e (newRequest io p m none) p s
  | none => .ok (newRequest io p m none)

/-- gbinder_client.c:101-115 `gbinder_client_init_range`: the header kept for an interface. -/
def rangeHeader (e : Env) (io : Io) (p : Protocol) (m : Mem) (iface : Option Bytes) :
    Except UB (Option Bytes) :=
  (newRequestIface e io p m iface).map fun w => some w.bytes

/-- gbinder_client.c:371-383 `gbinder_client_new_request` (385-407 for the header of the range the
code belongs to). -/
def clientNewRequest (e : Env) (io : Io) (p : Protocol) (m : Mem) (iface : Option Bytes) :
    Except UB Writer := do
  let h ← rangeHeader e io p m iface
  .ok (newRequest io p m h)

/-- The parts of GBinderRemoteRequestPriv (gbinder_remote_request.c:47-57) filled in by
`gbinder_remote_request_set_data`. -/
structure RemoteReq where
  io : Io
  protocol : Protocol
  data : Bytes
  objects : List Nat
  iface : Option Bytes
  headerSize : Nat
  deriving DecidableEq, Repr

namespace RemoteReq

/-- gbinder_remote_request.c:140-157 `gbinder_remote_request_init_reader2`, with the given
`header_size`. -/
def reader (io : Io) (p : Protocol) (data : Bytes) (objects : List Nat) (headerSize : Nat) : Reader :=
  Reader.init io p data objects true headerSize (data.length - headerSize)

/-- gbinder_remote_request.c:159-185 `gbinder_remote_request_set_data` (called once, on a
request which has `header_size` zero). -/
def setData (io : Io) (p : Protocol) (txcode : Nat) (data : Bytes) (objects : List Nat) :
    Except UB RemoteReq :=
  match readRpcHeader p txcode (reader io p data objects 0) with
  | .ub k => .error k
  | .fail _ => .ok { io, protocol := p, data, objects, iface := none, headerSize := 0 }
  | .ok iface r =>
    .ok { io, protocol := p, data, objects, iface,
          headerSize := if iface.isSome then r.bytesRead else 0 }

/-- gbinder_remote_request.c:223-230 `gbinder_remote_request_init_reader`. -/
def initReader (q : RemoteReq) : Reader := reader q.io q.protocol q.data q.objects q.headerSize

end RemoteReq

end Gb
