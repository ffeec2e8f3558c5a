import Verif.Model.Messages
import Verif.Model.Proxy
import Verif.Conformance.Reader
/-
What unit/unit_local_request/unit_local_request.c, unit/unit_local_reply/unit_local_reply.c,
unit/unit_remote_request/unit_remote_request.c and unit/unit_remote_reply/unit_remote_reply.c expect is what the model does. These are tests of the model, not
proofs of anything.
-/
set_option autoImplicit false

namespace Gb.Conformance
namespace Msgs
open Msg
open Rd (flat)

/-! ### unit_local_request.c -/

/-- test_local_request_new, append and gbinder_local_request_data. -/
def put (l : List Put) (io : Io := .io32) (m : Mem := []) (init : Option Bytes := none) :
    Option (Bytes × List Nat × Nat) :=
  match appendAll env (some (newRequest io .aidl m init)) l with
  | .ok (some w) => some (w.bytes, w.offsets, w.buffersSize)
  | _ => none

/-- The same with the number of bytes. -/
def putSize (l : List Put) (io : Io := .io32) (m : Mem := []) : Option (Nat × List Nat × Nat) :=
  (put l io m).map fun r => (r.1.length, r.2)

-- test_null
example : ([.bool false, .int32 0, .int64 0, .float 0, .double 0, .string8 none, .string16 none, .hidlString 0,
  .hidlStringVec [], .localObject none, .remoteObject none] : List Put).all
    (fun x => match append env none x with
      | .ok none => true
      | _ => false) = true := by decide +kernel

-- test_init_data
example : put [] .io32 [] (some [1, 2, 3, 4]) = some ([1, 2, 3, 4], [], 0) := by decide +kernel
example : put [] = some ([], [], 0) := by decide +kernel

-- test_bool, test_int32, test_int64, test_float, test_double
example : put [.bool false] = some ([0, 0, 0, 0], [], 0) := by decide +kernel
example : put [.bool true] = some ([1, 0, 0, 0], [], 0) := by decide +kernel
example : put [.int32 1234567] = some (leBytes 4 1234567, [], 0) := by decide +kernel
example : put [.int64 123456789] = some (leBytes 8 123456789, [], 0) := by decide +kernel
-- 123456792 (the value is rounded) and 123456789
example : put [.float 0x4ceb79a3] = some ([0xa3, 0x79, 0xeb, 0x4c], [], 0) := by decide +kernel
example : put [.double 0x419d6f3454000000] = some ([0, 0, 0, 0x54, 0x34, 0x6f, 0x9d, 0x41], [], 0) := by
  decide +kernel

-- test_string8, test_string16
example : put [.string8 (some (ascii "test"))] = some (ascii "test" ++ [0, 0, 0, 0], [], 0) := by decide +kernel
example : put [.string8 none] = some ([], [], 0) := by decide +kernel
example : put [.string16 (some (ascii "x"))] = some ([1, 0, 0, 0, 0x78, 0, 0, 0], [], 0) := by decide +kernel
example : put [.string16 none] = some ([0xff, 0xff, 0xff, 0xff], [], 0) := by decide +kernel

-- test_hidl_string, test_hidl_string_vec
example : putSize [.hidlString 0] = some (48, [0, 24], 16) := by decide +kernel
example : putSize [.hidlStringVec []] = some (48, [0, 24], 16) := by decide +kernel

-- test_local_object, test_remote_object
example : putSize [.localObject (some { addr := 0x2000, stability := 0 })] = some (16, [0], 0) := by decide +kernel
example : putSize [.localObject none] = some (16, [], 0) := by decide +kernel
example : putSize [.remoteObject none] = some (16, [], 0) := by decide +kernel

/-- gbinder_local_request_new_from_data (gbinder_local_request.c:130-141). -/
def fromData (b : Bytes) (objects : List Nat) (io : Io := .io64) : Option (Bytes × List Nat × Nat) :=
  match Writer.appendContents env (newRequest io .aidl [] none) { id := 1, protocol := .aidl, data := b, objects } 0 none with
  | .ok w => some (w.bytes, w.offsets, w.buffersSize)
  | _ => none

-- test_remote_request
example : (put [.string8 (some (ascii "test"))] .io64).bind (fun r => fromData r.1 []) =
  some (ascii "test" ++ [0, 0, 0, 0], [], 0) := by decide +kernel

-- test_remote_request_obj
example : putSize [.int32 1, .hidlString 0x1000, .localObject none] .io64 [(0x1000, [0x32, 0])] =
  some (4 + 2 * 40 + 24, [4, 44], 24) := by decide +kernel
example : ((put [.int32 1, .hidlString 0x1000, .localObject none] .io64 [(0x1000, [0x32, 0])]).bind fun r =>
    (fromData r.1 r.2.1).map fun q => (q.1.length, q.2)) = some (4 + 2 * 40 + 24, [4, 44], 24) := by decide +kernel

/-! ### unit_local_reply.c: what differs from unit_local_request.c -/

-- test_null
example : append env none (.fd 0 (some 0)) matches .ok none := by decide +kernel

-- test_fd
example : putSize [.fd 1 (some 7)] = some (16, [0], 0) := by decide +kernel

-- test_cleanup: a NULL function isn't remembered
example : (match WOp.runAll env { io := .io32, protocol := .aidl } [.addCleanup 0 5, .addCleanup 1 5, .addCleanup 1 5] with
  | .ok w => w.cleanup
  | .error _ => []) = [.user 1 5, .user 1 5] := by decide +kernel

-- test_local_object: an object of a 64-bit device
example : putSize [.localObject (some { addr := 0x2000, stability := 0 })] .io64 = some (24, [0], 0) := by decide +kernel

-- test_remote_reply: gbinder_local_reply_set_contents
example : (put [.string8 (some (ascii "test"))] .io64).bind (fun r =>
    ((Proxy.forwardedReply env (some { id := 1, protocol := .aidl, data := r.1, objects := [] }) .io64 [] (fun _ => none)).toOption.map
      fun w => (w.bytes, w.offsets, w.buffersSize))) = some (ascii "test" ++ [0, 0, 0, 0], [], 0) := by decide +kernel

/-! ### unit_remote_reply.c -/

/-- gbinder_remote_reply_new and gbinder_remote_reply_set_data. -/
def reply (b : Bytes) (objects : List Nat := []) : Option Reply :=
  some { io := .io64, buffer := some { id := 1, protocol := .aidl, data := b, objects } }

/-- What's read. -/
def readReply (q : Option Reply) (k : Get) : Option (Option Val) := (Reply.read q k).toOption

/-- All the read functions. -/
def gets : List Get := [.int32, .uint32, .int64, .uint64, .string8, .string16, .object]

-- test_null, test_empty, test_basic
example : gets.all (fun k => readReply none k = some none) = true := by decide +kernel
example : Reply.isEmpty none = true ∧ (Reply.initReader none).pos = 0 ∧ (Reply.initReader none).fin = 0 := by
  decide +kernel
example : Reply.isEmpty (reply []) = true := by decide +kernel
example : Reply.isEmpty (some { io := .io64, buffer := none }) = true ∧
  readReply (some { io := .io64, buffer := none }) .object = some none := by decide +kernel

-- test_int32, test_int64, test_string8, test_string16
example : Reply.isEmpty (reply (leBytes 4 42)) = false ∧
  [.int32, .uint32].all (fun k => readReply (reply (leBytes 4 42)) k = some (some (.num 42))) = true := by decide +kernel
example : [.int64, .uint64].all (fun k => readReply (reply (leBytes 8 42)) k = some (some (.num 42))) = true := by
  decide +kernel
example : readReply (reply (ascii "bar" ++ [0])) .string8 = some (some (.text (ascii "bar"))) := by decide +kernel
example : readReply (reply (leBytes 4 3 ++ [0x62, 0, 0x61, 0, 0x72, 0, 0, 0])) .string16 =
  some (some (.text (ascii "bar"))) := by decide +kernel

/-- `reply_bytes` without the header: an integer and a NULL object. -/
def body : Bytes := leBytes 4 42 ++ flat typeBinder 0x17f 0

-- test_to_local
example : ((Proxy.forwardedReply env (reply body [4] |>.bind (·.buffer)) .io64 [] (fun _ => none)).toOption.map
    fun w => (w.bytes, w.offsets, w.buffersSize)) = some (body, [4], 0) := by decide +kernel

/-! ### unit_remote_request.c -/

/-- TEST_RPC_HEADER -/
def header : Bytes := leBytes 4 0x400000 ++ leBytes 4 3 ++ [0x66, 0, 0x6f, 0, 0x6f, 0, 0, 0]

/-- gbinder_remote_request_new and gbinder_remote_request_set_data. -/
def request (b : Bytes) (objects : List Nat := []) : Option Request :=
  (RemoteReq.setData .io64 .aidl 1 (header ++ b) objects).toOption.map fun q => { pid := 0, euid := 0, req := some q }

/-- What's read. -/
def readRequest (q : Option Request) (k : Get) : Option (Option Val) := (Request.read q k).toOption

-- test_null, test_basic
example : gets.all (fun k => readRequest none k = some none) = true := by decide +kernel
example : Request.interface none = none ∧ Request.sender none = (2 ^ 32 - 1, 2 ^ 32 - 1) := by decide +kernel
example : Request.interface (some { pid := 0, euid := 0, req := none }) = none ∧
  readRequest (some { pid := 0, euid := 0, req := none }) .object = some none := by decide +kernel

-- test_int32, test_int64, test_string8, test_string16
example : Request.interface (request (leBytes 4 42)) = some (ascii "foo") ∧
  [.int32, .uint32].all (fun k => readRequest (request (leBytes 4 42)) k = some (some (.num 42))) = true := by
  decide +kernel
example : [.int64, .uint64].all (fun k => readRequest (request (leBytes 8 42)) k = some (some (.num 42))) = true := by
  decide +kernel
example : readRequest (request (ascii "bar" ++ [0])) .string8 = some (some (.text (ascii "bar"))) := by decide +kernel
example : readRequest (request (leBytes 4 3 ++ [0x62, 0, 0x61, 0, 0x72, 0, 0, 0])) .string16 =
  some (some (.text (ascii "bar"))) := by decide +kernel

/-- gbinder_remote_request_convert_to_local with such a protocol. The offset of the object is wrong in that test (4 is
where the length of the interface name is); what's there isn't an object, it's copied, and the offset is kept. -/
def converted (p : Protocol) : Option (Bytes × List Nat × Nat) :=
  match RemoteReq.setData .io64 .aidl 1 (header ++ body) [4] with
  | .ok q =>
    match Proxy.convertRequest env q (some { id := 1, protocol := .aidl, data := header ++ body, objects := [4] })
        .io64 p [] (fun _ => none) with
    | .ok (some w) => some (w.bytes, w.offsets, w.buffersSize)
    | _ => none
  | _ => none

-- test_to_local
example : converted .aidl = some (header ++ body, [4], 0) := by decide +kernel
example : converted .hidl = some (ascii "foo" ++ [0] ++ body, [4], 0) := by decide +kernel

end Msgs
end Gb.Conformance
