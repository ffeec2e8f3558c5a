import Verif.Model.Dispatch
import Verif.Conformance.Reader
/-
What unit/unit_local_object/unit_local_object.c expects of the transactions which are handled by the
library is what the model does. These are tests of the model, not proofs of anything.
-/
set_option autoImplicit false

namespace Gb.Conformance
namespace Obj
open Dispatch

/-- gbinder_local_object_new (gbinder_local_object.c:413-448) on hwbinder: the object and the memory. -/
def new (ifaces : Option (List Bytes)) (txproc : Bool) : Mem × Target :=
  match initBase env [] ifaces with
  | .ok (m, a) => (m, { io := .io64, proto := .hidl, ifaces := (a.filterMap id).filter (· ≠ 0), txproc })
  | .error _ => ([], { io := .io32, proto := .aidl, ifaces := [], txproc })

/-- gbinder_local_object_handle_looper_transaction: the status, the data of the reply, the offsets of
objects and the size of the buffers (gbinder_local_object.c:233-267). -/
def looper (ifaces : Option (List Bytes)) (code : Nat) (txproc : Bool := false) :
    Option (Int × Option Bytes × List Nat × Nat) :=
  match handleLooper env (new ifaces txproc).1 (new ifaces txproc).2 code with
  | .ok (some w, st) => some (st, some w.bytes, w.offsets, w.buffersSize)
  | .ok (none, st) => some (st, none, [], 0)
  | .error _ => none

/-- gbinder_local_object_can_handle_transaction (gbinder_local_object.c:99-121). -/
def can (txproc : Bool) (iface : Option Bytes) (code : Nat) : Driver.Support :=
  canHandle (new none txproc).2 iface code

/-- gbinder_local_object_handle_transaction without a function to handle it: the status
(gbinder_local_object.c:123-140). -/
def main (code : Nat) : Int :=
  (handleMain (new none false).2 (fun _ _ => (none, 0)) code 0).2.1

/-- base_interface (unit_local_object.c:63). -/
def base : Bytes := ascii "android.hidl.base@1.0::IBase"

-- test_basic
example : can false (some base) (2 ^ 32 - 1) = .notSupported := by decide +kernel

-- test_ping
example : can false none pingTx = .looper := by decide +kernel
example : main pingTx = -74 := by decide +kernel
example : looper none pingTx = some (0, some [0, 0, 0, 0], [], 0) := by decide +kernel

-- test_interface
example : can false none interfaceTx = .looper := by decide +kernel
example : main interfaceTx = -74 := by decide +kernel
example : looper (some [ascii "x"]) interfaceTx =
  some (0, some [1, 0, 0, 0, 0x78, 0, 0, 0], [], 0) := by decide +kernel

-- test_hidl_ping
example : (RemoteReq.setData .io64 .hidl hidlPingTx (base ++ [0, 0, 0, 0]) []).toOption.map (·.iface) =
  some (some base) := by decide +kernel
example : can false (some base) hidlPingTx = .looper := by decide +kernel
example : main hidlPingTx = -74 := by decide +kernel
example : looper none hidlPingTx = some (0, some [0, 0, 0, 0], [], 0) := by decide +kernel

-- test_get_descriptor
example : can false (some base) hidlDescriptorTx = .looper := by decide +kernel
example : main hidlDescriptorTx = -74 := by decide +kernel
example : (looper none hidlDescriptorTx).map (·.1) = some 0 := by decide +kernel
example : looper none (2 ^ 32 - 1) = some (-74, none, [], 0) := by decide +kernel
example : main (2 ^ 32 - 1) = -74 := by decide +kernel

-- test_descriptor_chain
example : can false (some base) hidlChainTx = .looper := by decide +kernel
example : main hidlChainTx = -74 := by decide +kernel
example : (looper (some [base]) hidlChainTx).map
    (fun r => (r.1, r.2.2.1.length, r.2.2.2)) = some (0, 3, 64) := by decide +kernel

-- test_custom_iface
example : can true (some base) hidlChainTx = .looper := by decide +kernel
example : can true (some (ascii "foo")) hidlChainTx = .supported := by decide +kernel
example : can true (some (ascii "foo")) 2 = .supported := by decide +kernel

/-- test_reader_data_init_for_reply (unit_local_object.c:65-88): the reply is read where it was
written. -/
def reply (ifaces : Option (List Bytes)) (code : Nat) : Option (Mem × Reader) :=
  match handleLooper env (new ifaces true).1 (new ifaces true).2 code with
  | .ok (some w, _) => some (w.mem, Reader.init .io64 .hidl w.bytes w.offsets true 0 w.bytes.length)
  | _ => none

/-- gbinder_reader_read_int32 and gbinder_reader_read_hidl_string. -/
def readString (p : Option (Mem × Reader)) : Option (Nat × Option Bytes) :=
  match p with
  | some (m, r) =>
    match r.readUInt32 with
    | .ok st r' => (Rd.got (r'.readHidlString m)).map fun s => (st, s)
    | _ => none
  | none => none

/-- gbinder_reader_read_int32 and gbinder_reader_read_hidl_string_vec. -/
def readStrings (p : Option (Mem × Reader)) : Option (Nat × Option (List Bytes)) :=
  match p with
  | some (m, r) =>
    match r.readUInt32 with
    | .ok st r' => (Rd.got (r'.readHidlStringVec m)).map fun s => (st, s)
    | _ => none
  | none => none

-- test_custom_iface
example : readString (reply (some [ascii "foo"]) hidlDescriptorTx) =
  some (0, some (ascii "foo")) := by decide +kernel
example : readStrings (reply (some [ascii "foo"]) hidlChainTx) =
  some (0, some [ascii "foo", base]) := by decide +kernel
example : (RemoteReq.setData .io64 .hidl 2 (ascii "foo" ++ [0]) []).toOption.map (·.iface) =
  some (some (ascii "foo")) := by decide +kernel
example : (handleMain (new (some [ascii "foo"]) true).2 (fun _ _ => (none, 0)) 2 0).2 =
  (0, [(2, 0)]) := by decide +kernel

end Obj
end Gb.Conformance
