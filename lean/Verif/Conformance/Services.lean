import Verif.Model.Services
import Verif.Model.Rpc
import Verif.Conformance.Reader
/-
The service managers of unit/unit_servicemanager_aidl/unit_servicemanager_aidl.c, unit_servicemanager_aidl2.c,
unit_servicemanager_aidl3.c and unit_servicemanager_aidl4.c understand the requests of the model, and the model makes of
their replies what the tests expect. These are tests of the model, not proofs of anything.
-/
set_option autoImplicit false

namespace Gb.Conformance
namespace Svc
open Client (Kind)

/-- The protocol of the device, see the configuration written by test_context_init of each test. -/
def proto : Kind → Protocol
  | .aidl => .aidl
  | .aidl2 => .aidl2
  | .aidl3 | .aidl4 => .aidl3
  | .hidl => .hidl

/-- SVCMGR_IFACE -/
def iface : Bytes := "android.os.IServiceManager".toUTF8.data.toList

/-- What the simulated kernel (unit/common/test_binder.c) does with a local object: it becomes handle 1. -/
def translate (b : Bytes) : List Nat → Bytes
  | [] => b
  | o :: offs =>
    if (b.drop o).take 4 = leBytes 4 typeBinder ∧ (b.drop (o + 8)).take 8 ≠ leBytes 8 0 then
      translate (b.take o ++ leBytes 4 typeHandle ++ (b.drop (o + 4)).take 4 ++ leBytes 8 1 ++ b.drop (o + 16)) offs
    else translate b offs

/-- The objects known to the manager. -/
abbrev Table := List (Bytes × Nat)

/-- A transaction as it arrives. -/
def arrive (kind : Kind) (code : Nat) (ops : List WOp) : Option RemoteReq :=
  match writeRpcHeader env { io := .io64, protocol := proto kind } (proto kind) iface with
  | .ok w =>
    match WOp.runAll env w ops with
    | .ok w => (RemoteReq.setData .io64 (proto kind) code (translate w.bytes w.offsets) w.offsets).toOption
    | .error _ => none
  | .error _ => none

/-- A reply as it arrives. -/
def replied (kind : Kind) (ops : List WOp) : Option Reader :=
  match WOp.runAll env { io := .io64, protocol := proto kind } ops with
  | .ok w => some (Rd.reader w.bytes w.offsets true .io64 (proto kind))
  | .error _ => none

/-- The words which follow. -/
def words : Nat → Reader → Option (List Nat × Reader)
  | 0, r => some ([], r)
  | n + 1, r =>
    match r.readUInt32 with
    | .ok a r => (words n r).map fun x => (a :: x.1, x.2)
    | _ => none

/-- CHECK_SERVICE_TRANSACTION of servicemanager_aidl_handler, servicemanager_aidl3_handler and so on. -/
def onGet (kind : Kind) (t : Table) (q : RemoteReq) : Option Reader :=
  match q.initReader.readString16 with
  | .ok (some s) _ =>
    match kind, t.lookup s with
    | .aidl, some h | .aidl2, some h => replied kind [.remoteObject (some h)]
    | .aidl, none | .aidl2, none => replied kind [.int32 0]
    | _, h => replied kind [.int32 0, .remoteObject h]
  | _ => none

/-- ADD_SERVICE_TRANSACTION: the table after that, the number of words depends on the manager. -/
def onAdd (kind : Kind) (t : Table) (q : RemoteReq) : Option (Table × List Nat × Bool) :=
  match q.initReader.readString16 with
  | .ok (some s) r =>
    match r.readNullableObject with
    | .ok (some h) r =>
      (words (match kind with | .aidl => 1 | .aidl4 => 3 | _ => 2) r).map fun x => ((s, h) :: t, x.1, x.2.atEnd)
    | _ => none
  | _ => none

/-- LIST_SERVICES_TRANSACTION -/
def onList (kind : Kind) (t : Table) (q : RemoteReq) : Option Reader :=
  match kind with
  | .aidl =>
    match words 1 q.initReader with
    | some ([i], _) => (t[i]?).bind fun e => replied kind [.string16 (some e.1)]
    | _ => none
  | .aidl2 =>
    match words 2 q.initReader with
    | some ([i, _], _) => (t[i]?).bind fun e => replied kind [.string16 (some e.1)]
    | _ => none
  | _ =>
    match words 1 q.initReader, t with
    | some _, [e] => replied kind [.int32 0, .int32 1, .string16 (some e.1)]
    | _, _ => none

/-- "name" -/
def name : Bytes := [0x6e, 0x61, 0x6d, 0x65]

/-- All of them. -/
def kinds : List Kind := [.aidl, .aidl2, .aidl3, .aidl4]

/-- gbinder_servicemanager_get_service_sync: the handle. -/
def get (kind : Kind) (t : Table) : Option (Option Nat) := do
  let ops ← Services.getServiceOps ⟨name, 0, 0⟩ kind
  let q ← arrive kind (Services.getCode kind) ops
  if q.iface = some iface then (Services.getServiceReply kind (onGet kind t q)).toOption else none

/-- gbinder_servicemanager_add_service_sync: what becomes of the table. -/
def add (kind : Kind) (t : Table) : Option (Table × List Nat × Bool) := do
  let q ← arrive kind kind.addCode (Client.addServiceOps name 0 { addr := 0x1000, stability := 12 } kind)
  if q.iface = some iface then onAdd kind t q else none

/-- gbinder_servicemanager_list_sync -/
def list (kind : Kind) (t : Table) : Option (Option (List Bytes)) :=
  match Services.list kind [] (fun ops => (arrive kind (Services.listCode kind) ops).bind (onList kind t)) 10 with
  | .done l => some l
  | _ => none

-- test_get: it's not there yet
example : kinds.all (fun k => get k [] == some none) = true := by decide +kernel
-- test_get: the object is registered. The manager gets the name, the object and the words which follow
example : add .aidl [] = some ([(name, 1)], [0], true) := by decide +kernel
example : add .aidl2 [] = some ([(name, 1)], [0, 8], true) := by decide +kernel
example : add .aidl3 [] = some ([(name, 1)], [0, 8], true) := by decide +kernel
example : (add .aidl4 []).map (fun x => (x.1, x.2.1.drop 1, x.2.2)) = some ([(name, 1)], [0, 8], true) := by decide +kernel
-- test_get: this time it must be there
example : kinds.all (fun k => get k [(name, 1)] == some (some 1)) = true := by decide +kernel
-- test_list: there's nothing there yet
example : kinds.all (fun k => list k [] == some (some [])) = true := by decide +kernel
-- test_list: now the name must be there
example : kinds.all (fun k => list k [(name, 1)] == some (some [name])) = true := by decide +kernel

end Svc
end Gb.Conformance
