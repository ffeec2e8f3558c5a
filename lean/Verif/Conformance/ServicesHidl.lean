import Verif.Model.Services
import Verif.Model.Notify
import Verif.Model.Names
import Verif.Model.Rpc
import Verif.Conformance.Services
/-
The service manager of unit/common/test_servicemanager_hidl.c understands the requests of the model, and the model makes
of its replies and notifications what unit/unit_servicemanager_hidl/unit_servicemanager_hidl.c expects. These are tests of
the model, not proofs of anything.
-/
set_option autoImplicit false

namespace Gb.Conformance
namespace SvcHidl

/-- MANAGER_IFACE -/
def iface : Bytes := ascii "android.hidl.manager@1.0::IServiceManager"

/-- BASE_IFACE -/
def base : Bytes := ascii "android.hidl.base@1.0::IBase"

/-- The name which is used by the tests. -/
def name : Bytes := ascii "android.hidl.base@1.0::IBase/test"

/-- The strings which have to be in the memory: the name, its two parts and an empty one. -/
def strings : Mem := [(0x1000, name ++ [0]), (0x2000, base ++ [0]), (0x3000, ascii "test" ++ [0]), (0x4000, [0])]

/-- The simulated kernel doesn't copy buffers: what has been written by one side is where the other one reads. -/
structure Arrived where
  mem : Mem
  req : RemoteReq

/-- A transaction as it arrives. -/
def arrive (header : Bytes) (code : Nat) (ops : List WOp) : Option Arrived :=
  match writeRpcHeader env { io := .io64, protocol := .hidl, mem := strings } .hidl header with
  | .ok w =>
    match WOp.runAll env w ops with
    | .ok w => (RemoteReq.setData .io64 .hidl code (Svc.translate w.bytes w.offsets) w.offsets).toOption.map fun q => ⟨w.mem, q⟩
    | .error _ => none
  | .error _ => none

/-- A reply as it arrives. -/
def replied (ops : List WOp) : Option (Mem × Reader) :=
  match WOp.runAll env { io := .io64, protocol := .hidl, mem := strings } ops with
  | .ok w => some (w.mem, Rd.reader w.bytes w.offsets true .io64 .hidl)
  | .error _ => none

/-- Two strings, and what follows. -/
def two (a : Arrived) : Option (Bytes × Bytes × Reader) :=
  match a.req.initReader.readHidlString a.mem with
  | .ok (some x) r =>
    match r.readHidlString a.mem with
    | .ok (some y) r => some (x, y, r)
    | _ => none
  | _ => none

/-- The objects known to the manager. -/
abbrev Table := List (Bytes × Nat)

/-- test_servicemanager_hidl_get -/
def onGet (t : Table) (a : Arrived) : Option (Mem × Reader) :=
  match two a with
  | some (ifname, inst, _) =>
    replied [.int32 0, .remoteObject ((t.lookup (ifname ++ 0x2f :: inst)).or (t.lookup inst))]
  | none => none

/-- test_servicemanager_hidl_add -/
def onAdd (t : Table) (a : Arrived) : Option Table :=
  match a.req.initReader.readHidlString a.mem with
  | .ok (some s) r =>
    match r.readNullableObject with
    | .ok (some h) _ => some ((s, h) :: t)
    | _ => none
  | _ => none

/-- test_servicemanager_hidl_list: `at_` is where copies of the names are -/
def onList (at_ : List Nat) (a : Arrived) : Option (Mem × Reader) :=
  if a.req.initReader.atEnd then replied [.int32 0, .hidlStringVec at_] else none

/-- test_servicemanager_hidl_register_for_notifications: what is watched, by whom, and the reply -/
def onRegister (a : Arrived) : Option (Bytes × Bytes × Nat × Bool) :=
  match two a with
  | some (x, y, r) =>
    match r.readNullableObject with
    | .ok (some h) r => some (x, y, h, r.atEnd)
    | _ => none
  | none => none

/-- gbinder_servicemanager_get_service: the handle -/
def get (q : Services.Query) (t : Table) : Option (Option Nat) := do
  let ops ← Services.getServiceOps q .hidl
  let a ← arrive iface (Services.getCode .hidl) ops
  if a.req.iface = some iface then (Services.getServiceReply .hidl ((onGet t a).map (·.2))).toOption else none

/-- gbinder_servicemanager_add_service: what becomes of the table -/
def add (t : Table) : Option Table := do
  let a ← arrive iface Client.Kind.hidl.addCode (Client.addServiceOps name 0x1000 { addr := 0x1000, stability := 12 } .hidl)
  if a.req.iface = some iface then onAdd t a else none

/-- gbinder_servicemanager_list -/
def list (at_ : List Nat) : Option (Option (List Bytes)) :=
  match (arrive iface (Services.listCode .hidl) (Services.listOps 0 .hidl)).bind (onList at_) with
  | none => none
  | some (m, r) =>
    match Lists.hidl m (some r) with
    | .done l => some l
    | _ => none

/-- test_servicemanager_hidl_notify: the status and the name which the handlers are told -/
def notified (preexisting : Bool) (code : Nat := 1) : Option (Int × Option Bytes) := do
  let a ← arrive (ascii "android.hidl.manager@1.0::IServiceNotification") code
    [.hidlString 0x2000, .hidlString 0x3000, .bool preexisting]
  (Notify.notification a.mem a.req code).toOption

-- test_get: this one fails because of unexpected name format
example : Services.getServiceOps ⟨ascii "test", 0, 0⟩ .hidl = none := by decide +kernel
-- test_get: query the object (it's not there yet)
example : Services.split name = some (base, ascii "test") := by decide +kernel
example : get ⟨name, 0x2000, 0x3000⟩ [] = some none := by decide +kernel
-- test_get: register object, it's in the table of the manager
example : add [] = some [(name, 1)] := by decide +kernel
-- test_get: this time it must be there
example : get ⟨name, 0x2000, 0x3000⟩ [(name, 1)] = some (some 1) := by decide +kernel
-- test_list: there's nothing there yet
example : list [] = some (some []) := by decide +kernel
-- test_list: now the name must be there
example : list [0x1000] = some (some [name]) := by decide +kernel
-- test_notify: invalid names
example : [ascii "", ascii ","].all (fun s => Names.norm .hidl s == none) = true := by decide +kernel
-- test_notify: actually start watching
example : Names.norm .hidl name = some base := by decide +kernel
example : (arrive iface Notify.registerCode (Notify.registerOps 0x2000 0x4000 { addr := 0x9000, stability := 12 })).bind onRegister =
  some (base, [], 1, true) := by decide +kernel
example : ((replied [.int32 0, .bool true]).bind fun x => (Notify.accepted 0 x.2).toOption) = some true := by decide +kernel
-- test_notify: the notification is received
example : notified false = some (0, some name) ∧ notified true = some (0, some name) := by decide +kernel
-- anything else is refused
example : notified false 2 = some (1, none) := by decide +kernel

end SvcHidl
end Gb.Conformance
