import Verif.Model.Client
import Verif.Model.Lists
/-
How services are looked up: src/gbinder_servicemanager_aidl.c, src/gbinder_servicemanager_aidl3.c and
src/gbinder_servicemanager_hidl.c. A reply is represented by the reader initialized with
gbinder_remote_reply_init_reader.
-/
set_option autoImplicit false

namespace Gb.Services
open Client (Kind)

/-- gbinder_servicemanager_hidl.c:191-202: strchr(fqinstance, '/'), then what's before it, and what's after. -/
def split : Bytes → Option (Bytes × Bytes)
  | [] => none
  | c :: l => if c = 0x2f then some ([], l) else (split l).map fun x => (c :: x.1, x.2)

/-- What is looked up, with the addresses of both parts for HIDL (gbinder_servicemanager_hidl.c:197-205; the second one
is a part of the caller's string) -/
structure Query where
  name : Bytes
  fqnameAt : Nat
  instanceAt : Nat
  deriving DecidableEq, Repr

/-- gbinder_servicemanager_aidl.c:201-202 (also aidl2), gbinder_servicemanager_aidl3.c:60-67 (also aidl4) and
gbinder_servicemanager_hidl.c:191-205: what is appended to a new request. There is no request if there is no separator. -/
def getServiceOps (q : Query) : Kind → Option (List WOp)
  | .hidl => (split q.name).map fun _ => [.hidlString q.fqnameAt, .hidlString q.instanceAt]
  | _ => some [.string16 (some q.name)]

/-- The codes of the transactions: gbinder_servicemanager_aidl.h:58-63 CHECK_SERVICE_TRANSACTION,
gbinder_servicemanager_hidl.c:74-76 GET_TRANSACTION. -/
def getCode : Kind → Nat
  | .hidl => 1
  | _ => 2

/-- gbinder_servicemanager_aidl.c:133-143, gbinder_servicemanager_aidl2.c:49-60, gbinder_servicemanager_aidl3.c:89-95
(also aidl4) and gbinder_servicemanager_hidl.c:159-161: what is appended to a new request. DUMP_FLAG_PRIORITY_ALL is 15
(gbinder_servicemanager_aidl.h:66). -/
def listOps (index : Nat) : Kind → List WOp
  | .aidl => [.int32 (UInt32.ofNat index)]
  | .aidl2 => [.int32 (UInt32.ofNat index), .int32 15]
  | .aidl3 | .aidl4 => [.int32 15]
  | .hidl => []

/-- The codes of the transactions: gbinder_servicemanager_aidl.h:58-63 LIST_SERVICES_TRANSACTION,
gbinder_servicemanager_hidl.c:73-82 LIST_TRANSACTION. -/
def listCode : Kind → Nat
  | .hidl => 4
  | _ => 4

/-- The method `list` of the class: gbinder_servicemanager_aidl.c:307-314, gbinder_servicemanager_aidl2.c:85-92,
gbinder_servicemanager_aidl3.c:144-154, gbinder_servicemanager_aidl4.c:97-106 and gbinder_servicemanager_hidl.c:444-460.
`peer` replies to the request in which that has been written after the header, `m` is the memory. -/
def list (kind : Kind) (m : Mem) (peer : List WOp → Option Reader) (n : Nat) : Lists.Outcome (Option (List Bytes)) :=
  match kind with
  | .aidl | .aidl2 =>
    match Lists.aidl (fun i => peer (listOps i kind)) n [] [] with
    | .done l => .done (some l.1)
    | .running => .running
    | .ub => .ub
  | .aidl3 | .aidl4 =>
    match Lists.aidl3 (peer (listOps 0 kind)) with
    | .done l => .done (some (Lists.visible l))
    | .running => .running
    | .ub => .ub
  | .hidl => Lists.hidl m (peer (listOps 0 kind))

/-- gbinder_reader.c:373-381 `gbinder_reader_read_object`: the handle, `none` is NULL -/
def readObject (r : Reader) : Except UB (Option Nat) :=
  match r.readNullableObject with
  | .ok h _ => .ok h
  | .fail _ => .ok none
  | .ub k => .error k

/-- The reader after gbinder_reader_read_int32, the result of which is ignored
(gbinder_servicemanager_aidl3.c:71, gbinder_servicemanager_hidl.c:215-216). -/
def afterInt32 (r : Reader) : Except UB Reader :=
  match r.readUInt32 with
  | .ok _ r => .ok r
  | .fail r => .ok r
  | .ub k => .error k

/-- gbinder_servicemanager_aidl.c:208-211, gbinder_servicemanager_aidl3.c:68-76 and
gbinder_servicemanager_hidl.c:208-221: the handle of the object which is returned, given the reply. GVERIFY and
GASSERT don't check anything. -/
def getServiceReply (kind : Kind) (reply : Option Reader) : Except UB (Option Nat) :=
  match reply with
  | none => .ok none
  | some r =>
    match kind with
    | .aidl | .aidl2 => readObject r
    | _ => (afterInt32 r).bind readObject

/-- gbinder_servicemanager.c:552: the interface of the client, which is gbinder_servicemanager_aidl.c:63, 311 (the classes
for later versions are derived from that one) or gbinder_servicemanager_hidl.c:89, 449. -/
def iface : Kind → Bytes
  | .hidl => "android.hidl.manager@1.0::IServiceManager".toUTF8.data.toList
  | _ => "android.os.IServiceManager".toUTF8.data.toList

end Gb.Services
