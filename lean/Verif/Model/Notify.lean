import Verif.Model.Client
import Verif.Model.Reader
import Verif.Model.Rpc
import Verif.Lemmas.Text
/-
How src/gbinder_servicemanager_hidl.c asks the service manager to be told about services which are registered, and what it
makes of what it's told.
-/
set_option autoImplicit false

namespace Gb.Notify

/-- gbinder_servicemanager_hidl.c:90-91 SERVICEMANAGER_HIDL_NOTIFICATION_IFACE -/
def iface : List Char := "android.hidl.manager@1.0::IServiceNotification".toList

/-- gbinder_servicemanager_hidl.c:74-83 REGISTER_FOR_NOTIFICATIONS_TRANSACTION: what counts from GET_TRANSACTION, which is
GBINDER_FIRST_CALL_TRANSACTION. -/
def registerCode : Nat := 6

/-- gbinder_servicemanager_hidl.c:85-87 ON_REGISTRATION_TRANSACTION -/
def onRegistration : Nat := 1

/-- gbinder_servicemanager_hidl.c:378-380: what is appended to a new request, with the addresses of the name and of "" -/
def registerOps (nameAt emptyAt : Nat) (callback : LocalRef) : List WOp :=
  [.hidlString nameAt, .hidlString emptyAt, .localObject (some callback)]

/-- gbinder_servicemanager_hidl.c:104-113: what is passed to gbinder_servicemanager_service_registered, given that both
names have been read; `none` if it isn't called. -/
def registered (fqname name : Option Bytes) (r : Reader) : Except UB (Option Bytes) :=
  match fqname, name with
  | some f, some n =>
    match r.readBool with
    | .ub k => .error k
    | .fail _ => .ok none
    | .ok _ r => .ok (if r.atEnd then some (f ++ 0x2f :: n) else none)
  | _, _ => .ok none

/-- gbinder_servicemanager_hidl.c:93-116 `gbinder_servicemanager_hidl_handle_registration`. Both strings are read in any case. -/
def handleRegistration (m : Mem) (r : Reader) : Except UB (Option Bytes) :=
  match r.readHidlString m with
  | .ub k => .error k
  | .fail r1 | .ok none r1 =>
    match r1.readHidlString m with
    | .ub k => .error k
    | _ => .ok none
  | .ok (some f) r1 =>
    match r1.readHidlString m with
    | .ub k => .error k
    | .fail _ => .ok none
    | .ok n r2 => registered (some f) n r2

/-- gbinder_servicemanager_hidl.c:118-152 `gbinder_servicemanager_hidl_notification`: the status, and what is passed to
gbinder_servicemanager_service_registered, if anything. There is no reply. GBINDER_STATUS_OK is zero and GBINDER_STATUS_FAILED is one (gbinder_types.h:170-172). -/
def notification (m : Mem) (rq : RemoteReq) (code : Nat) : Except UB (Int × Option Bytes) :=
  if rq.iface = some (utf8Text iface) then
    if code = onRegistration then (handleRegistration m rq.initReader).map fun x => (0, x)
    else .ok (1, none)
  else .ok (1, none)

/-- gbinder_servicemanager_hidl.c:287-306 in gbinder_servicemanager_hidl_watch_call_reply: whether it's considered registered, given the
status of the transaction and the reply (which is there if the status is GBINDER_STATUS_OK) -/
def accepted (status : Int) (r : Reader) : Except UB Bool :=
  if status = 0 then
    match r.readUInt32 with
    | .ub k => .error k
    | .fail _ => .ok false
    | .ok v r1 =>
      match r1.readBool with
      | .ub k => .error k
      | .fail _ => .ok false
      | .ok b _ => .ok (decide (v = 0) && b)
  else .ok false

end Gb.Notify
