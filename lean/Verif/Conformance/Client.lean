import Verif.Model.Parcels
import Verif.Props.C45
import Verif.Conformance.Ipc
/-
What unit/unit_client/unit_client.c and unit/unit_cleanup/unit_cleanup.c expect of the code is what the model does. These
are tests of the model, not proofs of anything.
-/
set_option autoImplicit false

namespace Gb.Conformance
namespace Cl
open Client Driver
open Ipc (ends world single nothing cfg br brReply foo)

/-- gbinder_client_new2 with handle 0. -/
def new (infos : List Info) (dead : Bool := false) : Option Client :=
  match new2 env C45.qsort .io64 .aidl [] infos with
  | .ok rs => some { dead, handle := 0, ranges := rs }
  | .error _ => none

/-- The interfaces of test_interfaces. -/
def ifaces : List Info := [⟨some [0x33, 0x33], 33⟩, ⟨some [0x31, 0x31], 11⟩, ⟨some [0x32, 0x32], 22⟩]

/-- test_client_new(0, "foo"), test_client_new(0, NULL) (unit_client.c:54-66) -/
def client (iface : Option Bytes) (dead : Bool := false) : Option Client := new [⟨iface, 2 ^ 32 - 1⟩] dead

/-- "foo" -/
def fooName : Option Bytes := some [0x66, 0x6f, 0x6f]

/-- gbinder_client_transact_sync_reply -/
def reply (c : Option Client) (code : Nat) (req : Option Writer) (l : List Bytes) (m : Mem := []) :
    Option (Bool × Option Int) :=
  (ends (transactSyncReply cfg (world (single l) m nothing) (fun log => log.contains (.own 0x1000)) 200 c code req
    {})).map (·.1)

/-- gbinder_client_transact_sync_oneway -/
def oneway (c : Option Client) (code : Nat) (req : Option Writer) (l : List Bytes) : Option Int :=
  (ends (transactSyncOneway cfg (world (single l) [] nothing) 200 c code req {})).map (·.1)

-- test_null (unit_client.c:75-93)
example : reply none 0 none [] = some (false, none) := by decide +kernel
example : oneway none 0 none [] = some (-22) := by decide +kernel
example : Client.transact none 0 0 none = none := by decide +kernel

-- test_interfaces (unit_client.c:124-180)
example : (new ifaces).map (fun c => (interface c.ranges, [11, 22, 33, 34].map (interface2 c.ranges))) =
    some (some [0x31, 0x31], [some [0x31, 0x31], some [0x32, 0x32], some [0x33, 0x33], none]) := by decide +kernel
example : (new ifaces).map (fun c => (rpcHeader c.ranges 34, newRequest2 .io64 .aidl [] c.ranges 34)) =
    some (none, none) := by decide +kernel
example : reply (new ifaces) 34 none [] = some (false, none) := by decide +kernel
example : oneway (new ifaces) 34 none [] = some (-22) := by decide +kernel
example : Client.transact (new ifaces) 34 0 none = none := by decide +kernel
example : ((new ifaces).map fun c => (newRequest2 .io64 .aidl [] c.ranges 33).map (·.bytes) ==
    rpcHeader c.ranges 33 && (rpcHeader c.ranges 33).isSome) = some true := by decide +kernel
example : (new []).map (fun c => (interface c.ranges, interface2 c.ranges 1)) = some (none, none) := by decide +kernel

-- test_no_header (unit_client.c:186-200)
example : oneway (client none) 0 none [br .transactionComplete] = some 0 := by decide +kernel

-- test_dead (unit_client.c:216-241)
example : reply (client fooName true) 0 none [] = some (false, none) := by decide +kernel
example : oneway (client fooName true) 0 none [] = some (-116) := by decide +kernel
example : Client.transact (client fooName true) 0 0 none = none := by decide +kernel

/-- gbinder_client_new_request -/
def request : Option Writer := (client fooName).bind fun c => (firstRequest .io64 .aidl [] c.ranges).toOption

-- test_sync_oneway (unit_client.c:245-267), with a request and without
example : request.isSome = true := by decide +kernel
example : oneway (client fooName) 0 request [br .transactionComplete] = some 0 := by decide +kernel
example : oneway (client fooName) 0 none [br .transactionComplete] = some 0 := by decide +kernel

-- test_sync_reply (unit_client.c:273-330), with a request and without
example : [request, none].all (fun q => reply (client fooName) 0 q
    [br .noop, br .transactionComplete, br .noop, brReply 0 1 foo] [(0x1000, foo)] == some (true, some 0)) = true := by
  decide +kernel

-- test_reply (unit_client.c:377-433), with a request and without: both are the same to the peer
example : (Client.transact (client fooName) 0 0 request).map (fun x => (x.handle, x.code, x.req.bytes)) =
    (Client.transact (client fooName) 0 0 none).map (fun x => (x.handle, x.code, x.req.bytes)) := by decide +kernel
example : ((Client.transact (client fooName) 0 0 none).bind fun x =>
    (ends (execTx cfg (world (single [br .noop, br .transactionComplete, br .noop, brReply 0 1 foo]) [(0x1000, foo)]
      nothing) (fun log => log.contains (.own 0x1000)) 200 x {})).map (·.1)) = some (true, 0) := by decide +kernel

end Cl

namespace Cln
open Parcels

/-- The callbacks which have been called. -/
def ran (s : State) : List (Nat × Nat) :=
  s.log.filterMap fun
    | .ran _ (.user f x) => some (f, x)
    | _ => none

-- unit_cleanup.c test_basic: both are called once when it's freed
example : (exec (step env) {} [.new .io64 .aidl, .op 0 (.addCleanup 1 10), .op 0 (.addCleanup 1 20)]).holds
    (fun s => ran s == []) = true := by decide +kernel
example : (exec (step env) {} [.new .io64 .aidl, .op 0 (.addCleanup 1 10), .op 0 (.addCleanup 1 20), .unref 0, .run 0,
    .run 0, .run 0]).holds (fun s => ran s == [(1, 10), (1, 20)] && (s.parcel 0).isNone) = true := by decide +kernel

-- unit_cleanup.c test_reset: both are called when it's reset, and not again when it's freed
example : (exec (step env) {} [.new .io64 .aidl, .op 0 (.addCleanup 1 10), .op 0 (.addCleanup 1 20), .reset 0, .run 0,
    .run 0, .run 0]).holds (fun s => ran s == [(1, 10), (1, 20)] && (s.parcel 0).isSome) = true := by decide +kernel
example : (exec (step env) {} [.new .io64 .aidl, .op 0 (.addCleanup 1 10), .op 0 (.addCleanup 1 20), .reset 0, .run 0,
    .run 0, .run 0, .unref 0, .run 0]).holds (fun s => ran s == [(1, 10), (1, 20)] && (s.parcel 0).isNone) = true := by
  decide +kernel

end Cln
end Gb.Conformance
