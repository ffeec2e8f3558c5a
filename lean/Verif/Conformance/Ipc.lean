import Verif.Model.Dispatch
import Verif.Model.DriverCmds
import Verif.Model.Messages
import Verif.Conformance.Reader
/-
What unit/unit_driver/unit_driver.c and unit/unit_ipc/unit_ipc.c expect of transactions is what the model does. These
are tests of the model, not proofs of anything. The commands of the kernel arrive one by one, as many as there's room
for, and in pieces of 5 bytes.
-/
set_option autoImplicit false

namespace Gb.Conformance
namespace Ipc
open Driver

/-- A command of the kernel (unit/common/test_binder.c). -/
def br (c : BR) (d : Bytes := []) : Bytes := leBytes 4 (c.code .io64) ++ d

/-- test_binder_br_reply: the data is at the address 0x1000. -/
def brReply (handle code : Nat) (b : Bytes) : Bytes :=
  br .reply (({ target := handle, code, dataSize := b.length, buffer := 0x1000 } : TxHeader).bytes .io64)

/-- test_binder_br_reply_status: the status is at the address 0x2000. -/
def brStatus : Bytes :=
  br .reply (({ flags := tfStatusCode, dataSize := 4, buffer := 0x2000 } : TxHeader).bytes .io64)

/-- test_binder_br_transaction to the object at the address 0x10: the data is at the address `a`. -/
def brTx (a code : Nat) (b : Bytes) : Bytes :=
  br .transaction (({ target := 0x10, code, pid := 123, euid := 456, dataSize := b.length, buffer := a } : TxHeader).bytes
    .io64)

/-- What has been read so far. -/
def sofar (l : List Ev) : Nat :=
  (l.map fun | .ioctl _ (some _) (.ok _ rd) => rd.length | _ => 0).sum

/-- As much as there's room for, but not more than `n` bytes at a time. Blocks if there's nothing left. -/
def chunks (n : Nat) (b : Bytes) (l : List Ev) (room : Nat) : Option Bytes :=
  if b.drop (sofar l) = [] then none else some ((b.drop (sofar l)).take (min n room))

/-- One command at a time. -/
def single (cmds : List Bytes) (l : List Ev) (_ : Nat) : Option Bytes :=
  cmds[l.countP fun | .ioctl _ (some _) _ => true | _ => false]?

/-- The ways to read the commands. -/
def ways (l : List Bytes) : List (List Ev → Nat → Option Bytes) :=
  [single l, chunks 128 l.flatten, chunks 5 l.flatten]

/-- The kernel takes everything it's given and returns `reads`; the rest of the world has one local object. -/
def world (reads : List Ev → Nat → Option Bytes) (m : Mem) (reply : TxData → Option Bytes → Option Writer × Int) : World where
  kernel := fun l w room =>
    match room with
    | none => some (.ok w.length [])
    | some room => (reads l room).map fun rd => .ok w.length rd
  mem := fun _ => m
  getLocal := fun _ p => p == 0x10
  getRemote := fun _ _ => false
  support := fun _ _ iface code =>
    Dispatch.canHandle { io := .io64, proto := .aidl, ifaces := [], txproc := true } iface code
  handle := fun _ _ tx iface => reply tx iface
  canLoop := fun _ => true
  place := fun _ => (1000, 2000, 3000)

/-- No reply. -/
def nothing : TxData → Option Bytes → Option Writer × Int := fun _ _ => (none, -1)

/-- /dev/binder -/
def cfg : Cfg := ⟨.io64, .aidl⟩

/-- A writer for /dev/binder. -/
def wr : Writer := { io := .io64, protocol := .aidl }

/-- The result and the log. -/
def ends {α : Type} : Run α → Option (α × List Ev)
  | .done a s => some (a, s.log)
  | .stop .. => none

/-- gbinder_driver_transact with an empty request, for all ways to read. -/
def tx (l : List Bytes) (m : Mem) (reply : Bool) (p : Int → List Ev → Bool) (handle : Nat := 0) (code : Nat := 1)
    (h : TxData → Option Bytes → Option Writer × Int := nothing) : Bool :=
  (ways l).all fun reads => match ends (transact cfg (world reads m h) 200 handle code wr reply {}) with
    | some (st, log) => p st log
    | none => false

/-- gbinder_driver_read. BR_TRANSACTION_COMPLETE can't be there before the reply has been sent, so the commands aren't read
all at once. -/
def rd (l : List Bytes) (m : Mem) (p : Option Nat → List Ev → Bool)
    (h : TxData → Option Bytes → Option Writer × Int := nothing) : Bool :=
  [single l, chunks 5 l.flatten].all fun reads => match ends (Driver.read cfg (world reads m h) 200 {}) with
    | some (st, log) => p st log
    | none => false

/-- What's written without reading, after what's written by the call itself. -/
def wrote (l : List Ev) : List Bytes := l.filterMap fun | .ioctl w none _ => some w | _ => none

-- unit_driver.c test_basic: the commands and their sizes
example : [(Driver.increfsCommand .io64 0).length, (Driver.decrefsCommand .io64 0).length,
    (Driver.acquireCommand .io64 0).length, (Driver.releaseCommand .io64 0).length,
    (Driver.enterLooperCommand .io64).length, (Driver.exitLooperCommand .io64).length] = [8, 8, 8, 8, 4, 4] := by
  decide +kernel

-- unit_driver.c test_noop
example : rd [br .noop] [] (fun r log => r == none && wrote log == []) = true := by decide +kernel

/-- rpc_header of unit_driver.c:120-126 -/
def header : Bytes :=
  leBytes 4 0x400000 ++ leBytes 4 4 ++ [0x74, 0x65, 0x73, 0x74].flatMap (leBytes 2) ++ [0, 0, 0, 0]

-- unit_driver.c test_local_request
example : (writeRpcHeader env wr .aidl [0x74, 0x65, 0x73, 0x74]).toOption.map (·.bytes) = some header := by
  decide +kernel

-- unit_ipc.c test_sync_oneway, test_async_oneway
example : tx [br .transactionComplete] [] false (fun st _ => st == 0) = true := by decide +kernel

/-- The reply of unit_ipc.c:285-290, "foo". -/
def foo : Bytes := leBytes 4 3 ++ [0x66, 0x6f, 0x6f, 0].flatMap (leBytes 2)

example : (WOp.runAll env wr [.string16 (some [0x66, 0x6f, 0x6f])]).toOption.map (·.bytes) = some foo := by decide +kernel

-- unit_ipc.c test_sync_reply_ok, test_transact_ok
example : tx [br .noop, br .transactionComplete, br .noop, brReply 0 1 foo] [(0x1000, foo)] true
    (fun st log => st == 0 && log.contains (.own 0x1000) && wrote log == []) = true := by decide +kernel
example : Rd.got (Rd.reader foo [] true .io64 .aidl).readString16 = some (some [0x66, 0x6f, 0x6f]) := by decide +kernel

-- unit_ipc.c test_sync_reply_error: -EINVAL is what it is, GBINDER_STATUS_FAILED gets replaced with -EFAULT
example : tx [br .noop, br .transactionComplete, br .noop, brStatus] [(0x2000, leBytes 4 (2 ^ 32 - 22))] true
    (fun st log => st == -22 && !log.contains (.own 0x2000)) = true := by decide +kernel
example : tx [br .noop, br .transactionComplete, br .noop, brStatus] [(0x2000, leBytes 4 1)] true
    (fun st _ => st == -14) = true := by decide +kernel

-- unit_ipc.c test_transact_dead, test_transact_failed, test_transact_status (GBINDER_STATUS_DEAD_OBJECT is 2)
example : tx [br .noop, br .deadReply] [] true (fun st _ => st == 2) = true := by decide +kernel
example : tx [br .noop, br .failedReply] [] true (fun st _ => st == 1) = true := by decide +kernel
example : tx [br .noop, brStatus] [(0x2000, leBytes 4 0x42424242)] true (fun st _ => st == 0x42424242) = true := by decide +kernel

/-- The request of unit_ipc.c:820-823, 956-958: "test", "message" -/
def message : Bytes :=
  leBytes 4 0x400000 ++ leBytes 4 4 ++ [0x74, 0x65, 0x73, 0x74].flatMap (leBytes 2) ++ [0, 0, 0, 0] ++
    [0x6d, 0x65, 0x73, 0x73, 0x61, 0x67, 0x65, 0]

example : ((writeRpcHeader env wr .aidl [0x74, 0x65, 0x73, 0x74]).bind fun w =>
    WOp.runAll env w [.string8 (some [0x6d, 0x65, 0x73, 0x73, 0x61, 0x67, 0x65])]).toOption.map (·.bytes) =
    some message := by decide +kernel

/-- test_transact_2way_incoming_proc and test_transact_incoming_proc (unit_ipc.c:771-794, 914-934): an empty reply if the
sender, the interface and the code are what they should be. -/
def proc (code : Nat) (t : TxData) (iface : Option Bytes) : Option Writer × Int :=
  if t.code = code ∧ iface = some [0x74, 0x65, 0x73, 0x74] ∧ t.oneway = false ∧ t.pid = 123 ∧ t.euid = 456 then
    (some wr, 0)
  else (none, -1)

/-- What's sent if the reply is empty. -/
def empty : Bytes := (replyCommand .io64 wr 1000 2000).1

-- unit_ipc.c test_transact_2way: the object is called and the reply is sent before the call is over
example : tx [brTx 0x3000 2 message, br .noop, br .transactionComplete, br .noop, brReply 0 1 foo]
    [(0x1000, foo), (0x3000, message)] true
    (fun st log => st == 0 && wrote log == [empty] && log.contains (.own 0x1000) && log.contains (.own 0x3000))
    (h := proc 2) = true := by decide +kernel

-- and "message" is what the handler reads
example : ((RemoteReq.setData .io64 .aidl 2 message []).toOption.bind fun r => Rd.seen r.initReader.readString8) =
    some (some [0x6d, 0x65, 0x73, 0x73, 0x61, 0x67, 0x65], 0) := by decide +kernel

-- unit_ipc.c test_transact_incoming: the transaction and its reply
example : rd [brTx 0x3000 1 message, br .transactionComplete] [(0x3000, message)]
    (fun r log => r == none && wrote log == [empty]) (h := proc 1) = true := by decide +kernel

-- unit_ipc.c test_transact_status_reply: what's sent is the status
example : rd [brTx 0x3000 1 message, br .transactionComplete] [(0x3000, message)]
    (fun r log => r == none && wrote log == [statusReplyCommand .io64 3000] &&
      log.contains (.holds 3000 (leBytes 4 0x42424242))) (h := fun _ _ => (none, 0x42424242)) = true := by decide +kernel

-- unit_ipc.c test_drop_remote_refs: BR_ACQUIRE is passed to the object, which acknowledges it later
example : rd [br .acquire (leBytes 8 0x10 ++ leBytes 8 0)] []
    (fun r log => r == none && wrote log == [] && log.contains (.acquire 0x10)) = true := by decide +kernel

end Ipc
end Gb.Conformance
