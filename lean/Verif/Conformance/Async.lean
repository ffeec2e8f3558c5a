import Verif.Model.Async
import Verif.Model.LooperTx
import Verif.Model.LocalObj
/-
What the tests of asynchronous transactions in unit/unit_ipc/unit_ipc.c expect of the code is what the model does. These
are tests of the model, not proofs of anything. (Other tests from this file are in Conformance/Ipc.)
-/
set_option autoImplicit false

namespace Gb.Conformance
namespace Asy
open Async

/-- The log after the steps, if they are possible. -/
def run (ls : List Label) : Option (List Ev) :=
  match exec step {} ls with
  | .ok s => some s.log
  | _ => none

/-- A transaction, from the beginning to the end. -/
def whole : List Label := [.submit, .check 0, .exec 0, .executed 0, .post 0, .done 0, .free 0]

/- test_transact_ok, test_transact_dead, test_transact_failed, test_transact_status (unit_ipc.c:371-573),
test_transact_custom, test_transact_custom2 and test_transact_custom3 (unit_ipc.c:588-670): each of the functions is called
once. After that, the identifier isn't valid, and gbinder_ipc_cancel has no effect. -/
example : run whole = some [.submit 0 1, .exec 0, .done 0, .destroy 0] := by decide
example : run (whole ++ [.cancel 1]) = run whole := by decide

/- test_transact_cancel (unit_ipc.c:702-719): it's cancelled before the thread gets to it, and it's destroyed. -/
example : run [.submit, .cancel 1, .check 0, .post 0, .done 0, .free 0] = some [.submit 0 1, .cancel 0, .destroy 0] := by
  decide
/- The thread may be faster. -/
example : run [.submit, .check 0, .cancel 1, .exec 0, .executed 0, .post 0, .done 0, .free 0] =
    some [.submit 0 1, .cancel 0, .exec 0, .destroy 0] := by decide

/- test_transact_cancel2 (unit_ipc.c:725-764): it's cancelled while it's being executed. -/
example : run [.submit, .check 0, .exec 0, .cancel 1, .executed 0, .post 0, .done 0, .free 0] =
    some [.submit 0 1, .exec 0, .cancel 0, .destroy 0] := by decide

/- test_cancel_on_exit (unit_ipc.c:1319-1339): the completion which has been scheduled is cancelled by
gbinder_ipc_exit. -/
example : run [.submit, .check 0, .exec 0, .executed 0, .post 0, .flush 0, .free 0] =
    some [.submit 0 1, .exec 0, .destroy 0] := by decide
example : run [.submit, .check 0, .exec 0, .executed 0, .flush 0] = none := by decide

end Asy
namespace Blk
open LooperTx

/-- The log after the steps, if they are possible. -/
def run (ls : List Label) : Option (List Ev) :=
  match exec step {} ls with
  | .ok s => some s.log
  | _ => none

/-- test_transact_async_proc (unit_ipc.c:1096-1126): the request is referenced and blocked. The second call of
gbinder_remote_request_block has no effect. -/
def blocked : List Label := [.begin, .handle 0, .ref 0, .block 0, .block 0, .ret 0 (none, 0), .tail 0, .tail 0, .tail 0]

/-- test_transact_async_reply and test_transact_async_done (unit_ipc.c:1070-1094), then the looper. -/
def async : List Label := blocked ++ [.read, .complete 0 (some 7, 0), .drop 0, .unref 0, .read, .take, .destroy, .answer]

/- test_transact_async (unit_ipc.c:1128-1172) -/
example : run async = some
    [.begin 0, .handle 0, .block 0, .block 0, .ret 0 (none, 0), .complete 0 (some 7, 0), .answer 0 (some 7, 0)] := by decide
/- Everything has been freed. -/
example : (exec step {} async).holds (fun s => (s.call 0).tx = none ∧ (s.call 0).req = none ∧ s.phase = .idle) := by decide
/- There's nothing to read until it's completed. -/
example : run (blocked ++ [.read, .read]) = none := by decide

/-- test_transact_async_sync (unit_ipc.c:1178-1252): it's blocked and completed by the handler, after that it's ignored. -/
def asyncSync : List Label := [.begin, .handle 0, .block 0, .complete 0 (some 7, 0), .drop 0, .complete 0 (some 7, 0),
  .ret 0 (none, 0), .tail 0, .tail 0, .tail 0, .read, .take, .destroy, .answer]

example : run asyncSync = some
    [.begin 0, .handle 0, .block 0, .complete 0 (some 7, 0), .complete 0 (some 7, 0), .ret 0 (none, 0),
     .answer 0 (some 7, 0)] := by decide
example : (exec step {} asyncSync).holds (fun s => (s.call 0).tx = none ∧ (s.call 0).req = none ∧ s.phase = .idle) := by
  decide

end Blk
namespace Refs
open LocalObj

/- test_drop_remote_refs (unit_ipc.c:1258-1302): there's one strong reference after BR_ACQUIRE, which keeps the object
after the last reference of the application is dropped. -/
example : (exec step {} [.new 16, .getLocal 16, .handle .acquire 16, .put 16, .run ⟨.acquire, 16, false⟩,
    .done ⟨.acquire, 16, true⟩]).holds (fun s => (s.objs 16).map (·.strong) = some 1 ∧
      s.log = [.new 16, .handled .acquire 16, .ran .acquire 16, .ack 16]) := by decide
example : (exec step {} [.new 16, .getLocal 16, .handle .acquire 16, .put 16, .run ⟨.acquire, 16, false⟩,
    .done ⟨.acquire, 16, true⟩, .unref 16]).holds (fun s => (s.objs 16).map (·.refs) = some 1 ∧ s.dying = []) := by decide

end Refs
end Gb.Conformance
