import Verif.Model.EventLoop
import Verif.Model.Buffers
import Verif.Model.RemoteObj
/-
What unit/unit_eventloop/unit_eventloop.c, unit/unit_buffer/unit_buffer.c and
unit/unit_remote_object/unit_remote_object.c expect of the code is what the model does. These are tests of the model, not
proofs of anything.
-/
set_option autoImplicit false

namespace Gb.Conformance
namespace Loop
open EventLoop

/-- The log after the steps, if they are possible. -/
def run (ls : List Label) : Option (List Ev) :=
  match exec step {} ls with
  | .ok s => some s.log
  | _ => none

/- test_replace (unit_eventloop.c:148-174), where 0 is the default integration and 1 is the one of the test. The functions
are asked to add a timeout twice and to make a callback once, and the last call of gbinder_eventloop_set calls the
cleanup function. The test's functions return NULL, so that nothing is done with what they have made. -/
example : run [.set 0, .set 1, .add 0, .idle, .new false, .set 0] = some
    [.set 0, .set 1, .cleanup 0, .askedTimeout 1 (.add 0) 0, .askedTimeout 1 (.add 0) 1, .asked 1 .new 0,
     .made 0 true false false, .set 0, .cleanup 1] := by decide

/- test_idle (unit_eventloop.c:189-200): the function is called, returns G_SOURCE_REMOVE, and is never called again. -/
example : run [.set 0, .idle, .fire 0, .fired 0 false] = some
    [.set 0, .askedTimeout 0 (.add 0) 0, .fire 0, .fired 0 false, .gone 0] := by decide
example : run [.set 0, .idle, .fire 0, .fired 0 false, .fire 0] = none := by decide

/- test_timeout (unit_eventloop.c:206-217) -/
example : run [.set 0, .add 10, .fire 0, .fired 0 false] = some
    [.set 0, .askedTimeout 0 (.add 10) 0, .fire 0, .fired 0 false, .gone 0] := by decide
example : run [.set 0, .add 10, .fire 0, .fired 0 false, .fire 0] = none := by decide

/- test_callback (unit_eventloop.c:223-239) -/
example : run [.set 0, .new false, .ref 0, .unref 0, .schedule 0, .start 0, .stop 0, .unref 0] = some
    [.set 0, .asked 0 .new 0, .made 0 true false false, .asked 0 .ref 0, .asked 0 .unref 0, .asked 0 .schedule 0,
     .start 0, .func 0, .stop 0, .asked 0 .unref 0, .freed 0] := by decide
/- It isn't called unless scheduled. -/
example : run [.set 0, .new false, .ref 0, .unref 0, .start 0] = none := by decide

/- test_invoke (unit_eventloop.c:245-261): the first one is called and has no finalize function, it's the other way around
with the second one. Both are freed. -/
example : run [.set 0, .later true false, .start 0, .stop 0, .set 0, .later false true, .start 1, .stop 1] = some
    [.set 0, .asked 0 .new 0, .made 0 true false true, .asked 0 .schedule 0, .start 0, .func 0, .stop 0,
     .asked 0 .unref 0, .freed 0,
     .set 0, .asked 0 .new 1, .made 1 false true true, .asked 0 .schedule 1, .start 1, .stop 1, .asked 0 .unref 1,
     .final 1, .freed 1] := by decide

end Loop
namespace Buf
open Buffers

/-- What the kernel has been told. -/
def run (ls : List Label) : Option (List Ev) :=
  match exec step {} ls with
  | .ok s => some s.log
  | _ => none

/- test_list (unit_buffer.c:88-110). The buffer belongs to a reply here, and the list is the one of the context: object 0 is
the list, 1 is the reply, 2 is the buffer, 3 is the other list. The data isn't freed until the last one of those is gone. -/
example : run [.newList, .newRemote, .reply 0 (some 1) (some 64) true false, .dupList 0, .unrefRemote 1] =
    some [.deliver 0 64 false] := by decide
example : run [.newList, .newRemote, .reply 0 (some 1) (some 64) true false, .dupList 0, .unrefRemote 1, .freeList 0] =
    some [.deliver 0 64 false] := by decide
example : run [.newList, .newRemote, .reply 0 (some 1) (some 64) true false, .dupList 0, .unrefRemote 1, .freeList 0,
    .freeList 3] = some [.deliver 0 64 false, .free 64] := by decide

/- test_parent (unit_buffer.c:116-140): object 3 is the buffer which has a parent. Here it's freed after the parent. -/
example : run [.newList, .newRemote, .reply 0 (some 1) (some 64) true false, .freeList 0, .readBuffer 1, .freeBuffer 3] =
    some [.deliver 0 64 false] := by decide
example : run [.newList, .newRemote, .reply 0 (some 1) (some 64) true false, .freeList 0, .readBuffer 1, .freeBuffer 3,
    .unrefRemote 1] = some [.deliver 0 64 false, .free 64] := by decide
example : run [.newList, .newRemote, .reply 0 (some 1) (some 64) true false, .freeList 0, .readBuffer 1, .unrefRemote 1,
    .freeBuffer 3] = some [.deliver 0 64 false, .free 64] := by decide

end Buf
namespace Rem
open RemoteObj

/-- The state after the steps, and the log. -/
def run (ls : List Label) : Out State := exec step {} ls

/-- Everything g_object_unref does when the last reference is released. -/
def die (p : Nat) : List Label := [.dispose p, .settle p, .invalidate p, .free p]

/-- The handle of the object, and whether it's dead. -/
def obj (s : State) (p : Nat) : Option (Nat × Bool) := (s.objs p).map fun o => (o.handle, o.dead)

/- test_basic (unit_remote_object.c:66-93) -/
example : (run [.lookup 1 .alive 11, .lookup 2 .alive 12]).holds (fun s =>
    obj s 11 = some (1, false) ∧ obj s 12 = some (2, false) ∧ s.table 1 = some 11 ∧ s.table 2 = some 12) := by decide
/- gbinder_remote_object_reanimate returns TRUE since it isn't dead, and nothing is changed. -/
example : (run [.lookup 1 .alive 11, .lookup 2 .alive 12, .reanimate 11 true]).holds (fun s =>
    obj s 11 = some (1, false) ∧ s.log = [.new 11 false, .drv 11 .request 1, .new 12 false, .drv 12 .request 2]) := by decide
/- It's found again (which adds a reference), and both are gone in the end. -/
example : (run ([.lookup 1 .alive 11, .lookup 2 .alive 12, .reanimate 11 true, .ref 11, .unref 11, .lookup 1 .no 0]
    )).holds (fun s => s.user 11 = 2 ∧ s.user 12 = 1 ∧ s.table 1 = some 11) := by decide
example : (run ([.lookup 1 .alive 11, .lookup 2 .alive 12, .reanimate 11 true, .ref 11, .unref 11, .lookup 1 .no 0,
    .unref 11, .unref 11] ++ die 11 ++ [.unref 12] ++ die 12)).holds (fun s =>
      s.objs 11 = none ∧ s.objs 12 = none ∧ s.table 1 = none ∧ s.table 2 = none ∧
      s.log = [.new 11 false, .drv 11 .request 1, .new 12 false, .drv 12 .request 2,
        .drv 11 .clear 1, .freed 11, .drv 12 .clear 2, .freed 12]) := by decide

/- test_dead (unit_remote_object.c:99-141): the handler is called on the main thread, the object is dead. It's not in the
table any more. -/
example : (run [.lookup 1 .alive 11, .deadBinder 1, .deliver 1 11, .notify 11, .run 11, .bury 11]).holds (fun s =>
    obj s 11 = some (1, true) ∧ s.table 1 = none ∧
    s.log = [.new 11 false, .drv 11 .request 1, .handled 11, .drv 11 .deadDone 1, .signal 11]) := by decide
example : (run ([.lookup 1 .alive 11, .deadBinder 1, .deliver 1 11, .notify 11, .run 11, .bury 11, .done 11,
    .unref 11] ++ die 11)).holds (fun s => s.objs 11 = none ∧
    s.log = [.new 11 false, .drv 11 .request 1, .handled 11, .drv 11 .deadDone 1, .signal 11, .freed 11]) := by decide

/- test_binder_br_dead_binder for an unknown handle. -/
example : (run ([.lookup 1 .alive 11, .deadBinder 1, .unref 11] ++ die 11 ++ [.deliver 1 11])).holds (fun s =>
    s.log = [.new 11 false, .drv 11 .request 1, .drv 11 .clear 1, .freed 11, .unknown 1]) := by decide

end Rem
end Gb.Conformance
