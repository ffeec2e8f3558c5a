import Verif.Model.Poll
import Verif.Model.ServiceName
/-
What unit/unit_servicemanager/unit_servicemanager.c, unit/unit_servicename/unit_servicename.c and
unit/unit_servicepoll/unit_servicepoll.c expect is what the model does, if things happen in the order in which they happen there. These are tests of the model, not
proofs of anything.
-/
set_option autoImplicit false

namespace Gb.Conformance

namespace Mgr
open Manager

/-- What the handlers of the presence signal see (test_inc). -/
def presence (s : State) : List Bool :=
  s.log.filterMap fun
    | .presence _ p => some p
    | _ => none

/-- How many times the registration handlers are called (test_reg_inc). -/
def registrations (s : State) : Nat :=
  (s.log.map fun
    | .registered _ _ ids => ids.length
    | _ => 0).sum

/-- A name. -/
def foo : Bytes := [0x66, 0x6f, 0x6f]

/-- Everything can be watched. -/
def yes : Bytes → Bool := fun _ => true

-- test_basic, test_not_present: gbinder_servicemanager_is_present
example : (exec step {} [.create 0 .hidl true 10]).holds (fun s => !s.dead) = true := by decide +kernel
example : (exec step {} [.create 0 .hidl false 10]).holds (fun s => s.dead) = true := by decide +kernel
example : (exec step {} [.create 0 .hidl false 10, .free 0]).holds (fun s => s.timers.isEmpty) = true := by
  decide +kernel

-- test_wait: this wait fails, the next one doesn't, the next check succeeds without any I/O
example : (exec step {} [.create 0 .hidl false 10, .addPresence 0 1, .wait 0 false yes]).holds
  (fun s => s.dead && presence s == []) = true := by decide +kernel
example : (exec step {} [.create 0 .hidl false 10, .addPresence 0 1, .wait 0 false yes, .wait 0 true yes]).holds
  (fun s => !s.dead && presence s == [true] && s.timers.isEmpty) = true := by decide +kernel
example : (exec step {} [.create 0 .hidl false 10, .addPresence 0 1, .wait 0 false yes, .wait 0 true yes,
    .wait 0 false yes]).holds (fun s => !s.dead && presence s == [true] &&
      s.log == [.ping 0 false, .created 0 false, .armed 0 100, .ping 0 false, .ping 0 true, .presence 0 true]) = true := by
  decide +kernel

-- test_wait_async: the first ping fails, and the second one succeeds
example : (exec step {} [.create 0 .hidl false 10, .addPresence 0 1, .addPresence 0 2,
    .fire ⟨10, 0, 100⟩ false 11 yes, .fire ⟨11, 0, 200⟩ true 12 yes]).holds
  (fun s => !s.dead && presence s == [true]) = true := by decide +kernel

-- test_death: no registrations
example : (exec step {} [.create 0 .hidl true 10, .addPresence 0 1, .addPresence 0 2, .addHandler 0 foo 3 true,
    .die, .died 11]).holds
  (fun s => s.dead && presence s == [false] && registrations s == 0) = true := by decide +kernel

-- test_reanimate: presence must have changed twice
example : (exec step {} [.create 0 .hidl true 10, .addPresence 0 1, .addPresence 0 2, .addHandler 0 foo 3 true,
    .die, .died 11, .fire ⟨11, 0, 100⟩ true 12 yes]).holds
  (fun s => !s.dead && presence s == [false, true] && registrations s == 0) = true := by decide +kernel

-- test_notify: both are called
example : [Names.Kind.aidl, .hidl].all (fun k => (exec step {} [.create 0 k true 10, .addHandler 0 foo 1 true,
    .addHandler 0 foo 2 true, .registered 0 foo]).holds (fun s => registrations s == 2)) = true := by decide +kernel

end Mgr

namespace SName
open ServiceName

/-- The transaction number `p` is executed and completed. -/
def call (p : Nat) (status : Int) : List Label :=
  [.ipc (.check p), .ipc (.exec p), .executed p status, .ipc (.post p), .done p (100 + p), .ipc (.free p)]

/-- The calls to test_servicemanager_add_service, and their results if anyone got those. -/
def seen (s : State) : List Ev :=
  s.log.filter fun
    | .signal .. => false
    | _ => true

-- test_basic
example : (exec step {} [.mgr (.create 0 .aidl true 10), .create 5 0, .ref 5, .unref 5]).holds
  (fun s => (s.names 5).isSome) = true := by decide +kernel
example : (exec step {} [.mgr (.create 0 .aidl true 10), .create 5 0, .ref 5, .unref 5, .unref 5]).holds
  (fun s => (s.names 5).isNone && s.timers.isEmpty) = true := by decide +kernel

-- test_present_ok, test_present_err: the service manager dies, the call has been completed or not
example : (exec step {} ([.mgr (.create 0 .aidl true 10), .create 5 0, .mgr (.addPresence 0 6)] ++ call 0 0 ++
    [.mgr .die, .mgr (.died 11), .signal, .unref 5])).holds
  (fun s => seen s == [.created 5, .added 5 0, .result 5 0, .freed 5] && s.timers.isEmpty) = true := by
  decide +kernel
example : (exec step {} ([.mgr (.create 0 .aidl true 10), .create 5 0, .mgr (.addPresence 0 6)] ++ call 0 (-1) ++
    [.mgr .die, .mgr (.died 11), .signal, .unref 5])).holds
  (fun s => seen s == [.created 5, .added 5 0, .result 5 (-1), .freed 5] && s.timers.isEmpty) = true := by
  decide +kernel

-- test_not_present: nothing is added until the next ping succeeds
example : (exec step {} [.mgr (.create 0 .aidl false 10), .mgr (.addPresence 0 6), .create 5 0]).holds
  (fun s => seen s == [.created 5]) = true := by decide +kernel
example : (exec step {} [.mgr (.create 0 .aidl false 10), .mgr (.addPresence 0 6), .create 5 0,
    .mgr (.fire ⟨10, 0, 100⟩ true 11 Mgr.yes), .signal]).holds
  (fun s => seen s == [.created 5, .added 5 0]) = true := by decide +kernel

-- test_retry: the first call fails (-EFAULT), the second one is successful and is followed by the death
example : (exec step {} ([.mgr (.create 0 .aidl true 10), .create 5 0, .mgr (.addPresence 0 6)] ++ call 0 (-14) ++
    [.retry ⟨100, 5, 500⟩] ++ call 1 0 ++ [.mgr .die, .mgr (.died 11), .signal, .unref 5])).holds
  (fun s => seen s == [.created 5, .added 5 0, .result 5 (-14), .added 5 1, .result 5 0, .freed 5] &&
    s.timers.isEmpty) = true := by decide +kernel

-- test_cancel: the call is blocked when the service manager dies; it's cancelled, and there's no result
example : (exec step {} [.mgr (.create 0 .aidl true 10), .create 5 0, .ipc (.check 0), .ipc (.exec 0),
    .mgr (.addPresence 0 6), .mgr .die, .mgr (.died 11), .signal, .unref 5, .executed 0 0, .ipc (.post 0),
    .done 0 12, .ipc (.free 0)]).holds
  (fun s => seen s == [.created 5, .added 5 0, .freed 5] && s.timers.isEmpty &&
    s.ipc.log == [.submit 0 1, .exec 0, .cancel 0, .destroy 0]) = true := by decide +kernel

end SName

namespace SPoll
open Poll

/-- The names used by the tests. -/
def bar : Bytes := [0x62, 0x61, 0x72]
/-- `bar1`, `bar2` and `bar3` -/
def barN (n : Byte) : Bytes := bar ++ [0x30 + n]

/-- gbinder_servicepoll_is_known_name -/
def known (s : State) (n : Bytes) : Bool :=
  match s.poll with
  | some p => p.isKnown n
  | none => false

/-- The names with which the handler of GBinderServicePoll is called. -/
def announced (s : State) : List Bytes :=
  s.log.filterMap fun
    | .announced n => some n
    | _ => none

-- test_notify1: nothing, then "bar", then "bar" and "foo"
example : (exec step {} [.add 1 Mgr.foo, .result none, .finish, .result (some [bar]), .emit, .finish,
    .result (some [bar, Mgr.foo]), .emit, .finish]).holds
  (fun s => known s Mgr.foo && known s bar && announced s == [bar, Mgr.foo]) = true := by decide +kernel
example : (exec step {} [.add 1 Mgr.foo, .result none, .finish, .result (some [bar]), .emit, .finish,
    .result (some [bar, Mgr.foo]), .emit, .finish, .remove 1]).holds (fun s => s.poll.isNone) = true := by
  decide +kernel

-- test_notify2: "bar1", "bar2" and "bar3", then "bar", "bar3" and "foo"
example : (exec step {} [.add 1 Mgr.foo, .result none, .finish, .result (some [barN 1, barN 2, barN 3]), .emit,
    .emit, .emit, .finish, .result (some [bar, barN 3, Mgr.foo]), .emit, .emit, .finish]).holds
  (fun s => known s Mgr.foo && known s bar && known s (barN 3) && !known s (barN 1) && !known s (barN 2) &&
    announced s == [barN 1, barN 2, barN 3, bar, Mgr.foo]) = true := by decide +kernel

-- test_already_there
example : (exec step {} [.add 1 Mgr.foo, .result (some [Mgr.foo]), .emit, .finish]).holds
  (fun s => announced s == [Mgr.foo]) = true := by decide +kernel

end SPoll
end Gb.Conformance
