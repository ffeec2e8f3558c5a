import Verif.Model.Proxy
import Verif.Model.Bridge
/-
What unit/unit_proxy_object/unit_proxy_object.c and unit/unit_bridge/unit_bridge.c expect of the code is what the model
does. These are tests of the model, not proofs of anything.
-/
set_option autoImplicit false

namespace Gb.Conformance
namespace Prox
open Proxy

/-- The log after the steps, if they are possible. -/
def run (ls : List Label) : Option (List Ev) :=
  match exec step {} ls with
  | .ok s => some s.log
  | _ => none

/-- The objects which are left. -/
def left (ls : List Label) : Option (List Bool) :=
  match exec step {} ls with
  | .ok s => some [(s.obj 0).isSome, (s.remote 0).isSome, (s.req 0).isSome, (s.req 1).isSome, (s.tx 0).isSome,
      (s.tx 1).isSome]
  | _ => none

/-- test_basic_run (unit_proxy_object.c:142-186): GBinderIpc 0 is that of the remote object (which has handle 1), 1 is that
of the proxy. The transaction is received by a looper of the latter. -/
def basic : List Label := [.newRemote 0 1, .new 1 0, .handle 0 true 1 0, .reply 0 (some 7) 0, .destroy 0, .unrefReq 0]

example : run basic = some
    [.remote 0 0 1, .made 0 1 0, .received 0 0 true 1 0, .forwarded 0 0 0 1 1 0, .replied 0 (some 7) 0,
     .answered 0 (some 7) 0] := by decide
example : left (basic ++ [.drop 0, .unrefRemote 0]) = some [false, false, false, false, false, false] := by decide

/-- test_param_run (unit_proxy_object.c:287-347): the second of two requests is replied to, the first one is cancelled
later on. -/
def param : List Label := [.newRemote 0 1, .new 1 0, .handle 0 true 1 0, .handle 0 true 1 0, .reply 1 (some 7) 0,
  .destroy 1, .unrefReq 1, .reply 0 none (-125), .destroy 0, .unrefReq 0]

example : run param = some
    [.remote 0 0 1, .made 0 1 0, .received 0 0 true 1 0, .forwarded 0 0 0 1 1 0, .received 1 0 true 1 0,
     .forwarded 1 1 0 1 1 0, .replied 1 (some 7) 0, .answered 1 (some 7) 0, .replied 0 none (-125),
     .answered 0 none (-125)] := by decide
example : left (param ++ [.drop 0, .unrefRemote 0]) = some [false, false, false, false, false, false] := by decide

/- The proxy isn't freed as long as there's a transaction. -/
example : left (param.take 7 ++ [.drop 0, .unrefRemote 0]) = some [true, true, true, false, true, false] := by decide

/-- The object which is passed by test_obj_run (unit_proxy_object.c:511-577) comes from the GBinderIpc of the proxy: it gets
a proxy of its own there. -/
def obj : List Label := [.newRemote 0 1, .new 1 0, .handle 0 true 1 0, .newRemote 1 2, .find 0 1 none,
  .handle 1 true 2 0, .reply 1 (some 8) 0, .destroy 1, .unrefReq 1, .reply 0 (some 7) 0, .destroy 0, .unrefReq 0]

example : run obj = some
    [.remote 0 0 1, .made 0 1 0, .received 0 0 true 1 0, .forwarded 0 0 0 1 1 0, .remote 1 1 2, .made 1 0 1,
     .received 1 1 true 2 0, .forwarded 1 1 1 2 2 0, .replied 1 (some 8) 0, .answered 1 (some 8) 0,
     .replied 0 (some 7) 0, .answered 0 (some 7) 0] := by decide

/- It's found the next time. -/
example : run (obj ++ [.find 0 1 none]) = none := by decide
example : run (obj ++ [.find 0 1 (some 1)]) = run obj := by decide

end Prox
namespace Brg
open Bridge

/-- "foo", "bar", "test@1.0::ITest", "test" -/
def foo : Bytes := [0x66, 0x6f, 0x6f]
def bar : Bytes := [0x62, 0x61, 0x72]
def iface : Bytes := [0x74, 0x65, 0x73, 0x74, 0x40, 0x31, 0x2e, 0x30, 0x3a, 0x3a, 0x49, 0x54, 0x65, 0x73, 0x74]
def name : Bytes := [0x74, 0x65, 0x73, 0x74]

/-- TEST_IFACE "/test" -/
def fqname : Bytes := iface ++ [0x2f, 0x74, 0x65, 0x73, 0x74]

/-- The log after the steps, if they are possible. -/
def run (ls : List Label) : Option (List Ev) :=
  match exec step {} ls with
  | .ok s => some s.log
  | _ => none

/-- Nothing is found. -/
def nope : Nat → Option Nat := fun _ => none
/-- The first remote object is found. -/
def it : Nat → Option Nat := fun _ => some 0

/- test_null (unit_bridge.c:93-105). The service managers of the model are never NULL. -/
example : run [.new none none [] nope, .new (some foo) (some foo) [] nope] = some [.refused, .refused] := by decide
example : run [.new none none [foo, bar] nope] = some [.refused] := by decide

/-- test_basic_run (unit_bridge.c:222-331): the name isn't there in the beginning. Then the object is registered on DEST,
and it dies in the end. -/
def basic : List Label := [.new none (some name) [iface] nope, .newRemote, .registered [0] fqname, .call it,
  .die 0 [0], .call nope, .free 0]

/- The bridge watches the name, and doesn't do anything else until it's registered. -/
example : run (basic.take 1) = some [.opened 0 name name [(0, iface)], .watch 0 fqname, .found 0 fqname none] := by decide
/- Then a proxy is registered on SRC under the same name. -/
example : run (basic.take 4) = some
    [.opened 0 name name [(0, iface)], .watch 0 fqname, .found 0 fqname none, .found 0 fqname (some 0), .made 0 0 0,
     .published 0 0 0 name] := by decide
/- When the object dies, the proxy is dropped. -/
example : run basic = some
    [.opened 0 name name [(0, iface)], .watch 0 fqname, .found 0 fqname none, .found 0 fqname (some 0), .made 0 0 0,
     .published 0 0 0 name, .died 0, .left 0 0, .dropped 0 0, .withdrawn 0 0, .unwatch 0, .freed 0] := by decide
example : (exec step {} basic).holds (fun s => s.proxy 0 = none ∧ s.iface 0 = none ∧
    (s.remote 0).map (·.refs) = some [.other]) := by decide

end Brg
end Gb.Conformance
