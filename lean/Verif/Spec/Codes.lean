import Verif.Model.Client
/-
The numbers of the methods in the interfaces of the service managers. They are in the order of declaration:
* android.os.IServiceManager: getService (1), checkService (2), addService (3), listServices (4);
* android.hidl.manager@1.0::IServiceManager: get (1), add (2), getTransport (3), list (4), listByInterface (5),
  registerForNotifications (6), ...
-/
set_option autoImplicit false

namespace Gb.Codes

open Client

/-- The methods of IServiceManager. -/
inductive Method | get | check | add | transport | list | listByInterface | registerForNotifications
  deriving DecidableEq, Repr

/-- The methods in the order of declaration. -/
def methods : Kind → List Method
  | .hidl => [.get, .add, .transport, .list, .listByInterface, .registerForNotifications]
  | _ => [.get, .check, .add, .list]

/-- The codes begin with one (FIRST_CALL_TRANSACTION). -/
def code (k : Kind) (m : Method) : Nat := (methods k).idxOf m + 1

/-- Which method looks for a service. -/
def lookup : Kind → Method
  | .hidl => .get
  | _ => .check

end Gb.Codes
