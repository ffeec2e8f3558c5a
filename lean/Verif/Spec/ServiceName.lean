import Verif.Model.ServiceName
/-
What a name is waiting for, as seen by the event loop and by the threads which execute transactions.
-/
set_option autoImplicit false

namespace Gb.ServiceName

/-- The transaction registers the name, and its result is going to be reported. -/
def reports (s : State) (n p : Nat) : Bool :=
  (match s.owner p with
    | some (k, _) => k == n
    | none => false) &&
  (match s.ipc.txs p with
    | some tx => !tx.cancelled
    | none => false) &&
  !s.ipc.finishing.contains p

/-- All such transactions. -/
def pendingCalls (s : State) (n : Nat) : List Nat := (List.range s.ipc.calls).filter (reports s n)

/-- The timers which are running. -/
def armed (s : State) (n : Nat) : List Timer := s.timers.filter fun t => t.name == n

/-- What is known about the registration: the result of the last attempt since the service manager has
appeared, if it's known. -/
def result1 (n : Nat) (a : Option Int) : Ev → Option Int
  | .created k => if k = n then none else a
  | .signal k _ => if k = n then none else a
  | .added k _ => if k = n then none else a
  | .result k st => if k = n then some st else a
  | .freed k => if k = n then none else a

def lastResult (n : Nat) (log : List Ev) : Option Int := log.foldl (result1 n) none

/-- The process isn't exiting (gbinder_ipc_exit discards completions). -/
def Running : Label → Prop
  | .ipc (.flush _) => False
  | _ => True

/-- There's no more than one GBinderServiceManager for the device, and the application doesn't call
gbinder_servicemanager_wait from the handlers of the presence signal. -/
def Usual (s : State) (l : Label) : Prop :=
  Running l ∧
  (∀ m kind ok tid, l = .mgr (.create m kind ok tid) → ∀ k, s.mgr.mgrs k = none) ∧
  (∀ m ok watch, l = .mgr (.wait m ok watch) → s.calls = [])

end Gb.ServiceName
