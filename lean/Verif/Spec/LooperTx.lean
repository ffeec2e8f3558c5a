import Verif.Model.LooperTx
/-
How an incoming transaction is supposed to be handled.
-/
set_option autoImplicit false

namespace Gb.LooperTx

/-- What the main thread has done about the transaction so far. -/
inductive Work
  | new
  | scheduled
  /-- The handler is running. -/
  | handling
  /-- It has called gbinder_remote_request_complete without blocking the request, which means that it
  can't be blocked anymore. -/
  | detached
  | blocking
  | processed (v : Val)
  | blocked
  | ready (v : Val)
  deriving DecidableEq, Repr

def Work.next (t : Nat) : Work → Ev → Work
  | .new, .begin u => if u = t then .scheduled else .new
  | .scheduled, .handle u => if u = t then .handling else .scheduled
  | .handling, .block u => if u = t then .blocking else .handling
  | .handling, .complete u _ => if u = t then .detached else .handling
  | .blocking, .complete u v => if u = t then .processed v else .blocking
  | .blocked, .complete u v => if u = t then .ready v else .blocked
  | .handling, .ret u v => if u = t then .ready v else .handling
  | .detached, .ret u v => if u = t then .ready v else .detached
  | .processed v, .ret u _ => if u = t then .ready v else .processed v
  | .blocking, .ret u _ => if u = t then .blocked else .blocking
  | w, _ => w

/-- What the main thread has done about the transaction. -/
def work (t : Nat) (evs : List Ev) : Work := evs.foldl (Work.next t) .new

/-- What the caller has received. -/
def answers (t : Nat) : List Ev → List Val
  | [] => []
  | .answer u v :: evs => if u = t then v :: answers t evs else answers t evs
  | _ :: evs => answers t evs

end Gb.LooperTx
