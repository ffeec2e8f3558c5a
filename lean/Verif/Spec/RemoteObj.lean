import Verif.Model.RemoteObj
/- What the properties of remote objects say about the log. -/
set_option autoImplicit false

namespace Gb.RemoteObj

/-- What the application has been told about an object: whether it was alive when it was created,
that it has died, that it's alive again. -/
def alive (q : Nat) (l : List Ev) : Bool :=
  l.foldl (fun b e => match e with
    | .new id dead => if id = q then !dead else b
    | .signal id => if id = q then false else b
    | .reanimated id => if id = q then true else b
    | _ => b) false

/-- The number of commands written to the driver on behalf of an object. -/
def sent (q : Nat) (c : Cmd) (l : List Ev) : Nat :=
  l.countP fun e => match e with
    | .drv id c' _ => decide (id = q ∧ c' = c)
    | _ => false

/-- How many times something has happened. -/
def count (e : Ev) (l : List Ev) : Nat := l.countP fun x => decide (x = e)

/-- What the threads and the main thread do by themselves: death notifications which have been received are handled, references which
aren't needed are dropped, and objects without references are freed. -/
def Label.settling : Label → Prop
  | .notify _ | .run _ | .bury _ | .vanish _ | .done _ | .dispose _ | .settle _ | .invalidate _ | .free _ => True
  | _ => False

/-- BR_DEAD_BINDER has been received for this object, and hasn't been handled by the main thread. -/
def Notified (s : State) (p : Nat) : Prop := p ∈ s.found ∨ ⟨p, false⟩ ∈ s.tasks

/-- References of the application (the one for which gbinder_remote_object_commit_suicide is running has one). -/
def owned (s : State) (p : Nat) : Nat := s.user p + s.killing.countP fun x => decide (x = ⟨p, false⟩)

end Gb.RemoteObj
