import Verif.Model.LocalObj
/- What the properties of local objects say about the log. -/
set_option autoImplicit false

namespace Gb.LocalObj

/-- The number of BR_ACQUIRE minus the number of BR_RELEASE handled (by the callbacks which run on
the main thread) since the object was created. -/
def balance (q : Nat) (l : List Ev) : Int :=
  l.foldl (fun n e => if e = .new q then 0 else if e = .ran .acquire q then n + 1
    else if e = .ran .release q then n - 1 else n) 0

/-- The same about BR_INCREFS and BR_DECREFS. -/
def weakBalance (q : Nat) (l : List Ev) : Int :=
  l.foldl (fun n e => if e = .new q then 0 else if e = .ran .increfs q then n + 1
    else if e = .ran .decrefs q then n - 1 else n) 0

/-- How many times something has happened. -/
def count (e : Ev) (l : List Ev) : Nat := l.countP fun x => decide (x = e)

/-- What the threads which have references to objects, and the main thread, do by themselves: references are dropped, what has been
scheduled is done, and objects without references are freed. -/
def Label.settling : Label → Prop
  | .cleanup _ _ | .put _ | .run _ | .done _ | .dispose _ | .settle _ | .invalidate _ | .free _ => True
  | _ => False

end Gb.LocalObj
