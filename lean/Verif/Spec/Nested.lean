import Verif.Model.Nested
/-
What a thread should be doing: it's determined by the calls which haven't been replied to.
-/
set_option autoImplicit false

namespace Gb.Nested

/-- Of all the calls of a chain, those which the thread has made and those which it's handling, the last one first. -/
def expected (t : Nat) : List Tx → List Frame
  | [] => []
  | x :: c =>
    (if x.to = some t then [.handle x.id] else []) ++ (if x.src = t then [.call x.id] else []) ++ expected t c

/-- How many times the end of the call has been noticed. -/
def ends (i : Nat) (log : List Ev) : Nat :=
  log.countP fun e => match e with | .result _ k _ => k == i | .failed _ k _ => k == i | _ => false

end Gb.Nested
