import Verif.Model.Async
/-
The life of an asynchronous transaction.
-/
set_option autoImplicit false

namespace Gb.Async

/-- `new` hasn't been submitted yet, `gone` has been destroyed. -/
inductive Life
  | new
  | live (executed cancelled done : Bool)
  | gone
  deriving DecidableEq, Repr

/-- What may happen, and what becomes of that. In particular, fn_exec and the completion callback
are called at most once, fn_exec is called before the completion callback, the completion callback is
not called for a cancelled transaction, and nothing happens after the destroy callback has been
called. -/
def Life.next (p : Nat) : Life → Ev → Option Life
  | .new, .submit q _ => if q = p then some (.live false false false) else some .new
  | l, .submit q _ => if q = p then none else some l
  | .live false c false, .exec q => if q = p then some (.live true c false) else some (.live false c false)
  | l, .exec q => if q = p then none else some l
  | .live true false false, .done q => if q = p then some (.live true false true) else some (.live true false false)
  | l, .done q => if q = p then none else some l
  | .live e c d, .destroy q => if q = p then some .gone else some (.live e c d)
  | l, .destroy q => if q = p then none else some l
  | .live e c d, .cancel q => if q = p then some (.live e true d) else some (.live e c d)
  | l, .cancel q => if q = p then none else some l

def track (p : Nat) : Life → List Ev → Option Life
  | l, [] => some l
  | l, e :: evs =>
    match l.next p e with
    | some l' => track p l' evs
    | none => none

end Gb.Async
