import Verif.Model.HidlWatch
/-
Whose notifications are passed on.
-/
set_option autoImplicit false

namespace Gb.HidlWatch

/-- Given the name which the callback object has been waiting for so far (if it has), what it's waiting for after that: that's from a successful
watch() until the name is watched again, until unwatch(), until the service manager refuses to do that, or until the
GBinderServiceManager is gone. -/
def waits (n : Nat) (w : Option Bytes) : Ev → Option Bytes
  | .watched name m ok => if m = n then (if ok then some name else none) else if w = some name then none else w
  | .unwatched name => if w = some name then none else w
  | .completed m ok => if m = n ∧ ok = false then none else w
  | .closed => none
  | _ => w

/-- What the n-th callback object is waiting for. -/
def waiting (n : Nat) (log : List Ev) : Option Bytes := log.foldl (waits n) none

/-- The same regardless of whether the service manager has refused. -/
def keeps (n : Nat) (w : Option Bytes) : Ev → Option Bytes
  | .watched name m ok => if m = n then (if ok then some name else none) else if w = some name then none else w
  | .unwatched name => if w = some name then none else w
  | .closed => none
  | _ => w

/-- What the n-th callback object has been made for, if that's still interesting. -/
def kept (n : Nat) (log : List Ev) : Option Bytes := log.foldl (keeps n) none

/-- Used by nobody, except for those who aren't a part of this. -/
def Item.Unused (x : Item) : Prop := x.watch = false ∧ x.call = false ∧ x.refs = x.other

end Gb.HidlWatch
