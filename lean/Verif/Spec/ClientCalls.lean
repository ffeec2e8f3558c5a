import Verif.Model.ClientCalls
/-
What happens to one asynchronous call.
-/
set_option autoImplicit false

namespace Gb.ClientCalls

/-- A call (see `called`), what the driver has returned, whether the callback has been called, and whether the call has been
cancelled. -/
inductive Life
  | new
  | live (client handle req : Nat) (a : Args) (res : Option (Option Nat × Int)) (told cancelled : Bool)
  | leaving (client : Nat)
  | gone
  deriving DecidableEq, Repr

/-- What may happen next. -/
def Life.next (p : Nat) : Life → Ev → Option Life
  | l, .called p' c h q a => if p' = p then (if l = .new then some (.live c h q a none false false) else none) else some l
  | l, .performed p' h' code ow q' r st =>
    if p' = p then
      match l with
      | .live c h q a none false x => if h' = h ∧ code = a.code ∧ ow = a.oneway ∧ q' = q then some (.live c h q a (some (r, st)) false x) else none
      | _ => none
    else some l
  | l, .cancelled p' =>
    if p' = p then
      match l with
      | .live c h q a res told _ => some (.live c h q a res told true)
      | _ => none
    else some l
  | l, .told p' c' r st d =>
    if p' = p then
      match l with
      | .live c h q a (some (r', st')) false false =>
        if c' = c ∧ r = r' ∧ st = st' ∧ a.reply = true ∧ d = a.data then some (.live c h q a (some (r, st)) true false) else none
      | _ => none
    else some l
  | l, .destroyed p' d =>
    if p' = p then
      match l with
      | .live c _ _ a _ _ _ => if d = (if a.destroy then some a.data else none) then some (.leaving c) else none
      | _ => none
    else some l
  | l, .over p' =>
    if p' = p then
      match l with
      | .leaving _ => some .gone
      | _ => none
    else some l
  | l, _ => some l

/-- The life of a call so far, unless something has happened which shouldn't have. -/
def life (p : Nat) (log : List Ev) : Option Life := log.foldl (fun o e => o.bind (·.next p e)) (some .new)

end Gb.ClientCalls
