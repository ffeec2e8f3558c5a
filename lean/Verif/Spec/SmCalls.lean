import Verif.Model.SmCalls
/-
Asynchronous calls to the service manager, as seen by those who make them.
-/
set_option autoImplicit false

namespace Gb.SmCalls

/-- The life of a call. -/
inductive Call
  | new
  | live (w : What) (r : Option Result) (told cancelled : Bool)
  | gone
  deriving DecidableEq, Repr

/-- What may happen, and what becomes of that: the service manager does what it has been asked for, once at most; then the
callback gets the result, once, unless the call has been cancelled; and then nothing happens. -/
def Call.next (p : Nat) : Call → Ev → Option Call
  | c, .asked q _ w =>
    if q = p then
      match c with
      | .new => some (.live w none false false)
      | _ => none
    else some c
  | c, .performed q w r =>
    if q = p then
      match c with
      | .live v none false x => if v = w then some (.live v (some r) false x) else none
      | _ => none
    else some c
  | c, .told q r =>
    if q = p then
      match c with
      | .live w (some r') false false => if r = r' then some (.live w (some r') true false) else none
      | _ => none
    else some c
  | c, .cancelled q =>
    if q = p then
      match c with
      | .live w r t _ => some (.live w r t true)
      | _ => none
    else some c
  | c, .freed q =>
    if q = p then
      match c with
      | .live _ _ _ _ => some .gone
      | _ => none
    else some c
  | c, _ => some c

def call (p : Nat) (log : List Ev) : Option Call :=
  log.foldl (fun o e => o.bind (·.next p e)) (some .new)

/-- Whose is the list of names? -/
inductive Arr
  | absent
  /-- that of the library, which has got it for this call; has it been passed to the callback? -/
  | ours (p : Nat) (shown : Bool)
  | theirs
  | freed
  deriving DecidableEq, Repr

/-- What may happen to a list of names, and what becomes of that. It's shown to the callback of the call it has been made for, it's
not freed if the callback keeps it, and nothing is done to it after it has been freed. -/
def Arr.next (n : Nat) : Arr → Ev → Option Arr
  | a, .performed p _ r =>
    if r.names = some n then
      match a with
      | .absent => some (.ours p false)
      | _ => none
    else some a
  | a, .told p r =>
    if r.names = some n then
      match a with
      | .ours q false => if q = p then some (.ours q true) else none
      | _ => none
    else some a
  | a, .kept m =>
    if m = n then
      match a with
      | .ours _ true => some .theirs
      | _ => none
    else some a
  | a, .released m =>
    if m = n then
      match a with
      | .ours _ _ => some .freed
      | _ => none
    else some a
  | a, _ => some a

def array (n : Nat) (log : List Ev) : Option Arr :=
  log.foldl (fun o e => o.bind (·.next n e)) (some .absent)

end Gb.SmCalls
