import Verif.Model.Bridge
/-
What becomes of each interface of a bridge: it follows the rules below, and nothing else happens to it.
-/
set_option autoImplicit false

namespace Gb.Bridge

/-- An interface of a bridge which doesn't exist yet, which does, and which is gone. -/
inductive Stage
  | before
  | on
  | after
  deriving DecidableEq, Repr

/-- What an interface has: the object found at the other side, the proxy (with the object it forwards the
requests to) and the published service. -/
structure View where
  stage : Stage := .before
  obj : Option Nat := none
  proxy : Option (Nat × Nat) := none
  service : Option Nat := none
  deriving DecidableEq, Repr

/-- The rules:
* there's one object, one proxy and one service at a time;
* the proxy is for the object which has been found;
* the proxy is what's published;
* nothing happens before the name is being watched, or after it's not;
* there's nothing left by then. -/
def next (i : Nat) (v : View) : Ev → Option View
  | .watch j _ => if j = i then if v = {} then some { v with stage := .on } else none else some v
  | .unwatch j => if j = i then if v = { stage := .on } then some { v with stage := .after } else none else some v
  | .found j _ rm =>
    if j = i then if v.stage = .on ∧ v.obj = none then some { v with obj := rm } else none else some v
  | .left j rm => if j = i then if v.obj = some rm then some { v with obj := none } else none else some v
  | .made j p rm =>
    if j = i then
      if v.stage = .on ∧ v.obj = some rm ∧ v.proxy = none then some { v with proxy := some (p, rm) } else none
    else some v
  | .dropped j p => if j = i then if v.proxy.map (·.1) = some p then some { v with proxy := none } else none else some v
  | .published j n p _ =>
    if j = i then
      if v.stage = .on ∧ v.proxy.map (·.1) = some p ∧ v.service = none then some { v with service := some n } else none
    else some v
  | .withdrawn j n =>
    if j = i then if v.service = some n then some { v with service := none } else none else some v
  | .opened .. | .refused | .freed _ | .died _ => some v

/-- What's become of the interface; `none` if the rules have been broken. -/
def life (i : Nat) (log : List Ev) : Option View := log.foldl (fun v e => v.bind fun v => next i v e) (some {})

/-- The remote object which gets the requests sent to the service published by this interface. -/
def serving (i : Nat) (log : List Ev) : Option Nat :=
  (life i log).bind fun v => v.service.bind fun _ => v.proxy.map (·.2)

/-- The names used by the interfaces of a bridge: the other side is asked for the interface and the name, separated by a
slash, and services are published under the name for this side. -/
def Named (log : List Ev) : Prop :=
  ∀ b src dest l, .opened b src dest l ∈ log → ∀ i f, (i, f) ∈ l →
    (∀ n, .watch i n ∈ log → n = f ++ [0x2f] ++ dest) ∧
    (∀ n rm, .found i n rm ∈ log → n = f ++ [0x2f] ++ dest) ∧
    (∀ n p name, .published i n p name ∈ log → name = src)

/-- The objects found by a lookup are not known to be dead (gbinder_remote_object.c:81-83 and 156: those are
removed from the table before the signal is emitted, see C29). -/
def Ok (s : State) : Label → Prop
  | .new _ _ _ look | .call look => ∀ i rm, look i = some rm → .died rm ∉ s.log
  | _ => True

/-- Furthermore, a bridge isn't told that the service has been registered between the death of the object and being told
about that. -/
def OkQuiet (s : State) (l : Label) : Prop :=
  Ok s l ∧ match l with
    | .call _ =>
      match s.calls with
      | .registration i _ :: _ => ∀ rm, .death rm i ∉ s.calls
      | _ => True
    | _ => True

end Gb.Bridge
