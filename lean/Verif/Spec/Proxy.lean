import Verif.Model.Proxy
/-
What the users of proxies may do, and what they rely on.
-/
set_option autoImplicit false

namespace Gb.Proxy

/-- References are used by those who have them. gbinder_ipc calls gbinder_proxy_tx_reply at most once, and
gbinder_proxy_tx_destroy once, and not before that (see C25). -/
def okB (s : State) : Label → Bool
  | .refRemote rm | .unrefRemote rm | .new _ rm | .find _ rm _ => (s.remote rm).any fun x => 0 < x.held
  | .ref p | .unref p | .acquire p | .drop p | .handle p .. => (s.obj p).any fun o => 0 < o.held
  | .refReq r | .unrefReq r => (s.req r).any fun q => 0 < q.held
  | .reply t .. => (s.tx t).any fun x => !x.replied
  | .destroy t => (s.tx t).isSome
  | .newRemote .. | .die _ | .suicide => true

/-- See `okB`. -/
def Ok (s : State) (l : Label) : Prop := okB s l = true

/-- Somebody else has a reference to the proxy when the remote object turns out to be dead, and isn't dropping
it at that very moment. -/
def keptB (s : State) : Label → Bool
  | .reply t _ status =>
    if status = 2 then
      match (s.tx t).bind (·.proxy) with
      | some p => (s.obj p).any fun o => 2 ≤ o.refs
      | none => true
    else true
  | .unref p | .drop p => if s.main = some p then (s.obj p).any fun o => 2 ≤ o.refs else true
  | _ => true

/-- See `keptB`. -/
def OkKept (s : State) (l : Label) : Prop := Ok s l ∧ keptB s l = true

/-! ### A request -/

/-- What becomes of a request. -/
inductive Phase
  | new
  | got (code flags : Nat)
  /-- forwarded, as transaction `t` -/
  | sent (t : Nat)
  /-- there's a result of that -/
  | back (reply : Option Nat) (status : Int)
  | done
  deriving DecidableEq, Repr

/-- What may happen next to request `r`: it's forwarded with the same code and flags, its sender gets the result
of that, or an error: -EFAULT (-14) in place of the statuses which can't be sent, -ECANCELED (-125) if there is no result,
-EBADMSG (-74) if it's not forwarded. All that happens at most once. -/
def next (r : Nat) (ph : Phase) : Ev → Option Phase
  | .received r' _ _ c f => if r' = r then (if ph = .new then some (.got c f) else none) else some ph
  | .forwarded r' t _ _ c f => if r' = r then (if ph = .got c f then some (.sent t) else none) else some ph
  | .replied t rep st => if ph = .sent t then some (.back rep st) else some ph
  | .answered r' rep st =>
    if r' = r then
      match ph with
      | .got _ _ => if rep = none ∧ st = -74 then some .done else none
      | .sent _ => if rep = none ∧ st = -125 then some .done else none
      | .back rep0 st0 => if rep = rep0 ∧ st = (if 0 < st0 then -14 else st0) then some .done else none
      | _ => none
    else some ph
  | _ => some ph

/-- The phase of request `r`, unless something wrong has happened. -/
def life (r : Nat) (log : List Ev) : Option Phase :=
  log.foldl (fun ph e => ph.bind fun ph => next r ph e) (some .new)

/-- How many answers there were. -/
def answers (r : Nat) (log : List Ev) : Nat :=
  log.countP fun e => match e with | .answered r' _ _ => r' == r | _ => false

/-- What happens first: requests are refused if the proxy has been dropped, or its remote object is dead. All
others are sent, to that remote object, with the same code and flags. -/
def Handled (log : List Ev) : Prop :=
  ∀ a b r p looper c f, log = a ++ .received r p looper c f :: b →
    ∃ i rm, .made p i rm ∈ a ∧
      if .dropped p ∈ a ∨ .dead rm ∈ a then ∃ b', b = .answered r none (-74) :: b'
      else ∃ t ipc h b', .remote rm ipc h ∈ a ∧ b = .forwarded r t ipc h c f :: b'

/-! ### A proxy -/

/-- The handle of the remote object. -/
inductive Hold
  | new
  | idle (rm : Nat)
  | acquired (rm : Nat)
  | released
  | gone
  deriving DecidableEq, Repr

/-- Proxy `p` acquires the handle of its remote object at most once, and releases it, if it was acquired, when
it goes away. -/
def nextHold (p : Nat) (h : Hold) : Ev → Option Hold
  | .made p' _ rm => if p' = p then (if h = .new then some (.idle rm) else none) else some h
  | .acquire p' rm => if p' = p then (if h = .idle rm then some (.acquired rm) else none) else some h
  | .release p' rm => if p' = p then (if h = .acquired rm then some .released else none) else some h
  | .freed p' =>
    if p' = p then
      match h with
      | .idle _ | .released => some .gone
      | _ => none
    else some h
  | _ => some h

/-- What proxy `p` has done to the handle, unless it's something wrong. -/
def hold (p : Nat) (log : List Ev) : Option Hold :=
  log.foldl (fun h e => h.bind fun h => nextHold p h e) (some .new)

end Gb.Proxy
