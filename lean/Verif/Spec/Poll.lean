import Verif.Model.Poll
/-
What the user of GBinderServicePoll expects from it.
-/
set_option autoImplicit false

namespace Gb.Poll

/-- As seen by its user. -/
inductive View
  | off
  /-- the last list -/
  | idle (known : List Bytes)
  /-- the last list, the new one, and what has been announced so far -/
  | busy (known : List Bytes) (l : List Bytes) (done : List Bytes)
  deriving DecidableEq, Repr

/-- Only new names are announced, once, and none of them is missing. -/
def view1 (a : Option View) : Ev → Option View
  | .started => match a with
    | some .off => some (.idle [])
    | _ => none
  | .gone => match a with
    | some (.idle _) => some .off
    | _ => none
  | .listed l => match a with
    | some (.idle known) => some (.busy known l [])
    | _ => none
  | .announced n => match a with
    | some (.busy known l done) =>
      if n ∈ l ∧ n ∉ known ∧ n ∉ done then some (.busy known l (done ++ [n])) else none
    | _ => none
  | .finished => match a with
    | some (.busy known l done) =>
      if ∀ n ∈ l, n ∉ known → n ∈ done then some (.idle l) else none
    | _ => none
  | _ => a

/-- `none` if something has gone wrong. -/
def view (log : List Ev) : Option View := log.foldl view1 (some .off)

/-- The last list which was processed. -/
def View.known : View → List Bytes
  | .off => []
  | .idle k => k
  | .busy k _ _ => k

/-- The handlers which are there, and whether they have been called since they were added. -/
def heard1 (a : List (Nat × Bytes × Bool)) : Ev → List (Nat × Bytes × Bool)
  | .added id n => a ++ [(id, n, false)]
  | .removed id => a.filter fun h => h.1 != id
  | .called id _ => a.map fun h => if h.1 = id then (h.1, h.2.1, true) else h
  | _ => a

def heard (log : List Ev) : List (Nat × Bytes × Bool) := log.foldl heard1 []

end Gb.Poll
