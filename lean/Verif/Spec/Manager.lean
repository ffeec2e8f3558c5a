import Verif.Model.Manager
/-
What a service manager object has done so far, according to the log.
-/
set_option autoImplicit false

namespace Gb.Manager

/-- What the application knows about the presence of the service manager: initially whatever
gbinder_servicemanager_is_present returns, then whatever it returns when the signal is emitted. -/
def told1 (m : Nat) (a : Option Bool) : Ev → Option Bool
  | .created m' p => if m' = m then some p else a
  | .presence m' p => if m' = m then some p else a
  | _ => a

def told (m : Nat) (log : List Ev) : Option Bool := log.foldl (told1 m) none

/-- The last timer started since the service manager was there, and its interval. -/
def lastArmed1 (m : Nat) (a : Option Nat) : Ev → Option Nat
  | .created m' _ => if m' = m then none else a
  | .presence m' true => if m' = m then none else a
  | .armed m' k => if m' = m then some k else a
  | _ => a

def lastArmed (m : Nat) (log : List Ev) : Option Nat := log.foldl (lastArmed1 m) none

/-- The last attempt to watch the name since it was unwatched. -/
def lastWatch1 (m : Nat) (n : Bytes) (a : Option Bool) : Ev → Option Bool
  | .created m' _ => if m' = m then none else a
  | .watch m' n' ok => if m' = m ∧ n' = n then some ok else a
  | .unwatch m' n' => if m' = m ∧ n' = n then none else a
  | _ => a

def lastWatch (m : Nat) (n : Bytes) (log : List Ev) : Option Bool := log.foldl (lastWatch1 m n) none

/-- Each signal tells something new: that the service manager has appeared, if it wasn't there, or that
it has disappeared, if it was. -/
def SignalsFine (log : List Ev) : Prop :=
  ∀ pre post m p, log = pre ++ Ev.presence m p :: post → told m pre = some (!p)

/-- The first interval is 100 ms, each of the following ones is longer by 100 ms, but not longer than a
second. -/
def IntervalsFine (log : List Ev) : Prop :=
  ∀ pre post m k, log = pre ++ Ev.armed m k :: post →
    k = match lastArmed m pre with
      | none => 100
      | some j => min (j + 100) 1000

theorem split_append {α : Type} {l es pre post : List α} {e : α} (h : l ++ es = pre ++ e :: post) :
    (∃ p, l = pre ++ e :: p) ∨ ∃ a, pre = l ++ a ∧ es = a ++ e :: post := by
  rcases List.append_eq_append_iff.mp h with ⟨a, h1, h2⟩ | ⟨c, h1, h2⟩
  · exact .inr ⟨a, h1, h2⟩
  · cases c with
    | nil => exact .inr ⟨[], by simpa using h1.symm, by simpa using h2.symm⟩
    | cons x c => cases h2; exact .inl ⟨c, h1⟩

end Gb.Manager
