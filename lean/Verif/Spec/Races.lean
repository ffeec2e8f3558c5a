import Verif.Model.Races
/-
What a data race is.
-/
set_option autoImplicit false

namespace Gb.Races

open Gb.Locks (Lock)

/-- Threads which are going to run these programs. -/
def start (progs : Nat → List Act) : State := { rest := progs }

/-- The mutex which is supposed to be locked by whoever touches the variable. -/
def guard : Var → Option Lock
  | .ipcs => some .table
  | .managers k => some (.manager k)
  | .locals i => some (.locals i)
  | .remotes i => some (.remotes i)
  | .loopers i => some (.loopers i)
  | _ => none

/-- Two threads are about to access the variable at the same time, at least one of them changes it. -/
def State.Race (s : State) (v : Var) : Prop :=
  ∃ t u w r r', t ≠ u ∧ s.rest t = .use v true :: r ∧ s.rest u = .use v w :: r'

/-- Nobody changes it, or it's only used by one thread. -/
def Private (progs : Nat → List Act) (v : Var) : Prop :=
  (∀ t, Act.use v true ∉ progs t) ∨ ∃ m, ∀ t, t ≠ m → ∀ w, Act.use v w ∉ progs t

/-- The actions which Model/Locks knows of. -/
def erase (p : List Act) : List Locks.Act :=
  p.filterMap fun
    | .act a => some a
    | .use _ _ => none

/-- The state as seen by Model/Locks. -/
def State.erased (s : State) : Locks.State :=
  { held := s.held, rest := fun t => erase (s.rest t), stopped := s.stopped, answered := s.answered }

end Gb.Races
