import Verif.Model.Locks
/-
Who may wait for whom.
-/
set_option autoImplicit false

namespace Gb.Locks

/-- Threads which are going to run these programs. -/
def start (progs : Nat → List Act) : State := { rest := progs }

/-- The thread has locked something. -/
def State.Holder (s : State) (t : Nat) : Prop := ∃ l, s.held l = some t

/-- The threads which may take steps take some of them. -/
inductive Runs (may : State → Nat → Prop) : State → State → Prop
  | refl (s : State) : Runs may s s
  | step {s s' s'' : State} (t : Nat) : may s t → step s t = .ok s' → Runs may s' s'' → Runs may s s''

/-- Things which the thread must not do under a lock, because it can't be known how long they take: call the application,
wait for other threads. -/
def Act.long : Act → Bool
  | .other => true
  | .join _ => true
  | .joinUnset => true
  | .ask _ _ => true
  | _ => false

/-- pthread_create doesn't fail. -/
def Creates (p : List Act) : Prop := Act.joinUnset ∉ p

instance (p : List Act) : Decidable (Creates p) := inferInstanceAs (Decidable (Act.joinUnset ∉ p))

/-- Looper `x` isn't the one who releases the last reference to GBinderIpc, i.e. doesn't join other threads, and what it
waits for is what it may stop waiting for. -/
def OfLooper (x : Nat) (p : List Act) : Prop :=
  (∀ u, Act.join u ∉ p) ∧ ∀ r w, Act.ask r w ∈ p → w = some x

end Gb.Locks
