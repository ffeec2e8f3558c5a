import Verif.Model.LooperPoll
/-
Specification for C87: the steps of a thread, and the conditions.
-/
set_option autoImplicit false

namespace Gb.LooperPoll

/-- What the thread of the looper does. -/
def own (x : Nat) : Label → Bool
  | .poll y | .polled y _ _ | .test y | .take y | .flushed y _ | .fails y | .done y | .again y | .finish y => y == x
  | _ => false

/-- Those steps which don't depend on luck: nothing fails and nothing is interrupted. -/
def sure (x : Nat) (l : Label) : Bool :=
  own x l && match l with
    | .fails _ => false
    | .polled _ res _ => res != BitVec.allOnes 32
    | _ => true

/-- The looper's thread waits for the kernel, and there's nothing for it. -/
def Stuck (s : State) (x : Nat) : Prop := (∃ p, s.phase x = .reading p) ∧ s.isOpen = true ∧ s.work = 0

/-- Signals don't interrupt poll, and no looper is created before the previous one has ended. -/
def Quiet (s : State) : Label → Prop
  | .create _ => ∀ y, s.phase y = .none ∨ s.phase y = .ended
  | .polled _ res _ => res ≠ BitVec.allOnes 32
  | _ => True

/-- Nothing fails: poll reports POLLIN or nothing, unless it has been interrupted. -/
def Fine (_ : State) : Label → Prop
  | .fails _ => False
  | .polled _ res _ => res = 0 ∨ res = pollin ∨ res = BitVec.allOnes 32
  | _ => True

/-- It's going to look for transactions. -/
def Serving (s : State) (x : Nat) : Prop :=
  s.phase x ≠ .none ∧ s.phase x ≠ .leaving ∧ s.phase x ≠ .ended

end Gb.LooperPoll
