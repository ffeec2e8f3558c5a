import Verif.Model.Oneway
/-
Specification for C88.
-/
set_option autoImplicit false

namespace Gb.Oneway

/-- Whenever the handler of the object is called for a transaction, those which
it has been called for before have been sent earlier, and have been dealt with completely. -/
def InOrder (node : Nat) (log : List Ev) : Prop :=
  ∀ a j c, log = a ++ .started j node :: c → ∀ i, .started i node ∈ a → i < j ∧ .ended i ∈ a

/-- All transactions to the object have data. (The interface token is a part of it.) -/
def Full (node : Nat) (_ : State) : Label → Prop
  | .send n e => n = node → e = false
  | _ => True

/-- Someone in the process refers to the request or its data. -/
def Referred (t : Tx) : Prop := t.looper = true ∨ t.tx = true ∨ 0 < t.held ∨ 0 < t.parts

/-- What happens to a transaction if nothing unusual does: it's taken, handled and let go of. The looper waits for that. -/
def usual (j : Nat) (s : State) : Label → Prop
  | .take i | .schedule i | .begin i | .ret i | .complete i | .fin i | .drop i | .dropPart i => i = j
  | .leave i => i = j ∧ ((s.tx i).work = .refused ∨ (s.tx i).work = .ended ∨ (s.tx i).work = .cancelled)
  | _ => False

/-- Each step is usual for one of the transactions to the object which were sent no later than the given one. -/
def Usual (node i : Nat) : State → List Label → Prop
  | _, [] => True
  | s, l :: ls => (∃ j, j ≤ i ∧ (s.tx j).node = node ∧ usual j s l) ∧ match step s l with
    | .ok s' => Usual node i s' ls
    | _ => False

/-- The application has got what's needed to complete the requests it has blocked. -/
def Completable (node : Nat) (s : State) : Prop :=
  ∀ k, (s.tx k).node = node → (s.tx k).work = .blocked → 0 < (s.tx k).held

end Gb.Oneway
