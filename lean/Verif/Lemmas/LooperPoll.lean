import Verif.Spec.LooperPoll
/-
Lemmas for C87.
-/
set_option autoImplicit false

namespace Gb.LooperPoll

/-- How many steps are left for a thread which has been told to exit. -/
def rank : Phase → Nat
  | .started => 4
  | .polling => 3
  | .check .. => 2
  | .reading _ => 4
  | .busy _ => 3
  | .handled .. => 2
  | .leaving => 1
  | .ended | .none => 0

theorem rank_le (p : Phase) : rank p ≤ 4 := by cases p <;> simp [rank]

theorem step_exit {s s' : State} {l : Label} (hs : step s l = .ok s') {x : Nat} (hx : s.exit x = true) : s'.exit x = true := by
  cases l <;> simp only [step, State.go] at hs <;> (repeat' split at hs) <;> cases hs <;> first | exact hx | (simp only [upd]; split <;> simp_all)

theorem step_pipe {s s' : State} {l : Label} (hs : step s l = .ok s') {x : Nat} (hx : s.pipe x = true) : s'.pipe x = true := by
  cases l <;> simp only [step, State.go] at hs <;> (repeat' split at hs) <;> cases hs <;> first | exact hx | (simp only [upd]; split <;> simp_all)

/-- There's a thread. -/
theorem exit_exists {s : State} (h : Reach step {} s) {x : Nat} (hx : s.exit x = true) : s.phase x ≠ .none := by
  refine Reach.invariant (P := fun s => s.exit x = true → s.phase x ≠ .none) ?_ ?_ h hx
  · intro h; cases h
  · intro s l s' ih hs hx
    cases l <;> simp only [step, State.go] at hs <;> (repeat' split at hs) <;> cases hs <;> simp only [upd] at hx ⊢ <;> grind

/-- Nobody is woken up without being told to exit. -/
theorem pipe_exit {s : State} (h : Reach step {} s) {x : Nat} (hx : s.pipe x = true) : s.exit x = true := by
  refine Reach.invariant (P := fun s => s.pipe x = true → s.exit x = true) ?_ ?_ h hx
  · intro h; cases h
  · intro s l s' ih hs hx
    cases l <;> simp only [step, State.go] at hs <;> (repeat' split at hs) <;> cases hs <;> simp only [upd] at hx ⊢ <;> grind

/-- One step of a looper which has been told to exit. -/
theorem step_rank {s s' : State} {l : Label} {x : Nat} (hn : s.phase x ≠ .none) (hx : s.exit x = true) (hs : step s l = .ok s') :
    rank (s'.phase x) + (if own x l then 1 else 0) ≤ rank (s.phase x) := by
  cases l <;> simp only [step, State.go] at hs <;> (repeat' split at hs) <;> cases hs <;> simp only [upd, own] <;>
    grind [rank]

/-- And it doesn't begin to read. -/
theorem step_read {s s' : State} {l : Label} {x : Nat} (hn : s.phase x ≠ .none) (hx : s.exit x = true) (hs : step s l = .ok s')
    {p : Bool} (hr : s'.phase x = .reading p) : s.phase x = .reading p ∧ l ≠ .take x := by
  cases l <;> simp only [step, State.go] at hs <;> (repeat' split at hs) <;> cases hs <;> simp only [upd] at hr <;>
    grind

/-- The state of the thread tells whether it has seen something in the pipe. -/
def sees : Phase → Bool
  | .check _ p | .reading p | .busy p | .handled _ p => p
  | _ => false

theorem sees_pipe {s : State} (h : Reach step {} s) {x : Nat} (hx : sees (s.phase x) = true) : s.pipe x = true := by
  refine Reach.invariant (P := fun s => sees (s.phase x) = true → s.pipe x = true) ?_ ?_ h hx
  · intro h; cases h
  · intro s l s' ih hs hx
    cases l <;> simp only [step, State.go] at hs <;> (repeat' split at hs) <;> cases hs <;> simp only [upd] at hx ⊢ <;>
      grind [sees, State.ready]

end Gb.LooperPoll
