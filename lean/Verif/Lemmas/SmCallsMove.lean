import Verif.Lemmas.SmCallsStep
import Verif.Lemmas.AsyncMove
/-
The next step of a call.
-/
set_option autoImplicit false

namespace Gb.SmCalls

/-- The steps which are made by the thread which has the transaction, and by the main thread. -/
def own (p : Nat) (r : Reply) (keep : Bool) : List Label :=
  [.check p, .exec p, .executed p r, .post p, .done p keep, .free p]

/-- What doesn't get lost, and what isn't new. -/
def Kept (s s' : State) : Prop :=
  (∀ p sm w, .asked p sm w ∈ s.log → .asked p sm w ∈ s'.log) ∧ ∀ q, .cancelled q ∈ s'.log → .cancelled q ∈ s.log

/-- A step of the transaction is a step of the call. -/
theorem lift {s : State} (hu : ∀ l, step s l ≠ .ub) {p : Nat} {d : Data} (hd : s.data p = some d) {r : Reply} {keep : Bool}
    (hr : ∀ n, result n d.what r ≠ none) {l : Async.Label} {tx : Async.State} (ho : Async.Own p l)
    (ha : Async.step s.tx l = .ok tx) :
    ∃ l' s', l' ∈ own p r keep ∧ step s l' = .ok s' ∧ s'.tx = tx ∧ Kept s s' := by
  rcases ho with e | e | e | e | e | e <;> subst e
  · exact ⟨.check p, { s with tx := tx }, by simp [own], by simp [step, ha], rfl, by simp [Kept]⟩
  · have hn := hu (.exec p)
    cases hs : step s (.exec p) with
    | ub => exact absurd hs hn
    | no =>
      simp only [step, ha, hd] at hs
      split at hs <;> cases hs
    | ok s' =>
      refine ⟨_, s', by simp [own], hs, ?_⟩
      simp only [step, ha, hd] at hs
      split at hs <;> cases hs
      exact ⟨rfl, by simp [Kept]⟩
  · have hn := hu (.executed p r)
    cases hs : step s (.executed p r) with
    | ub => exact absurd hs hn
    | no =>
      simp only [step, ha, hd] at hs
      split at hs
      · split at hs
        · rename_i h0; exact absurd h0 (hr _)
        · cases hs
      · cases hs
    | ok s' =>
      refine ⟨_, s', by simp [own], hs, ?_⟩
      simp only [step, ha, hd] at hs
      split at hs
      · split at hs
        · cases hs
        · cases hs
          exact ⟨rfl, by simp [Kept, State.see, State.take]⟩
      · cases hs
  · exact ⟨.post p, { s with tx := tx }, by simp [own], by simp [step, ha], rfl, by simp [Kept]⟩
  · have hn := hu (.done p keep)
    cases hs : step s (.done p keep) with
    | ub => exact absurd hs hn
    | no =>
      simp only [step, ha, hd, State.release] at hs
      repeat' split at hs
      all_goals simp [Out.andThen] at hs
      all_goals repeat' split at hs
      all_goals cases hs
    | ok s' =>
      refine ⟨_, s', by simp [own], hs, ?_⟩
      simp only [step, ha, hd, State.release] at hs
      repeat' split at hs
      all_goals first
        | (cases hs; done)
        | (cases hs; exact ⟨rfl, by simp [Kept, State.see]⟩)
        | (simp only [Out.andThen] at hs
           repeat' split at hs
           all_goals first
             | (cases hs; done)
             | (cases hs; exact ⟨rfl, by simp [Kept, State.see]⟩))
  · have hn := hu (.free p)
    cases hs : step s (.free p) with
    | ub => exact absurd hs hn
    | no =>
      simp only [step, ha, hd] at hs
      cases h1 : s.release d.res.names with
      | no => unfold State.release at h1; repeat' split at h1
              all_goals cases h1
      | ub => rw [h1] at hs; cases hs
      | ok t =>
        rw [h1] at hs
        simp only [Out.andThen, State.drop] at hs
        split at hs
        · cases hs
        · rename_i hx; split at hx <;> cases hx
        · cases hs
    | ok s' =>
      refine ⟨_, s', by simp [own], hs, ?_⟩
      simp only [step, ha, hd] at hs
      cases h1 : s.release d.res.names with
      | no => rw [h1] at hs; cases hs
      | ub => rw [h1] at hs; cases hs
      | ok t =>
        have ht : Kept s t := by
          unfold State.release at h1
          repeat' split at h1
          all_goals first
            | (cases h1; done)
            | (cases h1; simp [Kept, State.see])
        rw [h1] at hs
        simp only [Out.andThen, State.drop] at hs
        split at hs
        · rename_i u hu'
          split at hu'
          · cases hu'
            cases hs
            refine ⟨rfl, fun p sm w h => ?_, fun q h => ht.2 q ?_⟩
            · have := ht.1 p sm w h
              simp [State.see, this]
            · simpa [State.see] using h
          · cases hu'
        · cases hs
        · cases hs

end Gb.SmCalls
