import Verif.Lemmas.ClientCallsFrame
import Verif.Lemmas.AsyncMove
/-
The next step of a call.
-/
set_option autoImplicit false

namespace Gb.ClientCalls

/-- The steps which are made by the thread which has the transaction, and by the main thread. -/
def own (p : Nat) (reply : Bool) (status : Int) : List Label :=
  [.check p, .exec p, .executed p reply status, .post p, .done p, .free p, .leave p]

theorem drop_no (s : State) (o : Obj) : s.drop o ≠ .no := by
  simp only [State.drop]
  split
  · simp
  · split <;> simp

theorem dropAll_no (l : List Obj) : ∀ s : State, s.dropAll l ≠ .no := by
  induction l with
  | nil => intro s; simp [State.dropAll]
  | cons o l ih =>
    intro s
    simp only [State.dropAll]
    cases hd : s.drop o with
    | no => exact absurd hd (drop_no s o)
    | ub => simp [Out.andThen]
    | ok t => exact ih t

theorem dropClient_no (s : State) (i : Nat) : s.dropClient i ≠ .no := by
  simp only [State.dropClient]
  split
  · split
    · simp
    · cases hd : s.drop (.client i) with
      | no => exact absurd hd (drop_no s _)
      | ub => simp [Out.andThen]
      | ok t => exact dropAll_no _ _
  · exact drop_no s _

/-- A step of the transaction is a step of the call. -/
theorem lift {s : State} (hu : ∀ l, step s l ≠ .ub) {p : Nat} {c : Call} (hc : s.calls p = some c) {reply : Bool} {status : Int}
    (hr : plausible c.args.oneway reply status = true) {l : Async.Label} {tx : Async.State} (ho : Async.Own p l)
    (ha : Async.step s.tx l = .ok tx) :
    ∃ l' s', l' ∈ own p reply status ∧ step s l' = .ok s' ∧ s'.tx = tx ∧ ∀ q, .cancelled q ∈ s'.log → .cancelled q ∈ s.log := by
  rcases ho with e | e | e | e | e | e <;> subst e
  · refine ⟨.check p, { s with tx := tx }, by simp [own], by simp [step, ha], rfl, fun q h => h⟩
  · refine ⟨.exec p, { s with tx := tx }, by simp [own], by simp [step, ha], rfl, fun q h => h⟩
  · have hn := hu (.executed p reply status)
    have hs : ∀ x, step s (.executed p reply status) = x → x ≠ .ub →
        ∃ s', x = .ok s' ∧ s'.tx = tx ∧ ∀ q, .cancelled q ∈ s'.log → .cancelled q ∈ s.log := by
      intro x hx hne
      subst hx
      simp only [step, ha, hc, hr, if_true] at hne ⊢
      split
      · rename_i h0; rw [if_pos h0] at hne; exact absurd rfl hne
      · refine ⟨_, rfl, rfl, ?_⟩
        intro q hq
        simp only [State.see, State.make] at hq
        split at hq <;> simpa using hq
    obtain ⟨s', h1, h2, h3⟩ := hs _ rfl hn
    exact ⟨_, s', by simp [own], h1, h2, h3⟩
  · refine ⟨.post p, { s with tx := tx }, by simp [own], by simp [step, ha], rfl, fun q h => h⟩
  · have hn := hu (.done p)
    cases hs : step s (.done p) with
    | ub => exact absurd hs hn
    | no =>
      simp only [step, ha] at hs
      repeat' split at hs
      all_goals cases hs
    | ok s' =>
      refine ⟨_, s', by simp [own], hs, ?_⟩
      simp only [step, ha] at hs
      repeat' split at hs
      all_goals first
        | cases hs; done
        | (cases hs; exact ⟨rfl, fun q h => by simpa [State.see] using h⟩)
  · have hn := hu (.free p)
    cases hs : step s (.free p) with
    | ub => exact absurd hs hn
    | no =>
      simp only [step, ha, hc] at hs
      cases hd : s.dropAll c.inner with
      | no => exact absurd hd (dropAll_no _ _)
      | ub => rw [hd] at hs; cases hs
      | ok t => rw [hd] at hs; cases hs
    | ok s' =>
      refine ⟨_, s', by simp [own], hs, ?_⟩
      simp only [step, ha, hc] at hs
      cases hd : s.dropAll c.inner with
      | no => rw [hd] at hs; cases hs
      | ub => rw [hd] at hs; cases hs
      | ok t =>
        rw [hd] at hs
        cases hs
        refine ⟨rfl, fun q h => ?_⟩
        obtain ⟨-, -, -, -, evs, e1, e2⟩ := dropAll_still hd
        simp only [State.see, e1, List.mem_append, List.mem_singleton, reduceCtorEq, or_false] at h
        rcases h with h | h
        · exact h
        · have := e2 _ h
          simp [Ev.plain] at this

end Gb.ClientCalls
