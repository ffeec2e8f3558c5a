import Verif.Lemmas.AsyncFacts
/-
The next step of a transaction.
-/
set_option autoImplicit false

namespace Gb.Async

/-- How many steps are left. -/
def left (a : State) (p : Nat) : Nat :=
  6 * a.queue.count p + 5 * a.starting.count p + 4 * a.running.count p + 3 * a.finished.count p + 2 * a.posted.count p +
    a.finishing.count p

/-- The steps made by the thread which has the transaction, and by the main thread. -/
def Own (p : Nat) (l : Label) : Prop :=
  l = .check p ∨ l = .exec p ∨ l = .executed p ∨ l = .post p ∨ l = .done p ∨ l = .free p

/-- There's a step which can be made. -/
theorem Facts.move {a : State} (h : Facts a) {p : Nat} {t : Tx} (ht : a.txs p = some t) :
    ∃ l a', Own p l ∧ Gb.Async.step a l = .ok a' ∧ left a' p < left a p := by
  have hs := (h.at_ p).sum
  rw [ht] at hs
  simp only [Option.isSome_some, if_true] at hs
  by_cases h1 : p ∈ a.queue
  · have := List.count_pos_iff.2 h1
    cases hc : t.cancelled with
    | true =>
      refine ⟨.check p, { a with queue := a.queue.erase p, finished := p :: a.finished }, by simp [Own], by simp [Gb.Async.step, h1, ht, hc], ?_⟩
      simp only [left, List.count_erase_self, List.count_cons_self]; omega
    | false =>
      refine ⟨.check p, { a with queue := a.queue.erase p, starting := p :: a.starting }, by simp [Own], by simp [Gb.Async.step, h1, ht, hc], ?_⟩
      simp only [left, List.count_erase_self, List.count_cons_self]; omega
  by_cases h2 : p ∈ a.starting
  · have := List.count_pos_iff.2 h2
    refine ⟨.exec p, { a with starting := a.starting.erase p, running := p :: a.running, log := a.log ++ [.exec p] }, by simp [Own],
      by simp [Gb.Async.step, h2, ht], ?_⟩
    simp only [left, List.count_erase_self, List.count_cons_self]; omega
  by_cases h3 : p ∈ a.running
  · have := List.count_pos_iff.2 h3
    refine ⟨.executed p, { a with running := a.running.erase p, finished := p :: a.finished }, by simp [Own],
      by simp [Gb.Async.step, h3, ht], ?_⟩
    simp only [left, List.count_erase_self, List.count_cons_self]; omega
  by_cases h4 : p ∈ a.finished
  · have := List.count_pos_iff.2 h4
    refine ⟨.post p, { a with finished := a.finished.erase p, posted := p :: a.posted }, by simp [Own],
      by simp [Gb.Async.step, h4, ht], ?_⟩
    simp only [left, List.count_erase_self, List.count_cons_self]; omega
  by_cases h5 : p ∈ a.posted
  · have := List.count_pos_iff.2 h5
    refine ⟨.done p, { a with posted := a.posted.erase p, finishing := p :: a.finishing, log := if t.cancelled then a.log else a.log ++ [.done p] }, by simp [Own],
      by simp [Gb.Async.step, h5, ht], ?_⟩
    simp only [left, List.count_erase_self, List.count_cons_self]; omega
  by_cases h6 : p ∈ a.finishing
  · have := List.count_pos_iff.2 h6
    refine ⟨.free p, { a with
      finishing := a.finishing.erase p
      txs := upd a.txs p none
      table := a.table.filter (fun e => e.1 ≠ t.id)
      log := a.log ++ [.destroy p] }, by simp [Own], by simp [Gb.Async.step, h6, ht], ?_⟩
    simp only [left, List.count_erase_self]; omega
  · simp only [List.count_eq_zero.2 h1, List.count_eq_zero.2 h2, List.count_eq_zero.2 h3, List.count_eq_zero.2 h4, List.count_eq_zero.2 h5,
      List.count_eq_zero.2 h6] at hs
    omega

end Gb.Async
