import Verif.Lemmas.Async
/-
C26: the id returned by gbinder_client_transact (gbinder_ipc_transact, gbinder_ipc_transact_custom)
is never 0 and differs from the id of every call still outstanding, even after the counter wraps
around.
-/
set_option autoImplicit false

namespace Gb.C26
open Gb.Async

/-- The id of a transaction which hasn't been destroyed. -/
def outstanding (s : State) (p id : Nat) : Prop :=
  .submit p id ∈ s.log ∧ .destroy p ∉ s.log

/-- The table describes what's been going on. -/
theorem log_table {s : State} (h : Reach step {} s) :
    (∀ p id, .submit p id ∈ s.log → p < s.calls) ∧ (∀ p, .destroy p ∈ s.log → p < s.calls ∧ s.txs p = none) ∧
    ∀ p id, .submit p id ∈ s.log → .destroy p ∉ s.log → (id, p) ∈ s.table := by
  suffices hi : Tab s ∧ (∀ p id, .submit p id ∈ s.log → p < s.calls) ∧
      (∀ p, .destroy p ∈ s.log → p < s.calls ∧ s.txs p = none) ∧
      ∀ p id, .submit p id ∈ s.log → .destroy p ∉ s.log → (id, p) ∈ s.table from hi.2
  refine Reach.invariant (P := fun s => Tab s ∧ (∀ p id, .submit p id ∈ s.log → p < s.calls) ∧
      (∀ p, .destroy p ∈ s.log → p < s.calls ∧ s.txs p = none) ∧
      ∀ p id, .submit p id ∈ s.log → .destroy p ∉ s.log → (id, p) ∈ s.table) ?_ ?_ h
  · exact ⟨tab_init, (by intro p id h; cases h), (by intro p h; cases h), (by intro p id h; cases h)⟩
  intro s l s' hi hs
  obtain ⟨ht, i1, i2, i3⟩ := hi
  refine ⟨tab_step ht hs, ?_⟩
  cases l with
  | submit =>
    simp only [step] at hs
    split at hs
    · cases hs
    · cases hs
      simp only [List.mem_append, List.mem_singleton]
      refine ⟨?_, ?_, ?_⟩
      · intro p id h
        rcases h with h | h
        · have := i1 p id h; omega
        · cases h; omega
      · intro p h
        have := i2 p (by simpa using h)
        refine ⟨by omega, ?_⟩
        rw [upd_ne _ _ (by omega)]
        exact this.2
      · intro p id h hd
        rcases h with h | h
        · exact List.mem_cons_of_mem _ (i3 p id h (by simpa using hd))
        · cases h; exact List.mem_cons_self
  | check q | executed q | post q | flush q =>
    simp only [step] at hs
    (repeat' split at hs) <;> first | cases hs | skip
    all_goals exact ⟨i1, i2, i3⟩
  | exec q =>
    simp only [step] at hs
    split at hs
    · split at hs
      · cases hs
        simpa using ⟨i1, i2, i3⟩
      · cases hs
    · cases hs
  | done q =>
    simp only [step] at hs
    split at hs
    · split at hs
      · cases hs
        simp only
        split
        · exact ⟨i1, i2, i3⟩
        · simpa using ⟨i1, i2, i3⟩
      · cases hs
    · cases hs
  | cancel id =>
    simp only [step] at hs
    split at hs
    · rename_i x q hf
      split at hs
      · rename_i tx htx
        cases hs
        simp only [List.mem_append, List.mem_singleton, or_false, reduceCtorEq]
        refine ⟨i1, ?_, i3⟩
        intro p hp
        have := i2 p hp
        refine ⟨this.1, ?_⟩
        rw [upd_ne _ _ (by intro hq; subst hq; rw [this.2] at htx; cases htx)]
        exact this.2
      · cases hs
    · cases hs
      exact ⟨i1, i2, i3⟩
  | free q =>
    simp only [step] at hs
    split at hs
    · split at hs
      · rename_i tx htx
        cases hs
        simp only [List.mem_append, List.mem_singleton, or_false, reduceCtorEq]
        refine ⟨i1, ?_, ?_⟩
        · intro p hp
          by_cases hq : p = q
          · subst hq
            rw [upd_same]
            refine ⟨?_, rfl⟩
            have := ht.fresh p
            cases Nat.lt_or_ge p s.calls with
            | inl h => exact h
            | inr h => rw [this h] at htx; cases htx
          · rw [upd_ne _ _ hq]
            rcases hp with hp | hp
            · exact i2 p hp
            · cases hp; exact absurd rfl hq
        · intro p id hp hd
          simp only [not_or, Ev.destroy.injEq] at hd
          have h1 := i3 p id hp hd.1
          simp only [List.mem_filter, decide_eq_true_eq, ne_eq]
          refine ⟨h1, ?_⟩
          intro hid
          rw [hid] at h1
          exact hd.2 (unique ht h1 ((ht.mem tx.id q).2 ⟨tx, htx, rfl⟩))
      · cases hs
    · cases hs

/-- The id of a new call. -/
theorem C26_new {s s' : State} (h : Reach step {} s) (hs : step s .submit = .ok s') :
    ∃ id, s'.log = s.log ++ [.submit s.calls id] ∧ id ≠ 0 ∧ id < 2 ^ 32 ∧
      ∀ p id', outstanding s p id' → id' ≠ id := by
  simp only [step] at hs
  split at hs
  · cases hs
  · rename_i id next hg
    cases hs
    obtain ⟨h1, h2, h3, _⟩ := getId_some (inv_reach h).1.next hg
    refine ⟨id, rfl, by omega, h3, ?_⟩
    rintro p id' ⟨hp, hd⟩ he
    subst he
    exact h1 (List.mem_map.2 ⟨(id', p), (log_table h).2.2 p id' hp hd, rfl⟩)

/-- The ids of all outstanding calls are different, and none of those is zero. -/
theorem C26_distinct {s : State} (h : Reach step {} s) {p q id : Nat} (hp : outstanding s p id)
    (hq : outstanding s q id) : id ≠ 0 ∧ p = q := by
  have h1 := (log_table h).2.2 p id hp.1 hp.2
  have h2 := (log_table h).2.2 q id hq.1 hq.2
  have ht := (inv_reach h).1
  have := ht.range id p h1
  exact ⟨by omega, unique ht h1 h2⟩

/-- And gbinder_client_cancel affects the right one. -/
theorem C26_cancel {s : State} (h : Reach step {} s) {p id : Nat} (hp : outstanding s p id) :
    ∃ s', step s (.cancel id) = .ok s' ∧ s'.log = s.log ++ [.cancel p] := by
  have h1 := (log_table h).2.2 p id hp.1 hp.2
  have ht := (inv_reach h).1
  obtain ⟨tx, htx, _⟩ := (ht.mem id p).1 h1
  simp only [step]
  cases hf : s.table.find? (fun e => e.1 = id) with
  | none => exact absurd (List.find?_eq_none.1 hf _ h1) (by simp)
  | some x =>
    obtain ⟨a, b⟩ := x
    have h2 : a = id := by simpa using List.find?_some hf
    subst h2
    have h3 := unique ht (List.mem_of_find?_eq_some hf) h1
    subst h3
    simp only [htx]
    exact ⟨_, rfl, rfl⟩

/-- Cancelling a call which is gone (or was never there) does nothing. -/
theorem C26_cancel_none {s : State} (h : Reach step {} s) {id : Nat}
    (hn : ∀ p, ¬ outstanding s p id) : step s (.cancel id) = .ok s := by
  have ht := (inv_reach h).1
  simp only [step]
  split
  · rename_i x p hf
    exfalso
    have h1 := List.mem_of_find?_eq_some hf
    have h2 : x = id := by simpa using List.find?_some hf
    subst h2
    -- everything in the table is outstanding
    have key : ∀ id p, (id, p) ∈ s.table → .submit p id ∈ s.log ∧ .destroy p ∉ s.log := by
      intro id p hm
      obtain ⟨tx, htx, hid⟩ := (ht.mem id p).1 hm
      refine ⟨?_, fun hd => by rw [((log_table h).2.1 p hd).2] at htx; cases htx⟩
      rw [← hid]
      clear hm hid id hf h1 hn x
      revert p tx
      refine Reach.invariant (P := fun s => ∀ p tx, s.txs p = some tx → .submit p tx.id ∈ s.log) ?_ ?_ h
      · intro p tx h; cases h
      · intro s l s' hi hs p tx htx
        cases l with
        | submit =>
          simp only [step] at hs
          split at hs
          · cases hs
          · cases hs
            simp only [List.mem_append, List.mem_singleton] at htx ⊢
            by_cases hp : p = s.calls
            · subst hp; rw [upd_same] at htx; cases htx; exact .inr rfl
            · rw [upd_ne _ _ hp] at htx; exact .inl (hi p tx htx)
        | check q | executed q | post q | flush q =>
          simp only [step] at hs
          (repeat' split at hs) <;> first | cases hs | skip
          all_goals exact hi p tx htx
        | exec q =>
          simp only [step] at hs
          (repeat' split at hs) <;> first | cases hs | skip
          exact List.mem_append_left _ (hi p tx htx)
        | done q =>
          simp only [step] at hs
          split at hs
          · split at hs
            · cases hs
              simp only
              split
              · exact hi p tx htx
              · exact List.mem_append_left _ (hi p tx htx)
            · cases hs
          · cases hs
        | free q =>
          simp only [step] at hs
          split at hs
          · split at hs
            · cases hs
              simp only [upd] at htx
              split at htx
              · cases htx
              · exact List.mem_append_left _ (hi p tx htx)
            · cases hs
          · cases hs
        | cancel id =>
          simp only [step] at hs
          split at hs
          · split at hs
            · rename_i q _ _ tx' htx'
              cases hs
              simp only [upd] at htx
              split at htx
              · rename_i hpq
                subst hpq
                cases htx
                exact List.mem_append_left _ (hi _ tx' htx')
              · exact List.mem_append_left _ (hi p tx htx)
            · cases hs
          · cases hs
            exact hi p tx htx
    exact hn p (key _ _ h1)
  · rfl

/-! ### gbinder_ipc_tx_get_id doesn't hang -/

/-- The k-th candidate, counting from `next`. -/
def cand (next : Nat) : Nat → Nat
  | 0 => (newId next).1
  | k + 1 => cand (newId next).2 k

theorem cand_step (next k : Nat) : cand next (k + 1) = cand (newId next).2 k := rfl

/-- All identifiers get their turn. -/
theorem cand_eq {next : Nat} (h : next < 2 ^ 32) : ∀ k,
    cand next k = if next = 0 then k % (2 ^ 32 - 1) + 1 else (next - 1 + k) % (2 ^ 32 - 1) + 1 := by
  intro k
  induction k generalizing next with
  | zero =>
    simp only [cand, newId]
    split
    · simp; omega
    · simp only
      have : (next - 1) % (2 ^ 32 - 1) = next - 1 := Nat.mod_eq_of_lt (by omega)
      simp only [Nat.add_zero, this]
      omega
  | succ k ih =>
    rw [cand_step, ih (newId_range h).2.2]
    simp only [newId]
    by_cases h0 : next = 0
    · subst h0
      simp
      omega
    · simp only [if_neg h0]
      by_cases h1 : next + 1 = 2 ^ 32
      · have : (next + 1) % 2 ^ 32 = 0 := by omega
        simp only [this, if_true]
        omega
      · have : (next + 1) % 2 ^ 32 = next + 1 := Nat.mod_eq_of_lt (by omega)
        simp only [this]
        rw [if_neg (by omega)]
        congr 2
        omega

theorem getId_none {used : List Nat} {n : Nat} : ∀ {next : Nat}, getId used n next = none →
    ∀ k, k < n → cand next k ∈ used := by
  induction n with
  | zero => intro next _ k hk; omega
  | succ n ih =>
    intro next h k hk
    simp only [getId] at h
    split at h
    · rename_i h1
      cases k with
      | zero => simpa [cand] using h1
      | succ k => exact ih h k (by omega)
    · cases h

/-- A list which contains everything from a range can't be shorter than the range. -/
theorem long {l : List Nat} {n : Nat} (h : ∀ k, k < n → k + 1 ∈ l) : n ≤ l.length := by
  induction n generalizing l with
  | zero => omega
  | succ n ih =>
    have hm := h n (by omega)
    have := ih (l := l.erase (n + 1)) (by
      intro k hk
      exact (List.mem_erase_of_ne (by omega)).2 (h k (by omega)))
    rw [List.length_erase_of_mem hm] at this
    have := List.length_pos_of_mem hm
    omega

/-- Unless all 2^32-1 identifiers are taken by the calls still outstanding, there is one for a new
call. -/
theorem C26_available {s : State} (h : Reach step {} s) (hl : s.table.length < 2 ^ 32 - 1) :
    ∃ s', step s .submit = .ok s' := by
  have ht := (inv_reach h).1
  simp only [step]
  cases hg : getId (s.table.map (·.1)) attempts s.next with
  | some x => obtain ⟨id, next⟩ := x; exact ⟨_, rfl⟩
  | none =>
    exfalso
    have hall : ∀ k, k < 2 ^ 32 - 1 → k + 1 ∈ s.table.map (·.1) := by
      intro k hk
      -- the candidate which equals k + 1
      by_cases h0 : s.next = 0
      · have := getId_none hg k (by unfold attempts; omega)
        rw [cand_eq ht.next, if_pos h0, Nat.mod_eq_of_lt hk] at this
        exact this
      · by_cases hk1 : s.next - 1 ≤ k
        · have := getId_none hg (k - (s.next - 1)) (by unfold attempts; omega)
          rw [cand_eq ht.next, if_neg h0] at this
          rw [show s.next - 1 + (k - (s.next - 1)) = k by omega, Nat.mod_eq_of_lt hk] at this
          exact this
        · have hn := ht.next
          have := getId_none hg (k + (2 ^ 32 - 1) - (s.next - 1)) (by unfold attempts; omega)
          rw [cand_eq ht.next, if_neg h0] at this
          rw [show s.next - 1 + (k + (2 ^ 32 - 1) - (s.next - 1)) = k + (2 ^ 32 - 1) by omega,
            Nat.add_mod_right, Nat.mod_eq_of_lt hk] at this
          exact this
    have := long hall
    simp at this
    omega

/-- If all those are taken, gbinder_ipc_tx_get_id never returns. -/
theorem C26_exhausted {s : State} (h : Reach step {} s)
    (hl : ∀ id, 0 < id → id < 2 ^ 32 → id ∈ s.table.map (·.1)) (n : Nat) :
    getId (s.table.map (·.1)) n s.next = none := by
  cases hg : getId (s.table.map (·.1)) n s.next with
  | none => rfl
  | some x =>
    obtain ⟨id, next⟩ := x
    obtain ⟨h1, h2, h3, _⟩ := getId_some (inv_reach h).1.next hg
    exact absurd (hl id h2 h3) h1

/-- Wrapping around: 0 and what's in use is skipped. -/
example : getId [1, 2, 5] attempts (2 ^ 32 - 1) = some (2 ^ 32 - 1, 0) := by decide +kernel
example : getId [1, 2, 5] attempts 0 = some (3, 4) := by decide +kernel
example : getId [2 ^ 32 - 1, 1, 2] attempts (2 ^ 32 - 1) = some (3, 4) := by decide +kernel

/-- Three calls, one of which is gone. -/
example : (exec step {} [.submit, .submit, .check 0, .exec 0, .executed 0, .post 0, .done 0, .free 0,
    .submit]).holds (fun s => s.table = [(3, 2), (2, 1)] ∧ s.table.length < 2 ^ 32 - 1) = true := by
  decide +kernel

end Gb.C26
