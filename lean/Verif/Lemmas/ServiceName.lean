import Verif.Spec.ServiceName
import Verif.Lemmas.Async
import Verif.Lemmas.Manager
/-
The bookkeeping of names: transactions and timers which belong to a name are exactly those that it
knows about.
-/
set_option autoImplicit false

namespace Gb.ServiceName

abbrev Owner := Nat → Option (Nat × Nat)

/-- The result of the transaction will be reported to the name. -/
def Pend (a : Async.State) (o : Owner) (n p : Nat) : Prop :=
  (∃ m, o p = some (n, m)) ∧ (∃ tx, a.txs p = some tx ∧ tx.cancelled = false) ∧ p ∉ a.finishing

structure IpcOk (a : Async.State) (o : Owner) (c : Nat → Nat) : Prop where
  reach : Reach Async.step {} a
  own : ∀ p, o p ≠ none → p < a.calls
  pend : ∀ n p, Pend a o n p ↔ c n ≠ 0 ∧ (c n, p) ∈ a.table
  call : ∀ n, c n ≠ 0 → ∃ p, (c n, p) ∈ a.table

theorem find_table {a : Async.State} (ht : Async.Tab a) {id p : Nat} (h : (id, p) ∈ a.table) :
    a.table.find? (fun e => e.1 = id) = some (id, p) := by
  cases hf : a.table.find? (fun e => e.1 = id) with
  | none =>
    have := List.find?_eq_none.mp hf _ h
    simp at this
  | some e =>
    obtain ⟨i, q⟩ := e
    have h1 := List.find?_some hf
    have h2 := List.mem_of_find?_eq_some hf
    simp only [decide_eq_true_eq] at h1
    subst h1
    rw [Async.unique ht h h2]

theorem async_safe {a : Async.State} (h : Reach Async.step {} a) (l : Async.Label) : Async.step a l ≠ .ub := by
  obtain ⟨ht, ha⟩ := Async.inv_reach h
  have key : ∀ p, 0 < a.queue.count p + a.starting.count p + a.running.count p + a.finished.count p +
      a.posted.count p + a.finishing.count p → a.txs p ≠ none := by
    intro p hp
    obtain ⟨tx, htx⟩ := Async.alive_of_mem (ha p) hp
    rw [htx]; simp
  intro hu
  cases l with
  | cancel id =>
    simp only [Async.step] at hu
    split at hu
    · rename_i x p hf
      have hm := List.mem_of_find?_eq_some hf
      obtain ⟨tx, h1, h2⟩ := (ht.mem _ _).mp hm
      rw [h1] at hu
      cases hu
    · cases hu
  | submit => simp only [Async.step] at hu; split at hu <;> cases hu
  | executed p => simp only [Async.step] at hu; split at hu <;> cases hu
  | check p =>
    simp only [Async.step] at hu
    split at hu
    · rename_i hm
      split at hu
      · split at hu <;> cases hu
      · rename_i hn; exact key p (by have := Async.count_of_mem hm; omega) hn
    · cases hu
  | exec p =>
    simp only [Async.step] at hu
    split at hu
    · rename_i hm
      split at hu
      · cases hu
      · rename_i hn; exact key p (by have := Async.count_of_mem hm; omega) hn
    · cases hu
  | post p =>
    simp only [Async.step] at hu
    split at hu
    · rename_i hm
      split at hu
      · cases hu
      · rename_i hn; exact key p (by have := Async.count_of_mem hm; omega) hn
    · cases hu
  | done p =>
    simp only [Async.step] at hu
    split at hu
    · rename_i hm
      split at hu
      · cases hu
      · rename_i hn; exact key p (by have := Async.count_of_mem hm; omega) hn
    · cases hu
  | free p =>
    simp only [Async.step] at hu
    split at hu
    · rename_i hm
      split at hu
      · cases hu
      · rename_i hn; exact key p (by have := Async.count_of_mem hm; omega) hn
    · cases hu
  | flush p =>
    simp only [Async.step] at hu
    split at hu
    · rename_i hm
      split at hu
      · cases hu
      · rename_i hn; exact key p (by have := Async.count_of_mem hm.2.2.2.2; omega) hn
    · cases hu

theorem IpcOk.cancel {a a' : Async.State} {o : Owner} {c : Nat → Nat} (h : IpcOk a o c) {n : Nat} (hn : c n ≠ 0)
    (hs : Async.step a (.cancel (c n)) = .ok a') : IpcOk a' o (upd c n 0) ∧ a'.calls = a.calls := by
  have hr := h.reach.step hs
  have ht := (Async.inv_reach h.reach).1
  obtain ⟨p, hp⟩ := h.call n hn
  obtain ⟨tx, h1, h2⟩ := (ht.mem _ _).mp hp
  simp only [Async.step, find_table ht hp, h1] at hs
  cases hs
  refine ⟨⟨hr, h.own, ?_, ?_⟩, rfl⟩
  · intro k q
    by_cases hq : q = p
    · subst hq
      have hpn := (h.pend n q).mpr ⟨hn, hp⟩
      constructor
      · rintro ⟨_, ⟨t, ht1, ht2⟩, _⟩
        simp only [upd_same] at ht1
        cases ht1
        cases ht2
      · rintro ⟨h3, h4⟩
        by_cases hk : k = n
        · subst hk; rw [upd_same] at h3; exact absurd rfl h3
        · rw [upd_ne _ _ hk] at h3 h4
          obtain ⟨⟨m1, o1⟩, _⟩ := (h.pend k q).mpr ⟨h3, h4⟩
          obtain ⟨⟨m2, o2⟩, _⟩ := hpn
          rw [o1] at o2
          cases o2
          exact absurd rfl hk
    · have e1 : Pend { a with txs := upd a.txs p (some { tx with cancelled := true }), log := a.log ++ [.cancel p] } o k q ↔ Pend a o k q := by
        simp only [Pend, upd_ne _ _ hq]
      rw [e1, h.pend]
      by_cases hk : k = n
      · subst hk
        rw [upd_same]
        constructor
        · rintro ⟨_, h4⟩; exact absurd (Async.unique ht h4 hp) hq
        · rintro ⟨h3, _⟩; exact absurd rfl h3
      · rw [upd_ne _ _ hk]
  · intro k hk
    by_cases hkn : k = n
    · subst hkn; rw [upd_same] at hk; exact absurd rfl hk
    · rw [upd_ne _ _ hkn] at hk ⊢
      exact h.call k hk

theorem IpcOk.submit {a a' : Async.State} {o : Owner} {c : Nat → Nat} (h : IpcOk a o c) {n m : Nat} (hn : c n = 0)
    (hs : Async.step a .submit = .ok a') :
    ∃ tx, a'.txs a.calls = some tx ∧ tx.id ≠ 0 ∧
      IpcOk a' (upd o a.calls (some (n, m))) (upd c n tx.id) ∧ a'.calls = a.calls + 1 := by
  have hr := h.reach.step hs
  have ht := (Async.inv_reach h.reach).1
  have hat := (Async.inv_reach h.reach).2 a.calls
  simp only [Async.step] at hs
  split at hs
  · cases hs
  · rename_i id next hg
    obtain ⟨g1, g2, g3, g4⟩ := Async.getId_some ht.next hg
    cases hs
    have hfin : a.calls ∉ a.finishing := by
      intro hm
      have := hat.sum
      rw [(hat.new (Nat.le_refl _)).1] at this
      have h2 := Async.count_of_mem hm
      simp at this
      omega
    have hnt : ∀ i, (i, a.calls) ∉ a.table := by
      intro i hi
      obtain ⟨tx, h1, _⟩ := (ht.mem _ _).mp hi
      rw [(hat.new (Nat.le_refl _)).1] at h1
      cases h1
    have hid : ∀ q, (id, q) ∉ a.table := by
      intro q hq
      exact g1 (List.mem_map.2 ⟨_, hq, rfl⟩)
    refine ⟨{ id }, upd_same .., by simp only []; omega, ⟨hr, ?_, ?_, ?_⟩, rfl⟩
    · intro p hp
      simp only []
      by_cases hpc : p = a.calls
      · omega
      · rw [upd_ne _ _ hpc] at hp
        have := h.own p hp
        omega
    · intro k q
      by_cases hq : q = a.calls
      · subst hq
        constructor
        · rintro ⟨⟨m1, o1⟩, _⟩
          rw [upd_same] at o1
          cases o1
          rw [upd_same]
          exact ⟨by show id ≠ 0; omega, List.mem_cons_self ..⟩
        · rintro ⟨h3, h4⟩
          rcases List.mem_cons.mp h4 with h5 | h5
          · by_cases hk : k = n
            · subst hk
              exact ⟨⟨m, upd_same ..⟩, ⟨_, upd_same .., rfl⟩, hfin⟩
            · rw [upd_ne _ _ hk] at h3 h5
              simp only [Prod.mk.injEq] at h5
              obtain ⟨r, hr⟩ := h.call k h3
              rw [h5.1] at hr
              exact absurd hr (hid r)
          · exact absurd h5 (hnt _)
      · have e1 : Pend { a with
            next, calls := a.calls + 1
            txs := upd a.txs a.calls (some { id })
            table := (id, a.calls) :: a.table
            queue := a.queue ++ [a.calls]
            log := a.log ++ [.submit a.calls id] } (upd o a.calls (some (n, m))) k q ↔ Pend a o k q := by
          simp only [Pend, upd_ne _ _ hq]
        rw [e1, h.pend]
        by_cases hk : k = n
        · subst hk
          rw [upd_same]
          constructor
          · rintro ⟨h3, _⟩; exact absurd hn h3
          · rintro ⟨_, h4⟩
            rcases List.mem_cons.mp h4 with h5 | h5
            · simp only [Prod.mk.injEq] at h5; exact absurd h5.2 hq
            · exact absurd h5 (hid _)
        · rw [upd_ne _ _ hk]
          constructor
          · rintro ⟨h3, h4⟩; exact ⟨h3, List.mem_cons_of_mem _ h4⟩
          · rintro ⟨h3, h4⟩
            refine ⟨h3, ?_⟩
            rcases List.mem_cons.mp h4 with h5 | h5
            · simp only [Prod.mk.injEq] at h5; exact absurd h5.2 hq
            · exact h5
    · intro k hk
      by_cases hkn : k = n
      · subst hkn
        exact ⟨a.calls, by rw [upd_same]; exact List.mem_cons_self ..⟩
      · rw [upd_ne _ _ hkn] at hk ⊢
        obtain ⟨p, hp⟩ := h.call k hk
        exact ⟨p, List.mem_cons_of_mem _ hp⟩

/-- A step which doesn't change anything of that. -/
theorem IpcOk.same {a a' : Async.State} {o : Owner} {c : Nat → Nat} (h : IpcOk a o c)
    (hr : Reach Async.step {} a') (h1 : a'.txs = a.txs) (h2 : a'.table = a.table)
    (h3 : a'.finishing = a.finishing) (h4 : a'.calls = a.calls) : IpcOk a' o c := by
  refine ⟨hr, ?_, ?_, ?_⟩
  · rw [h4]; exact h.own
  · intro n p
    have : Pend a' o n p ↔ Pend a o n p := by simp only [Pend, h1, h3]
    rw [this, h2]
    exact h.pend n p
  · rw [h2]; exact h.call

theorem IpcOk.done {a a' : Async.State} {o : Owner} {c : Nat → Nat} (h : IpcOk a o c) {p : Nat}
    (hs : Async.step a (.done p) = .ok a') :
    (∀ n m, completed a a' p = true → o p = some (n, m) → c n ≠ 0 ∧ IpcOk a' o (upd c n 0)) ∧
    (completed a a' p = false ∨ o p = none → IpcOk a' o c) ∧ a'.calls = a.calls := by
  have hr := h.reach.step hs
  have ht := (Async.inv_reach h.reach).1
  have hat := (Async.inv_reach h.reach).2 p
  simp only [Async.step] at hs
  split at hs
  · rename_i hm
    split at hs
    · rename_i tx htx
      cases hs
      have hfin : p ∉ a.finishing := by
        intro hf
        have := hat.sum
        rw [htx] at this
        have h1 := Async.count_of_mem hm
        have h2 := Async.count_of_mem hf
        simp at this
        omega
      have hother : ∀ k q, q ≠ p → (Pend { a with
          posted := a.posted.erase p, finishing := p :: a.finishing
          log := if tx.cancelled then a.log else a.log ++ [.done p] } o k q ↔ Pend a o k q) := by
        intro k q hq
        simp [Pend, hq]
      refine ⟨?_, ?_, rfl⟩
      · intro n m hc ho
        have hcan : tx.cancelled = false := by
          cases hcc : tx.cancelled with
          | false => rfl
          | true =>
            exfalso
            simp [completed, hcc] at hc
        have hpn : Pend a o n p := ⟨⟨m, ho⟩, ⟨tx, htx, hcan⟩, hfin⟩
        obtain ⟨hne, hmem⟩ := (h.pend n p).mp hpn
        refine ⟨hne, hr, h.own, ?_, ?_⟩
        · intro k q
          by_cases hq : q = p
          · subst hq
            constructor
            · rintro ⟨_, _, h5⟩; exact absurd (List.mem_cons_self ..) h5
            · rintro ⟨h3, h4⟩
              by_cases hk : k = n
              · subst hk; rw [upd_same] at h3; exact absurd rfl h3
              · rw [upd_ne _ _ hk] at h3 h4
                obtain ⟨⟨m1, o1⟩, _⟩ := (h.pend k q).mpr ⟨h3, h4⟩
                rw [ho] at o1
                cases o1
                exact absurd rfl hk
          · rw [hother k q hq, h.pend]
            by_cases hk : k = n
            · subst hk
              rw [upd_same]
              constructor
              · rintro ⟨_, h4⟩; exact absurd (Async.unique ht h4 hmem) hq
              · rintro ⟨h3, _⟩; exact absurd rfl h3
            · rw [upd_ne _ _ hk]
        · intro k hk
          by_cases hkn : k = n
          · subst hkn; rw [upd_same] at hk; exact absurd rfl hk
          · rw [upd_ne _ _ hkn] at hk ⊢
            exact h.call k hk
      · intro hc
        have hnp : ∀ n, ¬Pend a o n p := by
          rintro n ⟨⟨m, o1⟩, ⟨t, t1, t2⟩, _⟩
          rw [htx] at t1
          cases t1
          rcases hc with hc | hc
          · simp [completed, t2] at hc
          · rw [hc] at o1; cases o1
        refine ⟨hr, h.own, ?_, h.call⟩
        intro k q
        by_cases hq : q = p
        · subst hq
          constructor
          · rintro ⟨_, _, h5⟩; exact absurd (List.mem_cons_self ..) h5
          · intro h3; exact absurd ((h.pend k q).mpr h3) (hnp k)
        · rw [hother k q hq, h.pend]
    · cases hs
  · cases hs

theorem IpcOk.free {a a' : Async.State} {o : Owner} {c : Nat → Nat} (h : IpcOk a o c) {p : Nat}
    (hs : Async.step a (.free p) = .ok a') : IpcOk a' o c := by
  have hr := h.reach.step hs
  have ht := (Async.inv_reach h.reach).1
  simp only [Async.step] at hs
  split at hs
  · rename_i hm
    split at hs
    · rename_i tx htx
      cases hs
      have hp := (ht.mem tx.id p).mpr ⟨tx, htx, rfl⟩
      have hne : ∀ n q, c n ≠ 0 → (c n, q) ∈ a.table → c n ≠ tx.id ∧ q ≠ p := by
        intro n q h1 h2
        have hq : q ≠ p := by
          rintro rfl
          exact ((h.pend n q).mpr ⟨h1, h2⟩).2.2 hm
        refine ⟨?_, hq⟩
        intro he
        rw [he] at h2
        exact hq (Async.unique ht h2 hp)
      refine ⟨hr, h.own, ?_, ?_⟩
      · intro k q
        constructor
        · rintro ⟨h1, ⟨t, h2, h3⟩, h4⟩
          simp only [upd] at h2
          split at h2
          · cases h2
          · rename_i hq
            have hnf : q ∉ a.finishing := by
              intro hf
              exact h4 ((List.mem_erase_of_ne hq).mpr hf)
            obtain ⟨h5, h6⟩ := (h.pend k q).mp ⟨h1, ⟨t, h2, h3⟩, hnf⟩
            refine ⟨h5, List.mem_filter.mpr ⟨h6, ?_⟩⟩
            simpa using (hne k q h5 h6).1
        · rintro ⟨h1, h2⟩
          have h2 := (List.mem_filter.mp h2).1
          obtain ⟨h3, ⟨t, h4, h5⟩, h6⟩ := (h.pend k q).mpr ⟨h1, h2⟩
          refine ⟨h3, ⟨t, ?_, h5⟩, fun hf => h6 (List.mem_of_mem_erase hf)⟩
          simp only [upd_ne _ _ (hne k q h1 h2).2]
          exact h4
      · intro n hn
        obtain ⟨q, hq⟩ := h.call n hn
        refine ⟨q, List.mem_filter.mpr ⟨hq, ?_⟩⟩
        simpa using (hne n q hn hq).1
    · cases hs
  · cases hs

/-- A transaction submitted by the application. -/
theorem IpcOk.submitOther {a a' : Async.State} {o : Owner} {c : Nat → Nat} (h : IpcOk a o c)
    (hs : Async.step a .submit = .ok a') : IpcOk a' o c := by
  have hr := h.reach.step hs
  have ht := (Async.inv_reach h.reach).1
  have hat := (Async.inv_reach h.reach).2 a.calls
  simp only [Async.step] at hs
  split at hs
  · cases hs
  · rename_i id next hg
    obtain ⟨g1, g2, g3, g4⟩ := Async.getId_some ht.next hg
    cases hs
    have hid : ∀ q, (id, q) ∉ a.table := fun q hq => g1 (List.mem_map.2 ⟨_, hq, rfl⟩)
    have hcid : ∀ n, c n ≠ 0 → c n ≠ id := by
      intro n hn he
      obtain ⟨q, hq⟩ := h.call n hn
      rw [he] at hq
      exact hid q hq
    refine ⟨hr, ?_, ?_, ?_⟩
    · intro p hp
      have := h.own p hp
      simp only []
      omega
    · intro k q
      have e1 : Pend { a with
            next, calls := a.calls + 1
            txs := upd a.txs a.calls (some { id })
            table := (id, a.calls) :: a.table
            queue := a.queue ++ [a.calls]
            log := a.log ++ [.submit a.calls id] } o k q ↔ Pend a o k q := by
        by_cases hq : q = a.calls
        · have : ¬∃ m, o q = some (k, m) := by
            rintro ⟨m, hm⟩
            have := h.own q (by rw [hm]; simp)
            omega
          exact ⟨fun h => absurd h.1 this, fun h => absurd h.1 this⟩
        · simp only [Pend, upd_ne _ _ hq]
      rw [e1, h.pend]
      constructor
      · rintro ⟨h3, h4⟩; exact ⟨h3, List.mem_cons_of_mem _ h4⟩
      · rintro ⟨h3, h4⟩
        refine ⟨h3, ?_⟩
        rcases List.mem_cons.mp h4 with h5 | h5
        · simp only [Prod.mk.injEq] at h5; exact absurd h5.1 (hcid k h3)
        · exact h5
    · intro k hk
      obtain ⟨p, hp⟩ := h.call k hk
      exact ⟨p, List.mem_cons_of_mem _ hp⟩

/-- A transaction cancelled by the application. -/
theorem IpcOk.cancelOther {a a' : Async.State} {o : Owner} {c : Nat → Nat} (h : IpcOk a o c) {id : Nat}
    (hid : ∀ n, c n ≠ 0 → c n ≠ id) (hs : Async.step a (.cancel id) = .ok a') : IpcOk a' o c := by
  have hr := h.reach.step hs
  have ht := (Async.inv_reach h.reach).1
  simp only [Async.step] at hs
  split at hs
  · rename_i i p hf
    have hi := List.find?_some hf
    have hm := List.mem_of_find?_eq_some hf
    simp only [decide_eq_true_eq] at hi
    subst hi
    split at hs
    · rename_i tx htx
      cases hs
      have hnp : ∀ n, ¬(c n ≠ 0 ∧ (c n, p) ∈ a.table) := by
        rintro n ⟨h1, h2⟩
        obtain ⟨t1, e1, e2⟩ := (ht.mem _ _).mp hm
        obtain ⟨t2, e3, e4⟩ := (ht.mem _ _).mp h2
        rw [e1] at e3
        cases e3
        exact hid n h1 (e4.symm.trans e2)
      refine ⟨hr, h.own, ?_, h.call⟩
      intro k q
      by_cases hq : q = p
      · subst hq
        constructor
        · rintro ⟨_, ⟨t, t1, t2⟩, _⟩
          simp only [upd_same] at t1
          cases t1
          cases t2
        · intro h3; exact absurd h3 (hnp k)
      · have e1 : Pend { a with txs := upd a.txs p (some { tx with cancelled := true }), log := a.log ++ [.cancel p] } o k q ↔ Pend a o k q := by
          simp only [Pend, upd_ne _ _ hq]
        rw [e1, h.pend]
    · cases hs
  · cases hs; exact h

theorem IpcOk.ipc {a a' : Async.State} {o : Owner} {c : Nat → Nat} (h : IpcOk a o c) {l : Async.Label}
    (hl : match l with
      | .done _ | .executed _ | .flush _ => False
      | .cancel id => ∀ n, c n ≠ 0 → c n ≠ id
      | _ => True) (hs : Async.step a l = .ok a') : IpcOk a' o c := by
  have hr := h.reach.step hs
  cases l with
  | done p => exact hl.elim
  | executed p => exact hl.elim
  | flush p => exact hl.elim
  | cancel id => exact h.cancelOther hl hs
  | submit => exact h.submitOther hs
  | free p => exact h.free hs
  | check p =>
    simp only [Async.step] at hs
    split at hs
    · split at hs
      · split at hs
        · cases hs; exact h.same hr rfl rfl rfl rfl
        · cases hs; exact h.same hr rfl rfl rfl rfl
      · cases hs
    · cases hs
  | exec p =>
    simp only [Async.step] at hs
    split at hs
    · split at hs
      · cases hs; exact h.same hr rfl rfl rfl rfl
      · cases hs
    · cases hs
  | post p =>
    simp only [Async.step] at hs
    split at hs
    · split at hs
      · cases hs; exact h.same hr rfl rfl rfl rfl
      · cases hs
    · cases hs

theorem IpcOk.executed {a a' : Async.State} {o : Owner} {c : Nat → Nat} (h : IpcOk a o c) {p : Nat}
    (hs : Async.step a (.executed p) = .ok a') : IpcOk a' o c := by
  have hr := h.reach.step hs
  simp only [Async.step] at hs
  split at hs
  · cases hs; exact h.same hr rfl rfl rfl rfl
  · cases hs

/-! ### Timers -/

structure TimOk (ts : List Timer) (τ : Nat → Option Nat) : Prop where
  uniq : (ts.map (·.id)).Nodup
  mem : ∀ n c, τ n = some c → ⟨c, n, 500⟩ ∈ ts
  own : ∀ t ∈ ts, τ t.name = some t.id ∧ t.interval = 500

theorem TimOk.remove {ts : List Timer} {τ : Nat → Option Nat} (h : TimOk ts τ) {n c : Nat} (hn : τ n = some c) :
    (ts.any fun t => t.id == c) = true ∧ TimOk (ts.filter fun t => t.id != c) (upd τ n none) := by
  have hm := h.mem n c hn
  refine ⟨List.any_eq_true.mpr ⟨_, hm, by simp⟩, ?_, ?_, ?_⟩
  · exact List.Nodup.sublist (List.Sublist.map _ List.filter_sublist) h.uniq
  · intro k d hk
    by_cases hkn : k = n
    · subst hkn; rw [upd_same] at hk; cases hk
    · rw [upd_ne _ _ hkn] at hk
      refine List.mem_filter.mpr ⟨h.mem k d hk, ?_⟩
      simp only [bne_iff_ne, ne_eq]
      rintro rfl
      have huniq := h.uniq
      have h1 := h.mem k d hk
      have : (⟨d, k, 500⟩ : Timer) = ⟨d, n, 500⟩ := by
        clear hn hk hkn
        generalize ts = l at h1 hm huniq
        induction l with
        | nil => cases h1
        | cons t l ih =>
          simp only [List.map_cons, List.nodup_cons, List.mem_map, not_exists, not_and] at huniq
          rcases List.mem_cons.mp h1 with e1 | e1 <;> rcases List.mem_cons.mp hm with e2 | e2
          · rw [e1, e2]
          · exact absurd (by rw [← e1]) (huniq.1 _ e2)
          · exact absurd (by rw [← e2]) (huniq.1 _ e1)
          · exact ih e1 e2 huniq.2
      cases this
      exact hkn rfl
  · intro t ht
    obtain ⟨h1, h2⟩ := List.mem_filter.mp ht
    obtain ⟨h3, h4⟩ := h.own t h1
    refine ⟨?_, h4⟩
    have : t.name ≠ n := by
      intro he
      rw [he, hn] at h3
      simp only [Option.some.injEq] at h3
      simp only [bne_iff_ne, ne_eq] at h2
      exact h2 h3.symm
    rw [upd_ne _ _ this]
    exact h3

theorem TimOk.add {ts : List Timer} {τ : Nat → Option Nat} (h : TimOk ts τ) {n c : Nat} (hn : τ n = none)
    (hc : (ts.any fun t => t.id == c) = false) :
    TimOk (ts ++ [⟨c, n, 500⟩]) (upd τ n (some c)) := by
  have hnone : ∀ t ∈ ts, t.id ≠ c := by
    intro t ht he
    have := List.any_eq_false.mp hc t ht
    simp [he] at this
  refine ⟨?_, ?_, ?_⟩
  · rw [List.map_append, List.nodup_append]
    refine ⟨h.uniq, by simp, ?_⟩
    intro a ha b hb
    obtain ⟨t, h1, h2⟩ := List.mem_map.mp ha
    simp only [List.map_cons, List.map_nil, List.mem_singleton] at hb
    subst h2 hb
    exact hnone t h1
  · intro k d hk
    by_cases hkn : k = n
    · subst hkn; rw [upd_same] at hk; cases hk; simp
    · rw [upd_ne _ _ hkn] at hk
      exact List.mem_append_left _ (h.mem k d hk)
  · intro t ht
    rcases List.mem_append.mp ht with h1 | h1
    · obtain ⟨h3, h4⟩ := h.own t h1
      refine ⟨?_, h4⟩
      have : t.name ≠ n := by
        intro he
        rw [he, hn] at h3
        cases h3
      rw [upd_ne _ _ this]
      exact h3
    · simp only [List.mem_singleton] at h1
      subst h1
      exact ⟨upd_same .., rfl⟩

/-! ### Service managers -/

/-- How the objects may change: except for these fields, or not at all. -/
theorem mgrs_set {f g : Nat → Option Manager.Mgr} {m : Nat} {x y : Manager.Mgr} {l : Manager.Label}
    (hx : f m = some x) (hg : g = upd f m (some y))
    (hy : y.presence = x.presence ∨
        (∃ id, l = .addPresence m id ∧ id ∉ x.presence ∧ y.presence = x.presence ++ [id]) ∨
        ∃ ids, l = .removeHandlers m ids ∧
          y.presence = x.presence.filter fun i => !(ids.filter (· ≠ 0)).contains i) :
    (∀ k y', g k = some y' →
      (f k = none ∧ y'.presence = []) ∨
      ∃ y, f k = some y ∧ (y'.presence = y.presence ∨
        (∃ id, l = .addPresence k id ∧ id ∉ y.presence ∧ y'.presence = y.presence ++ [id]) ∨
        ∃ ids, l = .removeHandlers k ids ∧
          y'.presence = y.presence.filter fun i => !(ids.filter (· ≠ 0)).contains i)) ∧
    (∀ k, f k ≠ none → g k ≠ none ∨ l = .free k) := by
  subst hg
  constructor
  · intro k y' hk
    by_cases hkm : k = m
    · subst hkm
      rw [upd_same] at hk
      cases hk
      exact .inr ⟨x, hx, hy⟩
    · rw [upd_ne _ _ hkm] at hk
      exact .inr ⟨y', hk, .inl rfl⟩
  · intro k hk
    left
    by_cases hkm : k = m
    · subst hkm; rw [upd_same]; simp
    · rw [upd_ne _ _ hkm]; exact hk

theorem mgrs_same {f g : Nat → Option Manager.Mgr} {l : Manager.Label} (hg : g = f) :
    (∀ k y', g k = some y' →
      (f k = none ∧ y'.presence = []) ∨
      ∃ y, f k = some y ∧ (y'.presence = y.presence ∨
        (∃ id, l = .addPresence k id ∧ id ∉ y.presence ∧ y'.presence = y.presence ++ [id]) ∨
        ∃ ids, l = .removeHandlers k ids ∧
          y'.presence = y.presence.filter fun i => !(ids.filter (· ≠ 0)).contains i)) ∧
    (∀ k, f k ≠ none → g k ≠ none ∨ l = .free k) := by
  subst hg
  exact ⟨fun k y' hk => .inr ⟨y', hk, .inl rfl⟩, fun k hk => .inl hk⟩

theorem removeTimer_mgrs {s s' : Manager.State} {c : Option Nat} (h : s.removeTimer c = .ok s') :
    s'.mgrs = s.mgrs ∧ s'.pending = s.pending ∧ s'.dead = s.dead ∧ s'.log = s.log := by
  cases c with
  | none => cases h; exact ⟨rfl, rfl, rfl, rfl⟩
  | some c =>
    simp only [Manager.State.removeTimer] at h
    split at h
    · cases h; exact ⟨rfl, rfl, rfl, rfl⟩
    · cases h

theorem reanimate_mgrs (s : Manager.State) (m : Nat) (ok : Bool) :
    (s.reanimate m ok).mgrs = s.mgrs ∧ (s.reanimate m ok).pending = s.pending := by
  unfold Manager.State.reanimate
  split <;> exact ⟨rfl, rfl⟩

theorem reanimated_mgrs {s s' : Manager.State} {m : Nat} {x : Manager.Mgr} {w : Bytes → Bool}
    (h : s.reanimated m x w = .ok s') :
    ∃ y, s'.mgrs = upd s.mgrs m (some y) ∧ y.presence = x.presence ∧ s'.pending = s.pending := by
  unfold Manager.State.reanimated at h
  split at h
  · rename_i s1 h1
    obtain ⟨h2, h3, h4, _⟩ := removeTimer_mgrs h1
    cases h
    exact ⟨{ x with check := none, watches := Manager.rearm w x.watches },
      by simp only [Manager.State.set, Manager.State.add, h2], rfl, h3⟩
  · cases h
  · cases h

theorem pres_step {s s' : Manager.State} {l : Manager.Label} (hs : Manager.step s l = .ok s') :
    (∀ k y', s'.mgrs k = some y' →
      (s.mgrs k = none ∧ y'.presence = []) ∨
      ∃ y, s.mgrs k = some y ∧ (y'.presence = y.presence ∨
        (∃ id, l = .addPresence k id ∧ id ∉ y.presence ∧ y'.presence = y.presence ++ [id]) ∨
        ∃ ids, l = .removeHandlers k ids ∧
          y'.presence = y.presence.filter fun i => !(ids.filter (· ≠ 0)).contains i)) ∧
    (∀ k, s.mgrs k ≠ none → s'.mgrs k ≠ none ∨ l = .free k) := by
  cases l with
  | create m kind ok tid =>
    simp only [Manager.step] at hs
    split at hs
    · cases hs
    · rename_i hc
      have hm : s.mgrs m = none := Classical.byContradiction fun hh => hc (.inl hh)
      have hg : ∃ y, s'.mgrs = upd s.mgrs m (some y) ∧ y.presence = [] := by
        cases hs
        split
        · refine ⟨{ kind := kind, check := some tid, delay := Manager.waitMin }, ?_, rfl⟩
          simp only [Manager.State.checkStart, Manager.State.set, Manager.State.add, (reanimate_mgrs _ _ _).1]
          rw [Manager.upd_upd]
        · refine ⟨{ kind := kind }, ?_, rfl⟩
          simp only [Manager.State.set, Manager.State.add, (reanimate_mgrs _ _ _).1]
      obtain ⟨y, h1, h2⟩ := hg
      rw [h1]
      constructor
      · intro k y' hk
        by_cases hkm : k = m
        · subst hkm
          rw [upd_same] at hk
          cases hk
          exact .inl ⟨hm, h2⟩
        · rw [upd_ne _ _ hkm] at hk
          exact .inr ⟨y', hk, .inl rfl⟩
      · intro k hk
        left
        by_cases hkm : k = m
        · subst hkm; rw [upd_same]; simp
        · rw [upd_ne _ _ hkm]; exact hk
  | die =>
    simp only [Manager.step] at hs
    split at hs
    · cases hs
    · cases hs; exact mgrs_same rfl
  | died tid =>
    simp only [Manager.step] at hs
    split at hs
    · cases hs
    · split at hs
      · cases hs
      · split at hs
        · cases hs
        · rename_i x hx
          cases hs
          exact mgrs_set hx rfl (.inl rfl)
  | fire t ok tid watch =>
    simp only [Manager.step] at hs
    split at hs
    · cases hs
    · split at hs
      · cases hs
      · rename_i x hx
        split at hs
        · obtain ⟨y, h1, h2, _⟩ := reanimated_mgrs hs
          refine mgrs_set hx (y := y) ?_ (.inl h2)
          rw [h1]
          simp only [Manager.State.dropTimer, (reanimate_mgrs _ _ _).1]
        · split at hs
          · cases hs
            refine mgrs_set hx (y := { x with check := some tid, delay := x.delay + Manager.waitStep }) ?_ (.inl rfl)
            simp only [Manager.State.set, Manager.State.add, Manager.State.dropTimer, (reanimate_mgrs _ _ _).1]
          · cases hs
            refine mgrs_same ?_
            simp only [Manager.State.add, (reanimate_mgrs _ _ _).1]
  | wait m ok watch =>
    simp only [Manager.step] at hs
    split at hs
    · cases hs
    · split at hs
      · cases hs
      · rename_i x hx
        split at hs
        · cases hs; exact mgrs_same rfl
        · split at hs
          · obtain ⟨y, h1, h2, _⟩ := reanimated_mgrs hs
            refine mgrs_set hx (y := y) ?_ (.inl h2)
            rw [h1]
            simp only [(reanimate_mgrs _ _ _).1]
          · cases hs
            exact mgrs_same (reanimate_mgrs _ _ _).1
  | addHandler m raw id ok =>
    simp only [Manager.step] at hs
    split at hs
    · cases hs
    · split at hs
      · cases hs
      · rename_i x hx
        split at hs
        · cases hs
        · split at hs
          · cases hs; exact mgrs_same rfl
          · split at hs
            · cases hs; exact mgrs_set hx rfl (.inl rfl)
            · cases hs; exact mgrs_set hx rfl (.inl rfl)
  | addPresence m id =>
    simp only [Manager.step] at hs
    split at hs
    · cases hs
    · split at hs
      · cases hs
      · rename_i x hx
        split at hs
        · cases hs
        · rename_i hc
          cases hs
          exact mgrs_set hx rfl (.inr (.inl ⟨id, rfl, fun hh => hc (.inr (.inr hh)), rfl⟩))
  | removeHandlers m ids =>
    simp only [Manager.step] at hs
    split at hs
    · cases hs
    · split at hs
      · cases hs
      · rename_i x hx
        cases hs
        exact mgrs_set hx rfl (.inr (.inr ⟨ids, rfl, rfl⟩))
  | registered m name =>
    simp only [Manager.step] at hs
    split at hs
    · cases hs
    · split at hs
      · cases hs
      · split at hs
        · cases hs; exact mgrs_same rfl
        · cases hs; exact mgrs_same rfl
  | rehash m ws =>
    simp only [Manager.step] at hs
    split at hs
    · cases hs
    · rename_i x hx
      split at hs
      · cases hs; exact mgrs_set hx rfl (.inl rfl)
      · cases hs
  | free m =>
    simp only [Manager.step] at hs
    split at hs
    · cases hs
    · split at hs
      · cases hs
      · split at hs
        · rename_i s1 h1
          obtain ⟨h2, _⟩ := removeTimer_mgrs h1
          cases hs
          simp only [h2]
          constructor
          · intro k y' hk
            by_cases hkm : k = m
            · subst hkm; rw [upd_same] at hk; cases hk
            · rw [upd_ne _ _ hkm] at hk
              exact .inr ⟨y', hk, .inl rfl⟩
          · intro k hk
            by_cases hkm : k = m
            · subst hkm; exact .inr rfl
            · left; rw [upd_ne _ _ hkm]; exact hk
        · cases hs
        · cases hs

/-- What changes the state of the remote object. -/
theorem flags_step {s s' : Manager.State} {l : Manager.Label} (hs : Manager.step s l = .ok s') :
    match l with
    | .die => True
    | .fire .. | .wait .. | .create .. => s'.pending = s.pending
    | _ => s'.dead = s.dead ∧ ∀ k, k ∈ s'.pending → k ∈ s.pending := by
  cases l with
  | create m kind ok tid =>
    simp only [Manager.step] at hs
    split at hs
    · cases hs
    · cases hs
      simp only []
      split
      · simp only [Manager.State.checkStart, Manager.State.set, Manager.State.add, (reanimate_mgrs _ _ _).2]
      · simp only [Manager.State.set, Manager.State.add, (reanimate_mgrs _ _ _).2]
  | die => trivial
  | died tid =>
    simp only [Manager.step] at hs
    split at hs
    · cases hs
    · split at hs
      · cases hs
      · rename_i m rest hp
        split at hs
        · cases hs
        · cases hs
          refine ⟨rfl, ?_⟩
          intro k hk
          rw [hp]
          exact List.mem_cons_of_mem _ hk
  | fire t ok tid watch =>
    simp only [Manager.step] at hs
    split at hs
    · cases hs
    · split at hs
      · cases hs
      · split at hs
        · obtain ⟨y, _, _, h3⟩ := reanimated_mgrs hs
          simp only [h3, Manager.State.dropTimer, (reanimate_mgrs _ _ _).2]
        · split at hs
          · cases hs
            simp only [Manager.State.set, Manager.State.add, Manager.State.dropTimer, (reanimate_mgrs _ _ _).2]
          · cases hs
            simp only [Manager.State.add, (reanimate_mgrs _ _ _).2]
  | wait m ok watch =>
    simp only [Manager.step] at hs
    split at hs
    · cases hs
    · split at hs
      · cases hs
      · split at hs
        · cases hs; rfl
        · split at hs
          · obtain ⟨y, _, _, h3⟩ := reanimated_mgrs hs
            simp only [h3, (reanimate_mgrs _ _ _).2]
          · cases hs
            exact (reanimate_mgrs _ _ _).2
  | addHandler m raw id ok =>
    simp only [Manager.step] at hs
    split at hs
    · cases hs
    · split at hs
      · cases hs
      · split at hs
        · cases hs
        · split at hs
          · cases hs; exact ⟨rfl, fun _ h => h⟩
          · split at hs <;> cases hs <;> exact ⟨rfl, fun _ h => h⟩
  | addPresence m id =>
    simp only [Manager.step] at hs
    split at hs
    · cases hs
    · split at hs
      · cases hs
      · split at hs
        · cases hs
        · cases hs; exact ⟨rfl, fun _ h => h⟩
  | removeHandlers m ids =>
    simp only [Manager.step] at hs
    split at hs
    · cases hs
    · split at hs
      · cases hs
      · cases hs; exact ⟨rfl, fun _ h => h⟩
  | registered m name =>
    simp only [Manager.step] at hs
    split at hs
    · cases hs
    · split at hs
      · cases hs
      · split at hs <;> cases hs <;> exact ⟨rfl, fun _ h => h⟩
  | rehash m ws =>
    simp only [Manager.step] at hs
    split at hs
    · cases hs
    · split at hs
      · cases hs; exact ⟨rfl, fun _ h => h⟩
      · cases hs
  | free m =>
    simp only [Manager.step] at hs
    split at hs
    · cases hs
    · split at hs
      · cases hs
      · split at hs
        · rename_i s1 h1
          obtain ⟨_, h3, h4, _⟩ := removeTimer_mgrs h1
          cases hs
          refine ⟨h4, ?_⟩
          intro k hk
          have := (List.mem_filter.mp hk).1
          rw [h3] at this
          exact this
        · cases hs
        · cases hs

/-! ### Everything together -/

def callOf (s : State) (n : Nat) : Nat :=
  match s.names n with
  | some x => x.call
  | none => 0

def timerOf (s : State) (n : Nat) : Option Nat :=
  match s.names n with
  | some x => x.timer
  | none => none

structure G (s : State) : Prop where
  ipc : IpcOk s.ipc s.owner (callOf s)
  tim : TimOk s.timers (timerOf s)
  calls : ∀ n, n ∈ s.calls → s.names n ≠ none
  mgr : ∀ n x, s.names n = some x → ∃ y, s.mgr.mgrs x.mgr = some y ∧ n ∈ y.presence
  nodup : ∀ m y, s.mgr.mgrs m = some y → y.presence.Nodup
  used : ∀ n, s.names n ≠ none → n ∈ s.used

theorem callOf_upd {f : Nat → Option Name} {s s' : State} {n : Nat} {x : Name}
    (h : s'.names = upd f n (some x)) (hf : ∀ k, k ≠ n → f k = s.names k) : callOf s' = upd (callOf s) n x.call := by
  funext k
  unfold callOf
  rw [h]
  by_cases hk : k = n
  · subst hk; rw [upd_same, upd_same]
  · rw [upd_ne _ _ hk, upd_ne _ _ hk, hf k hk]

theorem timerOf_upd {f : Nat → Option Name} {s s' : State} {n : Nat} {x : Name}
    (h : s'.names = upd f n (some x)) (hf : ∀ k, k ≠ n → f k = s.names k) : timerOf s' = upd (timerOf s) n x.timer := by
  funext k
  unfold timerOf
  rw [h]
  by_cases hk : k = n
  · subst hk; rw [upd_same, upd_same]
  · rw [upd_ne _ _ hk, upd_ne _ _ hk, hf k hk]

theorem upd_self {α : Type} (f : Nat → α) (n : Nat) : upd f n (f n) = f := by
  funext k
  unfold upd
  split
  · rename_i h; rw [h]
  · rfl

theorem upd_twice {α : Type} (f : Nat → α) (k : Nat) (a b : α) : upd (upd f k a) k b = upd f k b := by
  funext i
  unfold upd
  split <;> rfl

/-- gbinder_servicemanager_cancel -/
theorem cancel_ok {s : State} {c : Nat → Nat} (h : IpcOk s.ipc s.owner c) (n : Nat) :
    ∃ a, s.cancel (c n) = .ok { s with ipc := a } ∧ IpcOk a s.owner (upd c n 0) ∧ a.calls = s.ipc.calls := by
  unfold State.cancel
  by_cases hn : c n = 0
  · rw [if_pos hn]
    refine ⟨s.ipc, rfl, ?_, rfl⟩
    have : upd c n 0 = c := by rw [← hn]; exact upd_self c n
    rw [this]
    exact h
  · rw [if_neg hn]
    cases hs : Async.step s.ipc (.cancel (c n)) with
    | ok a => exact ⟨a, rfl, h.cancel hn hs⟩
    | no =>
      exfalso
      simp only [Async.step] at hs
      split at hs
      · split at hs <;> cases hs
      · cases hs
    | ub => exact absurd hs (async_safe h.reach _)

theorem submit_ok {s : State} {c : Nat → Nat} (h : IpcOk s.ipc s.owner c) {n m : Nat} (hn : c n = 0) :
    s.submit n m = .no ∨
    ∃ a id, s.submit n m = .ok ({ s with
        ipc := a
        owner := upd s.owner s.ipc.calls (some (n, m))
        status := upd s.status s.ipc.calls (-14) }, id) ∧
      id ≠ 0 ∧ IpcOk a (upd s.owner s.ipc.calls (some (n, m))) (upd c n id) ∧ a.calls = s.ipc.calls + 1 := by
  unfold State.submit
  cases hs : Async.step s.ipc .submit with
  | ok a =>
    right
    obtain ⟨tx, h1, h2, h3, h4⟩ := h.submit (m := m) hn hs
    refine ⟨a, tx.id, ?_, h2, h3, h4⟩
    simp only [h1]
  | no => exact .inl rfl
  | ub => exact absurd hs (async_safe h.reach _)

theorem addService_ok {s : State} {c : Nat → Nat} (h : IpcOk s.ipc s.owner c) {n : Nat} {x : Name}
    (hx : x.call = c n) :
    s.addService n x = .no ∨
    ∃ a o st id, s.addService n x = .ok { s with
        ipc := a, owner := o, status := st
        names := upd s.names n (some { x with call := id })
        log := s.log ++ [.added n s.ipc.calls] } ∧
      id ≠ 0 ∧ IpcOk a o (upd c n id) ∧ a.calls = s.ipc.calls + 1 := by
  unfold State.addService
  obtain ⟨a, h1, h2, h3⟩ := cancel_ok h n
  rw [hx, h1]
  simp only []
  rcases submit_ok (s := { s with ipc := a }) (m := x.mgr) h2 (upd_same ..) with h4 | ⟨b, id, h4, h5, h6, h7⟩
  · rw [h4]; exact .inl rfl
  · rw [h4]
    right
    refine ⟨b, upd s.owner a.calls (some (n, x.mgr)), upd s.status a.calls (-14), id, ?_, h5, ?_, ?_⟩
    · simp only [State.set, State.add, h3]
    · rw [upd_twice] at h6
      exact h6
    · simp only [] at h7
      rw [h7, h3]

theorem removeTimer_ok {s : State} {τ : Nat → Option Nat} (h : TimOk s.timers τ) (n : Nat) :
    ∃ ts, s.removeTimer (τ n) = .ok { s with timers := ts } ∧ TimOk ts (upd τ n none) ∧
      ∀ t ∈ ts, t ∈ s.timers := by
  cases hn : τ n with
  | none =>
    refine ⟨s.timers, rfl, ?_, fun _ h => h⟩
    rw [← hn, upd_self]
    exact h
  | some c =>
    obtain ⟨h1, h2⟩ := h.remove hn
    refine ⟨_, by simp only [State.removeTimer, h1, if_true], h2, ?_⟩
    intro t ht
    exact (List.mem_filter.mp ht).1

/-- What a step amounts to. -/
inductive Eff (s s' : State) : Label → Prop
  | quiet {l : Label} (hl : ∀ t, l ≠ .retry t) (h1 : s'.names = s.names) (h2 : s'.mgr = s.mgr) (h3 : s'.calls = s.calls)
      (h4 : s'.log = s.log) : Eff s s' l
  | create {n m : Nat} (x : Name) (hn : s.names n = none) (hx : x.mgr = m) (ht : x.timer = none)
      (h1 : s'.names = upd s.names n (some x)) (h2 : Manager.step s.mgr (.addPresence m n) = .ok s'.mgr)
      (h3 : s'.calls = s.calls)
      (h4 : (s.mgr.dead = true ∧ x.call = 0 ∧ s'.log = s.log ++ [.created n]) ∨
        (s.mgr.dead = false ∧ x.call ≠ 0 ∧ ∃ p, s'.log = s.log ++ [.created n, .added n p])) :
      Eff s s' (.create n m)
  | refs {l : Label} {n r : Nat} (x : Name) (hl : ∀ t, l ≠ .retry t) (hx : s.names n = some x)
      (h1 : s'.names = upd s.names n (some { x with refs := r })) (h2 : s'.mgr = s.mgr) (h3 : s'.calls = s.calls)
      (h4 : s'.log = s.log) : Eff s s' l
  | free {n : Nat} (x : Name) (hx : s.names n = some x)
      (h1 : s'.names = upd s.names n none) (h2 : Manager.step s.mgr (.removeHandlers x.mgr [n]) = .ok s'.mgr)
      (h3 : s'.calls = s.calls.filter (· ≠ n)) (h4 : s'.log = s.log ++ [.freed n]) : Eff s s' (.unref n)
  | up {n : Nat} {rest : List Nat} (x : Name) (id p : Nat) (hc : s.calls = n :: rest) (hx : s.names n = some x)
      (hd : s.mgr.dead = false) (hid : id ≠ 0)
      (h1 : s'.names = upd s.names n (some { x with call := id })) (h2 : s'.mgr = s.mgr) (h3 : s'.calls = rest)
      (h4 : s'.log = s.log ++ [.signal n true, .added n p]) : Eff s s' .signal
  | down {n : Nat} {rest : List Nat} (x : Name) (hc : s.calls = n :: rest) (hx : s.names n = some x)
      (hd : s.mgr.dead = true)
      (h1 : s'.names = upd s.names n (some { x with call := 0, timer := none })) (h2 : s'.mgr = s.mgr)
      (h3 : s'.calls = rest) (h4 : s'.log = s.log ++ [.signal n false]) : Eff s s' .signal
  | retry {t : Timer} (x : Name) (id p : Nat) (hi : s.idle = true) (hx : s.names t.name = some x)
      (ht : x.timer = some t.id) (hid : id ≠ 0)
      (h1 : s'.names = upd s.names t.name (some { x with call := id, timer := none })) (h2 : s'.mgr = s.mgr)
      (h3 : s'.calls = s.calls) (h4 : s'.log = s.log ++ [.added t.name p]) : Eff s s' (.retry t)
  | done {p tid n : Nat} (x : Name) (hi : s.idle = true) (hx : s.names n = some x) (hc : x.call ≠ 0)
      (h1 : s'.names = upd s.names n (some { x with call := 0, timer := if s.status p = 0 then x.timer else some tid }))
      (h2 : s'.mgr = s.mgr) (h3 : s'.calls = s.calls) (h4 : s'.log = s.log ++ [.result n (s.status p)]) :
      Eff s s' (.done p tid)
  | mgr {l : Manager.Label} (ha : s.allows l = true) (h1 : s'.names = s.names)
      (h2 : Manager.step s.mgr l = .ok s'.mgr)
      (h3 : s'.calls = (emitted (s'.mgr.log.drop s.mgr.log.length)).flatMap s'.handlers ++ s.calls)
      (h4 : s'.log = s.log) : Eff s s' (.mgr l)

theorem callOf_some {s : State} {n : Nat} {x : Name} (h : s.names n = some x) : callOf s n = x.call := by
  unfold callOf; rw [h]

theorem timerOf_some {s : State} {n : Nat} {x : Name} (h : s.names n = some x) : timerOf s n = x.timer := by
  unfold timerOf; rw [h]

/-- Nothing but the transactions has changed. -/
theorem G.quiet {s s' : State} (h : G s) (h1 : s'.names = s.names) (h2 : s'.mgr = s.mgr) (h3 : s'.calls = s.calls)
    (h4 : s'.timers = s.timers) (h5 : s'.used = s.used) (hi : IpcOk s'.ipc s'.owner (callOf s)) : G s' := by
  have hc : callOf s' = callOf s := by funext k; unfold callOf; rw [h1]
  have ht : timerOf s' = timerOf s := by funext k; unfold timerOf; rw [h1]
  refine ⟨by rw [hc]; exact hi, by rw [h4, ht]; exact h.tim, ?_, ?_, ?_, ?_⟩
  · rw [h3, h1]; exact h.calls
  · rw [h1, h2]; exact h.mgr
  · rw [h2]; exact h.nodup
  · rw [h1, h5]; exact h.used

/-- A name is changed. -/
theorem G.change {s s' : State} (h : G s) {n : Nat} {x y : Name} (hx : s.names n = some x) (hm : y.mgr = x.mgr)
    (h1 : s'.names = upd s.names n (some y)) (h2 : s'.mgr = s.mgr) (h3 : ∀ k, k ∈ s'.calls → k ∈ s.calls)
    (h5 : s'.used = s.used) (hi : IpcOk s'.ipc s'.owner (upd (callOf s) n y.call))
    (ht : TimOk s'.timers (upd (timerOf s) n y.timer)) : G s' := by
  have hget : ∀ k, s'.names k ≠ none ↔ s.names k ≠ none := by
    intro k
    rw [h1]
    by_cases hk : k = n
    · subst hk; rw [upd_same, hx]; simp
    · rw [upd_ne _ _ hk]
  refine ⟨?_, ?_, ?_, ?_, ?_, ?_⟩
  · rw [callOf_upd h1 (fun _ _ => rfl)]; exact hi
  · rw [timerOf_upd h1 (fun _ _ => rfl)]; exact ht
  · intro k hk
    exact (hget k).mpr (h.calls k (h3 k hk))
  · intro k z hz
    rw [h2]
    rw [h1] at hz
    by_cases hk : k = n
    · subst hk
      rw [upd_same] at hz
      cases hz
      rw [hm]
      exact h.mgr k x hx
    · rw [upd_ne _ _ hk] at hz
      exact h.mgr k z hz
  · rw [h2]; exact h.nodup
  · intro k hk
    rw [h5]
    exact h.used k ((hget k).mp hk)

theorem G.mgrStep {s : State} (h : G s) {l : Manager.Label} {m' : Manager.State} (hs : Manager.step s.mgr l = .ok m')
    {names : Nat → Option Name} (hn : ∀ n x, names n = some x → s.names n = some x)
    (hl : match l with
      | .removeHandlers _ ids => ∀ i ∈ ids, names i = none
      | .free m => ∀ n x, names n = some x → x.mgr ≠ m
      | _ => True) :
    (∀ n x, names n = some x → ∃ y, m'.mgrs x.mgr = some y ∧ n ∈ y.presence) ∧
    (∀ m y, m'.mgrs m = some y → y.presence.Nodup) := by
  obtain ⟨p1, p2⟩ := pres_step hs
  constructor
  · intro n x hx
    obtain ⟨y, h1, h2⟩ := h.mgr n x (hn n x hx)
    rcases p2 x.mgr (by rw [h1]; simp) with h3 | h3
    · cases hy : m'.mgrs x.mgr with
      | none => exact absurd hy h3
      | some y' =>
        refine ⟨y', rfl, ?_⟩
        rcases p1 _ _ hy with ⟨h4, _⟩ | ⟨z, h4, h5⟩
        · rw [h1] at h4; cases h4
        · rw [h1] at h4
          cases h4
          rcases h5 with h5 | ⟨id, _, _, h5⟩ | ⟨ids, h6, h5⟩
          · rw [h5]; exact h2
          · rw [h5]; exact List.mem_append_left _ h2
          · rw [h5]
            refine List.mem_filter.mpr ⟨h2, ?_⟩
            subst h6
            simp only [Bool.not_eq_true', List.contains_eq_mem, decide_eq_false_iff_not]
            intro hc
            have := hl n (List.mem_filter.mp hc).1
            rw [hx] at this
            cases this
    · subst h3
      exact absurd rfl (hl n x hx)
  · intro m y hy
    rcases p1 _ _ hy with ⟨_, h5⟩ | ⟨z, h4, h5⟩
    · rw [h5]; exact List.nodup_nil
    · have hz := h.nodup m z h4
      rcases h5 with h5 | ⟨id, _, h6, h5⟩ | ⟨ids, _, h5⟩
      · rw [h5]; exact hz
      · rw [h5, List.nodup_append]
        refine ⟨hz, by simp, ?_⟩
        intro a ha b hb
        simp only [List.mem_singleton] at hb
        subst hb
        rintro rfl
        exact h6 ha
      · rw [h5]; exact List.Nodup.sublist List.filter_sublist hz

/-- gbinder_servicename_add_service, if the name is `x` after the removal of the timer. -/
theorem G.addService {s s1 s' : State} {n : Nat} {x : Name} (h : G s1) (h1 : s1.names n = some x)
    (e1 : s1 = { s with names := s1.names }) (e2 : ∀ k, k ≠ n → s1.names k = s.names k)
    (ha : s.addService n x = .ok s') :
    G s' ∧ ∃ id, id ≠ 0 ∧ s'.names = upd s.names n (some { x with call := id }) ∧ s'.mgr = s.mgr ∧
      s'.calls = s.calls ∧ s'.log = s.log ++ [.added n s.ipc.calls] ∧ s'.timers = s.timers ∧ s'.used = s.used := by
  have hi : IpcOk s.ipc s.owner (callOf s1) := by
    have := h.ipc
    rw [e1] at this
    exact this
  have hx : x.call = callOf s1 n := (callOf_some h1).symm
  rcases addService_ok hi hx with h2 | ⟨a, o, st, id, h2, h3, h4, h5⟩
  · rw [h2] at ha; cases ha
  · rw [h2] at ha
    cases ha
    refine ⟨?_, id, h3, rfl, rfl, rfl, rfl, rfl, rfl⟩
    have hn : upd s.names n (some { x with call := id }) = upd s1.names n (some { x with call := id }) := by
      funext k
      by_cases hk : k = n
      · subst hk; rw [upd_same, upd_same]
      · rw [upd_ne _ _ hk, upd_ne _ _ hk, e2 k hk]
    refine G.change (s := s1) h h1 (y := { x with call := id }) rfl hn ?_ ?_ ?_ h4 ?_
    · rw [e1]
    · intro k hk; rw [e1]; exact hk
    · rw [e1]
    · have : upd (timerOf s1) n x.timer = timerOf s1 := by
        rw [← timerOf_some h1, upd_self]
      show TimOk s.timers (upd (timerOf s1) n x.timer)
      rw [this]
      have := h.tim
      rw [e1] at this
      exact this

theorem isSome_of_filter {s : State} {m n : Nat} (h : n ∈ s.handlers m) : s.names n ≠ none := by
  unfold State.handlers at h
  split at h
  · have := (List.mem_filter.mp h).2
    intro hc
    rw [hc] at this
    cases this
  · cases h

theorem not_used {s : State} (h : G s) {n : Nat} (hn : s.used.contains n = false) : s.names n = none := by
  cases hx : s.names n with
  | none => rfl
  | some x =>
    have := h.used n (by rw [hx]; simp)
    simp at hn
    exact absurd this hn

theorem eff_step {s s' : State} {l : Label} (h : G s) (hr : Running l) (hs : step s l = .ok s') :
    G s' ∧ Eff s s' l := by
  cases l with
  | create n m =>
    simp only [step] at hs
    split at hs
    · cases hs
    · rename_i hc
      have hn : s.names n = none := Classical.byContradiction fun hh => hc (.inr (.inr hh))
      split at hs
      · rename_i mgr hm
        have hdead : mgr.dead = s.mgr.dead := (flags_step hm).1
        -- the name as such
        have hg1 : G { s with mgr, used := n :: s.used, names := upd s.names n (some { mgr := m }),
                              log := s.log ++ [.created n] } := by
          obtain ⟨g1, g2⟩ := h.mgrStep hm (names := s.names) (fun _ _ h => h) trivial
          have hc0 : upd (callOf s) n 0 = callOf s := by
            have : callOf s n = 0 := by unfold callOf; rw [hn]
            rw [← this, upd_self]
          have ht0 : upd (timerOf s) n none = timerOf s := by
            have : timerOf s n = none := by unfold timerOf; rw [hn]
            rw [← this, upd_self]
          refine ⟨?_, ?_, ?_, ?_, g2, ?_⟩
          · rw [callOf_upd (s := s) (n := n) (x := { mgr := m }) rfl (fun _ _ => rfl)]
            simp only [hc0]
            exact h.ipc
          · rw [timerOf_upd (s := s) (n := n) (x := { mgr := m }) rfl (fun _ _ => rfl)]
            simp only [ht0]
            exact h.tim
          · intro k hk
            have := h.calls k hk
            by_cases hkn : k = n
            · subst hkn; exact absurd hn this
            · simp only [upd_ne _ _ hkn]; exact this
          · intro k z hz
            by_cases hkn : k = n
            · subst hkn
              simp only [upd_same] at hz
              cases hz
              simp only []
              simp only [Manager.step] at hm
              split at hm
              · cases hm
              · split at hm
                · cases hm
                · split at hm
                  · cases hm
                  · cases hm
                    exact ⟨_, upd_same .., by simp⟩
            · simp only [upd_ne _ _ hkn] at hz
              exact g1 k z hz
          · intro k hk
            by_cases hkn : k = n
            · subst hkn; exact List.mem_cons_self ..
            · simp only [upd_ne _ _ hkn] at hk
              exact List.mem_cons_of_mem _ (h.used k hk)
        split at hs
        · rename_i hd
          obtain ⟨g, id, a1, a2, a3, a4, a5, _⟩ := G.addService hg1 (upd_same ..) rfl (fun _ _ => rfl) hs
          refine ⟨g, .create { mgr := m, call := id } hn rfl rfl ?_ ?_ a4 (.inr ⟨?_, a1, s.ipc.calls, ?_⟩)⟩
          · rw [a2]
            simp only [State.set, State.add, upd_twice]
          · rw [a3]; exact hm
          · rw [← hdead]
            simpa [State.set, State.add] using hd
          · rw [a5]
            simp [State.set, State.add]
        · rename_i hd
          cases hs
          refine ⟨hg1, .create { mgr := m } hn rfl rfl rfl hm rfl (.inl ⟨?_, rfl, rfl⟩)⟩
          rw [← hdead]
          simpa [State.set, State.add] using hd
      · cases hs
      · cases hs
  | ref n =>
    simp only [step] at hs
    split at hs
    · cases hs
    · split at hs
      · rename_i x hx
        cases hs
        refine ⟨h.change (y := { x with refs := x.refs + 1 }) hx rfl rfl rfl (fun _ h => h) rfl ?_ ?_,
          .refs x (by intro _ h; cases h) hx rfl rfl rfl rfl⟩
        · rw [← callOf_some hx, upd_self]; exact h.ipc
        · rw [← timerOf_some hx, upd_self]; exact h.tim
      · cases hs
  | unref n =>
    simp only [step] at hs
    split at hs
    · cases hs
    · split at hs
      · rename_i x hx
        split at hs
        · cases hs
          refine ⟨h.change (y := { x with refs := x.refs - 1 }) hx rfl rfl rfl (fun _ h => h) rfl ?_ ?_,
            .refs x (by intro _ h; cases h) hx rfl rfl rfl rfl⟩
          · rw [← callOf_some hx, upd_self]; exact h.ipc
          · rw [← timerOf_some hx, upd_self]; exact h.tim
        · obtain ⟨a, c1, c2, c3⟩ := cancel_ok h.ipc n
          rw [callOf_some hx] at c1
          rw [c1] at hs
          simp only [] at hs
          split at hs
          · cases hs
          · split at hs
            · rename_i mgr hm
              obtain ⟨ts, t1, t2, t3⟩ := removeTimer_ok (s := { s with ipc := a, mgr := mgr }) h.tim n
              rw [timerOf_some hx] at t1
              rw [t1] at hs
              cases hs
              refine ⟨?_, .free x hx rfl hm rfl rfl⟩
              have hup : ∀ k z, upd s.names n none k = some z → k ≠ n ∧ s.names k = some z := by
                intro k z hz
                by_cases hk : k = n
                · subst hk; rw [upd_same] at hz; cases hz
                · rw [upd_ne _ _ hk] at hz; exact ⟨hk, hz⟩
              obtain ⟨g1, g2⟩ := h.mgrStep hm (names := upd s.names n none) (fun k z hz => (hup k z hz).2)
                (by intro i hi; simp only [List.mem_singleton] at hi; subst hi; exact upd_same ..)
              have hcall : ∀ s' : State, s'.names = upd s.names n none → callOf s' = upd (callOf s) n 0 := by
                intro s' hs'
                funext k
                unfold callOf
                rw [hs']
                by_cases hk : k = n
                · subst hk; rw [upd_same, upd_same]
                · rw [upd_ne _ _ hk, upd_ne _ _ hk]
              have htim : ∀ s' : State, s'.names = upd s.names n none → timerOf s' = upd (timerOf s) n none := by
                intro s' hs'
                funext k
                unfold timerOf
                rw [hs']
                by_cases hk : k = n
                · subst hk; rw [upd_same, upd_same]
                · rw [upd_ne _ _ hk, upd_ne _ _ hk]
              refine ⟨?_, ?_, ?_, g1, g2, ?_⟩
              · rw [hcall _ rfl]; exact c2
              · rw [htim _ rfl]; exact t2
              · intro k hk
                obtain ⟨k1, k2⟩ := List.mem_filter.mp hk
                have k2 : k ≠ n := by simpa using k2
                show upd s.names n none k ≠ none
                rw [upd_ne _ _ k2]
                exact h.calls k k1
              · intro k hk
                show k ∈ s.used
                cases hz : upd s.names n none k with
                | none => exact absurd hz hk
                | some z => exact h.used k (by rw [(hup k z hz).2]; simp)
            · cases hs
            · cases hs
      · cases hs
  | signal =>
    simp only [step] at hs
    split at hs
    · cases hs
    · rename_i n rest hc
      split at hs
      · rename_i x hx
        have hg1 : G { s with calls := rest, log := s.log ++ [.signal n (!s.mgr.dead)] } := by
          refine ⟨h.ipc, h.tim, ?_, h.mgr, h.nodup, h.used⟩
          intro k hk
          exact h.calls k (by rw [hc]; exact List.mem_cons_of_mem _ hk)
        simp only [State.presence] at hs
        split at hs
        · rename_i hd
          have hd : s.mgr.dead = false := by simpa [State.add] using hd
          obtain ⟨g, id, a1, a2, a3, a4, a5, _⟩ := G.addService hg1 hx rfl (fun _ _ => rfl) hs
          refine ⟨g, .up x id s.ipc.calls hc hx hd a1 a2 a3 a4 ?_⟩
          rw [a5]
          simp [State.add, hd]
        · rename_i hd
          have hd : s.mgr.dead = true := by simpa [State.add] using hd
          obtain ⟨a, c1, c2, c3⟩ := cancel_ok hg1.ipc n
          rw [callOf_some (s := { s with calls := rest, log := s.log ++ [.signal n (!s.mgr.dead)] }) hx] at c1
          simp only [State.add, c1] at hs
          obtain ⟨ts, t1, t2, t3⟩ := removeTimer_ok
            (s := { s with calls := rest, log := s.log ++ [.signal n (!s.mgr.dead)], ipc := a }) hg1.tim n
          rw [timerOf_some (s := { s with calls := rest, log := s.log ++ [.signal n (!s.mgr.dead)] }) hx] at t1
          rw [t1] at hs
          cases hs
          refine ⟨hg1.change (y := { x with call := 0, timer := none }) hx rfl rfl rfl (fun _ h => h) rfl c2 t2,
            .down x hc hx hd rfl rfl rfl ?_⟩
          simp [State.set, hd]
      · cases hs
  | retry t =>
    simp only [step] at hs
    split at hs
    · cases hs
    · rename_i hc
      have hidle : s.idle = true := by
        cases hh : s.idle
        · exact absurd (.inl (by simp [hh])) hc
        · rfl
      have hmem : t ∈ s.timers := Classical.byContradiction fun hh => hc (.inr hh)
      obtain ⟨o1, o2⟩ := h.tim.own t hmem
      split at hs
      · rename_i x hx
        rw [timerOf_some hx] at o1
        obtain ⟨r1, r2⟩ := h.tim.remove (n := t.name) (c := t.id) (by rw [timerOf_some hx]; exact o1)
        have hg1 : G { s with timers := s.timers.filter (fun u => u.id != t.id),
                              names := upd s.names t.name (some { x with timer := none }) } := by
          refine h.change (y := { x with timer := none }) hx rfl rfl rfl (fun _ h => h) rfl ?_ r2
          show IpcOk s.ipc s.owner (upd (callOf s) t.name x.call)
          rw [← callOf_some hx, upd_self]
          exact h.ipc
        obtain ⟨g, id, a1, a2, a3, a4, a5, _⟩ := G.addService
          (s := { s with timers := s.timers.filter (fun u => u.id != t.id) }) hg1 (upd_same ..) rfl
          (fun k hk => upd_ne _ _ hk) hs
        exact ⟨g, .retry x id s.ipc.calls hidle hx o1 a1 a2 a3 a4 a5⟩
      · cases hs
  | done p tid =>
    simp only [step] at hs
    split at hs
    · cases hs
    · rename_i hc
      have hidle : s.idle = true := by
        cases hh : s.idle
        · exact absurd (.inl (by simp [hh])) hc
        · rfl
      have hfr : (s.timers.any fun t => t.id == tid) = false := by
        cases hh : s.timers.any fun t => t.id == tid
        · rfl
        · exact absurd (.inr hh) hc
      split at hs
      · rename_i ipc hi
        obtain ⟨d1, d2, d3⟩ := h.ipc.done hi
        split at hs
        · rename_i n m hco ho
          obtain ⟨e1, e2⟩ := d1 n m hco ho
          split at hs
          · rename_i x hx
            rw [callOf_some hx] at e1
            simp only [State.addServiceDone] at hs
            split at hs
            · rename_i hst
              obtain ⟨ts, t1, t2, t3⟩ := removeTimer_ok
                (s := ({ s with ipc := ipc } : State).set n { x with call := 0 } |>.add (.result n (s.status p))) h.tim n
              rw [timerOf_some hx] at t1
              rw [t1] at hs
              cases hs
              have t4 := t2.add (n := n) (c := tid) (upd_same ..) (by
                rw [List.any_eq_false] at hfr ⊢
                intro t ht
                exact hfr t (t3 t ht))
              rw [upd_twice] at t4
              refine ⟨?_, ?_⟩
              · refine h.change (y := { x with call := 0, timer := some tid }) hx rfl ?_ rfl (fun _ h => h) rfl e2 t4
                simp only [State.set, State.add, upd_twice]
              · refine .done x hidle hx e1 ?_ rfl rfl rfl
                simp only [State.set, State.add, upd_twice]
                rw [if_neg hst]
            · rename_i hst
              have hst : s.status p = 0 := Classical.not_not.mp hst
              cases hs
              refine ⟨?_, ?_⟩
              · refine h.change (y := { x with call := 0 }) hx rfl rfl rfl (fun _ h => h) rfl e2 ?_
                show TimOk s.timers (upd (timerOf s) n x.timer)
                rw [← timerOf_some hx, upd_self]
                exact h.tim
              · refine .done x hidle hx e1 ?_ rfl rfl rfl
                simp only [State.set, State.add, if_pos hst]
          · cases hs
        · rename_i hne
          cases hs
          refine ⟨h.quiet rfl rfl rfl rfl rfl (d2 ?_), .quiet (by intro _ h; cases h) rfl rfl rfl rfl⟩
          cases hco : completed s.ipc ipc p
          · exact .inl rfl
          · right
            cases ho : s.owner p with
            | none => rfl
            | some v => exact absurd ho (hne v.1 v.2 hco)
      · cases hs
      · cases hs
  | executed p status =>
    simp only [step] at hs
    split at hs
    · rename_i ipc hi
      cases hs
      exact ⟨h.quiet rfl rfl rfl rfl rfl (h.ipc.executed hi), .quiet (by intro _ h; cases h) rfl rfl rfl rfl⟩
    · cases hs
    · cases hs
  | mgr l =>
    simp only [step] at hs
    split at hs
    · cases hs
    · rename_i ha
      have ha : s.allows l = true := Classical.not_not.mp ha
      split at hs
      · rename_i mgr hm
        cases hs
        obtain ⟨g1, g2⟩ := h.mgrStep hm (names := s.names) (fun _ _ h => h) (by
          cases l with
          | removeHandlers m ids =>
            intro i hi
            simp only [State.allows] at ha
            exact not_used h (by simpa using List.all_eq_true.mp ha i hi)
          | free m =>
            intro n x hx
            simp only [State.allows, Bool.and_eq_true] at ha
            have := List.all_eq_true.mp ha.1 n (h.used n (by rw [hx]; simp))
            rw [hx] at this
            simpa using this
          | _ => trivial)
        refine ⟨⟨h.ipc, h.tim, ?_, g1, g2, h.used⟩, .mgr ha rfl hm rfl rfl⟩
        intro n hn
        rcases List.mem_append.mp hn with hn | hn
        · obtain ⟨m, _, hn⟩ := List.mem_flatMap.mp hn
          exact isSome_of_filter hn
        · exact h.calls n hn
      · cases hs
      · cases hs
  | ipc l =>
    simp only [step] at hs
    split at hs
    · cases hs
    · rename_i ha
      have ha : s.allowsIpc l = true := Classical.not_not.mp ha
      split at hs
      · rename_i ipc hi
        cases hs
        refine ⟨h.quiet rfl rfl rfl rfl rfl (h.ipc.ipc ?_ hi), .quiet (by intro _ h; cases h) rfl rfl rfl rfl⟩
        cases l with
        | done p => cases ha
        | executed p => cases ha
        | flush p => exact hr
        | cancel id =>
          intro n hn
          simp only [State.allowsIpc, Bool.and_eq_true] at ha
          cases hx : s.names n with
          | none => unfold callOf at hn; rw [hx] at hn; exact absurd rfl hn
          | some x =>
            rw [callOf_some hx]
            have := List.all_eq_true.mp ha.2 n (h.used n (by rw [hx]; simp))
            rw [hx] at this
            simpa using this
        | _ => trivial
      · cases hs
      · cases hs

/-- Nothing is accessed after it has been freed (whatever happens to the service managers). -/
theorem G.safe {s : State} (h : G s) {l : Label} (hl : ∀ k, l ≠ .mgr k) : step s l ≠ .ub := by
  intro hs
  cases l with
  | create n m =>
    simp only [step] at hs
    split at hs
    · cases hs
    · rename_i hc
      split at hs
      · rename_i mgr hm
        have hn : s.names n = none := Classical.byContradiction fun hh => hc (.inr (.inr hh))
        split at hs
        · have hc0 : callOf s n = 0 := by unfold callOf; rw [hn]
          rcases addService_ok (s := ({ s with mgr, used := n :: s.used } : State).set n { mgr := m } |>.add (.created n))
            (c := callOf s) (n := n) (x := { mgr := m }) h.ipc hc0.symm with h2 | ⟨a, o, st, id, h2, _⟩
          · rw [h2] at hs; cases hs
          · rw [h2] at hs; cases hs
        · cases hs
      · cases hs
      · rename_i hm
        simp only [Manager.step] at hm
        split at hm
        · cases hm
        · split at hm
          · cases hm
          · split at hm <;> cases hm
  | ref n =>
    simp only [step] at hs
    split at hs
    · cases hs
    · split at hs <;> cases hs
  | unref n =>
    simp only [step] at hs
    split at hs
    · cases hs
    · rename_i hf
      split at hs
      · rename_i x hx
        split at hs
        · cases hs
        · obtain ⟨a, c1, c2, c3⟩ := cancel_ok h.ipc n
          rw [callOf_some hx] at c1
          rw [c1] at hs
          simp only [] at hs
          obtain ⟨y, hy, _⟩ := h.mgr n x hx
          rw [hy] at hs
          simp only [Manager.step, hf, if_false, hy] at hs
          obtain ⟨ts, t1, t2, t3⟩ := removeTimer_ok (s := { s with ipc := a, mgr :=
            ((s.mgr.set x.mgr { y with
              handlers := y.handlers.filter fun h => !([n].filter (· ≠ 0)).contains h.id
              watches := (Manager.unwatchUnused (y.handlers.filter fun h => !([n].filter (· ≠ 0)).contains h.id)
                ([n].filter (· ≠ 0)).length y.watches).2
              presence := y.presence.filter fun i => !([n].filter (· ≠ 0)).contains i }).add
            ((Manager.unwatchUnused (y.handlers.filter fun h => !([n].filter (· ≠ 0)).contains h.id)
                ([n].filter (· ≠ 0)).length y.watches).1.map fun i => Manager.Ev.unwatch x.mgr i)) }) h.tim n
          rw [timerOf_some hx] at t1
          rw [t1] at hs
          cases hs
      · cases hs
  | signal =>
    simp only [step] at hs
    split at hs
    · cases hs
    · rename_i n rest hc
      split at hs
      · rename_i x hx
        simp only [State.presence] at hs
        split at hs
        · rcases addService_ok (s := ({ s with calls := rest } : State).add (.signal n (!s.mgr.dead)))
            (c := callOf s) (n := n) (x := x) h.ipc (callOf_some hx).symm with h2 | ⟨a, o, st, id, h2, _⟩
          · rw [h2] at hs; cases hs
          · rw [h2] at hs; cases hs
        · obtain ⟨a, c1, c2, c3⟩ := cancel_ok
            (s := ({ s with calls := rest } : State).add (.signal n (!s.mgr.dead))) (c := callOf s) h.ipc n
          rw [callOf_some hx] at c1
          rw [c1] at hs
          simp only [] at hs
          obtain ⟨ts, t1, t2, t3⟩ := removeTimer_ok
            (s := { ({ s with calls := rest } : State).add (.signal n (!s.mgr.dead)) with ipc := a })
            (τ := timerOf s) h.tim n
          rw [timerOf_some hx] at t1
          rw [t1] at hs
          cases hs
      · rename_i hn
        exact h.calls n (by rw [hc]; exact List.mem_cons_self ..) hn
  | retry t =>
    simp only [step] at hs
    split at hs
    · cases hs
    · rename_i hc
      have hmem : t ∈ s.timers := Classical.byContradiction fun hh => hc (.inr hh)
      obtain ⟨o1, o2⟩ := h.tim.own t hmem
      split at hs
      · rename_i x hx
        rcases addService_ok (s := { s with timers := s.timers.filter fun u => u.id != t.id })
            (c := callOf s) (n := t.name) (x := { x with timer := none }) h.ipc (callOf_some hx).symm
            with h2 | ⟨a, o, st, id, h2, _⟩
        · rw [h2] at hs; cases hs
        · rw [h2] at hs; cases hs
      · rename_i hn
        unfold timerOf at o1
        rw [hn] at o1
        cases o1
  | done p tid =>
    simp only [step] at hs
    split at hs
    · cases hs
    · split at hs
      · rename_i ipc hi
        obtain ⟨d1, d2, d3⟩ := h.ipc.done hi
        split at hs
        · rename_i n m hco ho
          obtain ⟨e1, e2⟩ := d1 n m hco ho
          split at hs
          · rename_i x hx
            simp only [State.addServiceDone] at hs
            split at hs
            · obtain ⟨ts, t1, t2, t3⟩ := removeTimer_ok
                (s := ({ s with ipc := ipc } : State).set n { x with call := 0 } |>.add (.result n (s.status p))) h.tim n
              rw [timerOf_some hx] at t1
              rw [t1] at hs
              cases hs
            · cases hs
          · rename_i hn
            unfold callOf at e1
            rw [hn] at e1
            exact e1 rfl
        · cases hs
      · cases hs
      · rename_i hi; exact async_safe h.ipc.reach _ hi
  | executed p status =>
    simp only [step] at hs
    split at hs
    · cases hs
    · cases hs
    · rename_i hi; exact async_safe h.ipc.reach _ hi
  | mgr l => exact hl l rfl
  | ipc l =>
    simp only [step] at hs
    split at hs
    · cases hs
    · split at hs
      · cases hs
      · cases hs
      · rename_i hi; exact async_safe h.ipc.reach _ hi

theorem G.init : G {} := by
  refine ⟨⟨Reach.init, ?_, ?_, ?_⟩, ⟨List.nodup_nil, ?_, ?_⟩, ?_, ?_, ?_, ?_⟩
  · intro p hp; exact absurd rfl hp
  · intro n p
    constructor
    · rintro ⟨⟨m, h⟩, _⟩; cases h
    · rintro ⟨h, _⟩; exact absurd rfl h
  · intro n h; exact absurd rfl h
  · intro n c h; cases h
  · intro t h; cases h
  · intro n h; cases h
  · intro n x h; cases h
  · intro m y h; cases h
  · intro n h; exact absurd rfl h

theorem G.reach {s : State} (h : ReachIf step (fun _ l => Running l) {} s) : G s := by
  induction h with
  | init => exact G.init
  | step l _ hr hs ih => exact (eff_step ih hr hs).1

end Gb.ServiceName
