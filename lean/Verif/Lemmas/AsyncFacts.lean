import Verif.Lemmas.Async
/-
Asynchronous transactions, with the places where they may be reduced to those before and after fn_exec.
-/
set_option autoImplicit false

namespace Gb.Async

/-- fn_exec hasn't been called, or hasn't returned yet. -/
def Before (a : State) (p : Nat) : Prop := p ∈ a.queue ∨ p ∈ a.starting ∨ p ∈ a.running

/-- fn_exec has returned, or isn't going to be called; the completion callback hasn't been called. -/
def After (a : State) (p : Nat) : Prop := p ∈ a.finished ∨ p ∈ a.posted

structure Facts (a : State) : Prop where
  tab : Tab a
  at_ : ∀ p, At a p

theorem Facts.of_reach {a : State} (h : Reach step {} a) : Facts a := ⟨(inv_reach h).1, (inv_reach h).2⟩

theorem Facts.step {a a' : State} (h : Facts a) {l : Label} (hs : Gb.Async.step a l = .ok a') : Facts a' :=
  ⟨tab_step h.tab hs, at_step h.tab h.at_ hs⟩

theorem Facts.alive {a : State} (h : Facts a) {p : Nat} (hp : Before a p ∨ After a p ∨ p ∈ a.finishing) :
    ∃ t, a.txs p = some t := by
  refine alive_of_mem (h.at_ p) ?_
  rcases hp with (hp | hp | hp) | (hp | hp) | hp <;> have := count_of_mem hp <;> omega

theorem Facts.notAfter {a : State} (h : Facts a) {p : Nat} (hp : Before a p) : ¬After a p := by
  have hs := (h.at_ p).sum
  intro ha
  split at hs <;> rcases hp with hp | hp | hp <;> rcases ha with ha | ha <;>
    have := count_of_mem hp <;> have := count_of_mem ha <;> omega

theorem Facts.finishing {a : State} (h : Facts a) {p : Nat} (hp : p ∈ a.finishing) : ¬Before a p ∧ ¬After a p := by
  have hs := (h.at_ p).sum
  have h0 := count_of_mem hp
  constructor
  · intro ha
    split at hs <;> rcases ha with ha | ha | ha <;> have := count_of_mem ha <;> omega
  · intro ha
    split at hs <;> rcases ha with ha | ha <;> have := count_of_mem ha <;> omega

theorem Facts.once {a : State} (h : Facts a) (p : Nat) : a.queue.count p + a.starting.count p + a.running.count p + a.finished.count p +
    a.posted.count p + a.finishing.count p ≤ 1 := by
  have hs := (h.at_ p).sum
  split at hs <;> omega

theorem not_mem_erase {p : Nat} {l : List Nat} (h : l.count p ≤ 1) : p ∉ l.erase p := by
  intro hm
  have h1 := count_of_mem hm
  rw [count_erase_eq] at h1
  omega

theorem mem_erase_ne {p q : Nat} {l : List Nat} (h : q ≠ p) : q ∈ l.erase p ↔ q ∈ l := List.mem_erase_of_ne h

theorem no_mem {p : Nat} {l : List Nat} (h : l.count p = 0) : p ∉ l := fun hm => by
  have := count_of_mem hm
  omega

theorem submit_facts {a a' : State} (hs : step a .submit = .ok a') :
    (∃ id, a'.txs = upd a.txs a.calls (some { id })) ∧ a'.calls = a.calls + 1 ∧
      (∀ q, Before a' q ↔ Before a q ∨ q = a.calls) ∧ (∀ q, After a' q ↔ After a q) ∧ a'.finishing = a.finishing := by
  simp only [step] at hs
  split at hs
  · cases hs
  · rename_i id next _
    cases hs
    refine ⟨⟨id, rfl⟩, rfl, ?_, ?_, rfl⟩
    · intro q
      simp only [Before, List.mem_append, List.mem_singleton]
      constructor
      · rintro ((h | h) | h)
        · exact .inl (.inl h)
        · exact .inr h
        · exact .inl (.inr h)
      · rintro ((h | h) | h)
        · exact .inl (.inl h)
        · exact .inr h
        · exact .inl (.inr h)
    · intro q; rfl

theorem exec_facts {a a' : State} (h : Facts a) {p : Nat} (hs : step a (.exec p) = .ok a') :
    Before a p ∧ a'.txs = a.txs ∧ a'.calls = a.calls ∧
      (∀ q, Before a' q ↔ Before a q) ∧ (∀ q, After a' q ↔ After a q) ∧ a'.finishing = a.finishing := by
  simp only [step] at hs
  split at hs
  · rename_i hp
    split at hs
    · cases hs
      have ho := h.once p
      have hc := count_of_mem hp
      refine ⟨.inr (.inl hp), rfl, rfl, ?_, fun q => Iff.rfl, rfl⟩
      intro q
      simp only [Before, List.mem_cons]
      by_cases hq : q = p
      · subst hq; simp [hp]
      · simp [mem_erase_ne hq, hq]
    · cases hs
  · cases hs

theorem executed_facts {a a' : State} (h : Facts a) {p : Nat} (hs : step a (.executed p) = .ok a') :
    Before a p ∧ a'.txs = a.txs ∧ a'.calls = a.calls ∧
      (∀ q, Before a' q ↔ Before a q ∧ q ≠ p) ∧ (∀ q, After a' q ↔ After a q ∨ q = p) ∧ a'.finishing = a.finishing := by
  simp only [step] at hs
  split at hs
  · rename_i hp
    cases hs
    have ho := h.once p
    have hc := count_of_mem hp
    refine ⟨.inr (.inr hp), rfl, rfl, ?_, ?_, rfl⟩
    · intro q
      simp only [Before]
      by_cases hq : q = p
      · subst hq
        have h1 := no_mem (p := q) (l := a.queue) (by omega)
        have h2 := no_mem (p := q) (l := a.starting) (by omega)
        have h3 := not_mem_erase (p := q) (l := a.running) (by omega)
        simp [h1, h2, h3]
      · simp [mem_erase_ne hq, hq]
    · intro q
      simp only [After, List.mem_cons]
      constructor
      · rintro ((h | h) | h)
        · exact .inr h
        · exact .inl (.inl h)
        · exact .inl (.inr h)
      · rintro ((h | h) | h)
        · exact .inl (.inr h)
        · exact .inr h
        · exact .inl (.inl h)
  · cases hs

theorem done_facts {a a' : State} (h : Facts a) {p : Nat} (hs : step a (.done p) = .ok a') :
    After a p ∧ a'.txs = a.txs ∧ a'.calls = a.calls ∧
      (∀ q, Before a' q ↔ Before a q) ∧ (∀ q, After a' q ↔ After a q ∧ q ≠ p) ∧ a'.finishing = p :: a.finishing := by
  simp only [step] at hs
  split at hs
  · rename_i hp
    split at hs
    · cases hs
      have ho := h.once p
      have hc := count_of_mem hp
      refine ⟨.inr hp, rfl, rfl, fun q => Iff.rfl, ?_, rfl⟩
      intro q
      simp only [After]
      by_cases hq : q = p
      · subst hq
        have h1 := no_mem (p := q) (l := a.finished) (by omega)
        have h3 := not_mem_erase (p := q) (l := a.posted) (by omega)
        simp [h1, h3]
      · simp [mem_erase_ne hq, hq]
    · cases hs
  · cases hs

theorem flush_facts {a a' : State} (h : Facts a) {p : Nat} (hs : step a (.flush p) = .ok a') :
    After a p ∧ a'.txs = a.txs ∧ a'.calls = a.calls ∧
      (∀ q, Before a' q ↔ Before a q) ∧ (∀ q, After a' q ↔ After a q ∧ q ≠ p) := by
  simp only [step] at hs
  split at hs
  · rename_i hp
    obtain ⟨_, _, _, hf, hp⟩ := hp
    split at hs
    · cases hs
      have ho := h.once p
      have hc := count_of_mem hp
      refine ⟨.inr hp, rfl, rfl, fun q => Iff.rfl, ?_⟩
      intro q
      simp only [After]
      by_cases hq : q = p
      · subst hq
        have h1 := no_mem (p := q) (l := a.finished) (by omega)
        have h3 := not_mem_erase (p := q) (l := a.posted) (by omega)
        simp [h1, h3]
      · simp [mem_erase_ne hq, hq]
    · cases hs
  · cases hs

theorem free_facts {a a' : State} (h : Facts a) {p : Nat} (hs : step a (.free p) = .ok a') :
    (∃ t, a.txs p = some t) ∧ p ∈ a.finishing ∧ a'.txs = upd a.txs p none ∧ a'.calls = a.calls ∧
      (∀ q, Before a' q ↔ Before a q) ∧ (∀ q, After a' q ↔ After a q) ∧ (∀ q, q ∈ a'.finishing → q ∈ a.finishing) := by
  simp only [step] at hs
  split at hs
  · rename_i hp
    split at hs
    · rename_i t ht
      cases hs
      exact ⟨⟨t, ht⟩, hp, rfl, rfl, fun q => Iff.rfl, fun q => Iff.rfl, fun q hq => List.mem_of_mem_erase hq⟩
    · cases hs
  · cases hs

theorem check_facts {a a' : State} (h : Facts a) {p : Nat} (hs : step a (.check p) = .ok a') :
    Before a p ∧ a'.txs = a.txs ∧ a'.calls = a.calls ∧ a'.finishing = a.finishing ∧
      (((∃ t, a.txs p = some t ∧ t.cancelled = true) ∧ (∀ q, Before a' q ↔ Before a q ∧ q ≠ p) ∧
          (∀ q, After a' q ↔ After a q ∨ q = p)) ∨
        (∀ q, Before a' q ↔ Before a q) ∧ (∀ q, After a' q ↔ After a q)) := by
  simp only [step] at hs
  split at hs
  · rename_i hp
    have ho := h.once p
    have hc := count_of_mem hp
    split at hs
    · rename_i t ht
      split at hs
      · rename_i htc
        cases hs
        refine ⟨.inl hp, rfl, rfl, rfl, .inl ⟨⟨t, ht, htc⟩, ?_, ?_⟩⟩
        · intro q
          simp only [Before]
          by_cases hq : q = p
          · subst hq
            have h1 := not_mem_erase (p := q) (l := a.queue) (by omega)
            have h2 := no_mem (p := q) (l := a.starting) (by omega)
            have h3 := no_mem (p := q) (l := a.running) (by omega)
            simp [h1, h2, h3]
          · simp [mem_erase_ne hq, hq]
        · intro q
          simp only [After, List.mem_cons]
          constructor
          · rintro ((h | h) | h)
            · exact .inr h
            · exact .inl (.inl h)
            · exact .inl (.inr h)
          · rintro ((h | h) | h)
            · exact .inl (.inr h)
            · exact .inr h
            · exact .inl (.inl h)
      · cases hs
        refine ⟨.inl hp, rfl, rfl, rfl, .inr ⟨?_, fun q => Iff.rfl⟩⟩
        intro q
        simp only [Before, List.mem_cons]
        by_cases hq : q = p
        · subst hq; simp [hp]
        · simp [mem_erase_ne hq, hq]
    · cases hs
  · cases hs

theorem post_facts {a a' : State} (h : Facts a) {p : Nat} (hs : step a (.post p) = .ok a') :
    a'.txs = a.txs ∧ a'.calls = a.calls ∧ a'.finishing = a.finishing ∧
      (∀ q, Before a' q ↔ Before a q) ∧ (∀ q, After a' q ↔ After a q) := by
  simp only [step] at hs
  split at hs
  · rename_i hp
    split at hs
    · cases hs
      refine ⟨rfl, rfl, rfl, fun q => Iff.rfl, ?_⟩
      intro q
      simp only [After, List.mem_cons]
      by_cases hq : q = p
      · subst hq; simp [hp]
      · simp [mem_erase_ne hq, hq]
    · cases hs
  · cases hs

theorem cancel_facts {a a' : State} (h : Facts a) {id : Nat} (hs : step a (.cancel id) = .ok a') :
    a'.calls = a.calls ∧ a'.finishing = a.finishing ∧ (∀ q, Before a' q ↔ Before a q) ∧ (∀ q, After a' q ↔ After a q) ∧
      match a.table.find? (fun e => e.1 = id) with
      | some (_, p) => ∃ t, a.txs p = some t ∧ a'.txs = upd a.txs p (some { t with cancelled := true })
      | none => a'.txs = a.txs := by
  simp only [step] at hs
  split at hs
  · rename_i x p hf
    split at hs
    · rename_i t ht
      cases hs
      refine ⟨rfl, rfl, fun q => Iff.rfl, fun q => Iff.rfl, ?_⟩
      rw [hf]
      exact ⟨t, ht, rfl⟩
    · cases hs
  · rename_i hf
    cases hs
    refine ⟨rfl, rfl, fun q => Iff.rfl, fun q => Iff.rfl, ?_⟩
    rw [hf]

theorem Facts.safe {a : State} (h : Facts a) (l : Label) : Gb.Async.step a l ≠ .ub := by
  have key : ∀ p, Before a p ∨ After a p ∨ p ∈ a.finishing → a.txs p ≠ none := by
    intro p hp
    obtain ⟨t, ht⟩ := h.alive hp
    rw [ht]; simp
  intro hu
  cases l with
  | submit => simp only [Gb.Async.step] at hu; split at hu <;> cases hu
  | executed p => simp only [Gb.Async.step] at hu; split at hu <;> cases hu
  | cancel id =>
    simp only [Gb.Async.step] at hu
    split at hu
    · rename_i x p hf
      split at hu
      · cases hu
      · rename_i hn
        obtain ⟨tx, htx, _⟩ := (h.tab.mem x p).1 (List.mem_of_find?_eq_some hf)
        rw [hn] at htx; cases htx
    · cases hu
  | check p =>
    simp only [Gb.Async.step] at hu
    split at hu
    · rename_i hq
      split at hu
      · split at hu <;> cases hu
      · rename_i hn; exact key p (.inl (.inl hq)) hn
    · cases hu
  | flush p =>
    simp only [Gb.Async.step] at hu
    split at hu
    · rename_i hq
      split at hu
      · cases hu
      · rename_i hn; exact key p (.inr (.inl (.inr hq.2.2.2.2))) hn
    · cases hu
  | exec p =>
    simp only [Gb.Async.step] at hu
    split at hu
    · rename_i hq
      split at hu
      · cases hu
      · rename_i hn; exact key p (.inl (.inr (.inl hq))) hn
    · cases hu
  | post p =>
    simp only [Gb.Async.step] at hu
    split at hu
    · rename_i hq
      split at hu
      · cases hu
      · rename_i hn; exact key p (.inr (.inl (.inl hq))) hn
    · cases hu
  | done p =>
    simp only [Gb.Async.step] at hu
    split at hu
    · rename_i hq
      split at hu
      · cases hu
      · rename_i hn; exact key p (.inr (.inl (.inr hq))) hn
    · cases hu
  | free p =>
    simp only [Gb.Async.step] at hu
    split at hu
    · rename_i hq
      split at hu
      · cases hu
      · rename_i hn; exact key p (.inr (.inr hq)) hn
    · cases hu

end Gb.Async
