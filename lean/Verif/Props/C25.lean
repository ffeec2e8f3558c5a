import Verif.Lemmas.Async
/-
C25: for each accepted gbinder_client_transact / gbinder_ipc_transact_custom call the completion
callback runs at most once, never after gbinder_client_cancel() has returned on the main thread, and
the destroy callback runs exactly once, after the completion callback.

Executions are arbitrary interleavings of the main thread and any number of worker threads, i.e. the
callbacks may submit and cancel more transactions, and gbinder_ipc_exit can be called at any point.
-/
set_option autoImplicit false

namespace Gb.C25
open Gb.Async

/-- Memory of a transaction is not accessed after it has been freed. -/
theorem C25_safe {s : State} (h : Reach step {} s) (l : Label) : step s l ≠ .ub := by
  obtain ⟨ht, ha⟩ := inv_reach h
  have key : ∀ p, 0 < s.queue.count p + s.starting.count p + s.running.count p + s.finished.count p +
      s.posted.count p + s.finishing.count p → s.txs p ≠ none := by
    intro p hp
    obtain ⟨tx, htx⟩ := alive_of_mem (ha p) hp
    rw [htx]; simp
  intro hu
  cases l with
  | cancel id =>
    simp only [step] at hu
    split at hu
    · rename_i x p hf
      split at hu
      · cases hu
      · rename_i hn
        obtain ⟨tx, htx, _⟩ := (ht.mem x p).1 (List.mem_of_find?_eq_some hf)
        rw [hn] at htx; cases htx
    · cases hu
  | submit => simp only [step] at hu; split at hu <;> cases hu
  | flush p =>
    simp only [step] at hu
    split at hu
    · rename_i hq
      have := count_of_mem hq.2.2.2.2
      split at hu
      · cases hu
      · rename_i hn; exact key p (by omega) hn
    · cases hu
  | check p =>
    simp only [step] at hu
    split at hu
    · rename_i hq
      have := count_of_mem hq
      split at hu
      · split at hu <;> cases hu
      · rename_i hn; exact key p (by omega) hn
    · cases hu
  | executed p => simp only [step] at hu; split at hu <;> cases hu
  | exec p | post p | done p | free p =>
    simp only [step] at hu
    split at hu
    · rename_i hq
      have := count_of_mem hq
      split at hu
      · cases hu
      · rename_i hn; exact key p (by omega) hn
    · cases hu

/-- Each transaction lives the way it's supposed to. -/
theorem C25_life {s : State} (h : Reach step {} s) (p : Nat) :
    ∃ l, track p .new s.log = some l ∧ (l = .new ↔ s.calls ≤ p) ∧
      (l = .gone ↔ p < s.calls ∧ s.txs p = none) := by
  obtain ⟨_, ha⟩ := inv_reach h
  have hp := ha p
  by_cases hc : s.calls ≤ p
  · exact ⟨.new, (hp.new hc).2, by simp [hc], by simp; omega⟩
  · cases htx : s.txs p with
    | none => exact ⟨.gone, hp.gone (by omega) htx, by simp; omega, by simp; omega⟩
    | some tx =>
      obtain ⟨e, d, h1, _⟩ := hp.live tx htx
      exact ⟨_, h1, by simp; omega, by simp⟩

/-- Something that can happen at most `f l` times, can't happen more times than that. -/
theorem potential {p : Nat} {ev : Ev} {f : Life → Nat}
    (hf : ∀ l e l', l.next p e = some l' → (if e = ev then 1 else 0) + f l' ≤ f l) {evs : List Ev} :
    ∀ {l l' : Life}, track p l evs = some l' → evs.count ev + f l' ≤ f l := by
  induction evs with
  | nil => intro l l' h; cases h; simp
  | cons e evs ih =>
    intro l l' h
    simp only [track] at h
    split at h
    · rename_i l1 h1
      have h2 := ih h
      have h3 := hf _ _ _ h1
      simp only [List.count_cons, beq_iff_eq]
      omega
    · cases h

def dones : Life → Nat
  | .new => 1
  | .live _ false false => 1
  | _ => 0

def execs : Life → Nat
  | .new => 1
  | .live false _ _ => 1
  | _ => 0

def destroys : Life → Nat
  | .gone => 0
  | _ => 1

theorem dones_ok (p : Nat) (l : Life) (e : Ev) (l' : Life) (h : l.next p e = some l') :
    (if e = .done p then 1 else 0) + dones l' ≤ dones l := by
  rcases l with _ | ⟨_ | _, _ | _, _ | _⟩ | _ <;> cases e <;> simp only [Life.next] at h <;>
    split at h <;> cases h <;> simp_all [dones]

theorem execs_ok (p : Nat) (l : Life) (e : Ev) (l' : Life) (h : l.next p e = some l') :
    (if e = .exec p then 1 else 0) + execs l' ≤ execs l := by
  rcases l with _ | ⟨_ | _, _ | _, _ | _⟩ | _ <;> cases e <;> simp only [Life.next] at h <;>
    split at h <;> cases h <;> simp_all [execs]

theorem destroys_ok (p : Nat) (l : Life) (e : Ev) (l' : Life) (h : l.next p e = some l') :
    (if e = .destroy p then 1 else 0) + destroys l' ≤ destroys l := by
  rcases l with _ | ⟨_ | _, _ | _, _ | _⟩ | _ <;> cases e <;> simp only [Life.next] at h <;>
    split at h <;> cases h <;> simp_all [destroys]

theorem track_split {p : Nat} {a b : List Ev} : ∀ {l l' : Life}, track p l (a ++ b) = some l' →
    ∃ m, track p l a = some m ∧ track p m b = some l' := by
  induction a with
  | nil => intro l l' h; exact ⟨l, rfl, h⟩
  | cons e a ih =>
    intro l l' h
    simp only [List.cons_append, track] at h ⊢
    split at h
    · exact ih h
    · cases h

/-- Neither of the callbacks is called twice, and the call isn't made twice. -/
theorem C25_once {s : State} (h : Reach step {} s) (p : Nat) :
    s.log.count (.exec p) ≤ 1 ∧ s.log.count (.done p) ≤ 1 ∧ s.log.count (.destroy p) ≤ 1 := by
  obtain ⟨l, hl, _⟩ := C25_life h p
  have h1 := potential (execs_ok p) hl
  have h2 := potential (dones_ok p) hl
  have h3 := potential (destroys_ok p) hl
  simp only [execs, dones, destroys] at h1 h2 h3
  omega

/-- The completion callback is not called after cancel. -/
theorem C25_cancel {s : State} (h : Reach step {} s) {p : Nat} {a b : List Ev}
    (hl : s.log = a ++ .cancel p :: b) : .done p ∉ b := by
  obtain ⟨l, h1, _⟩ := C25_life h p
  rw [hl] at h1
  obtain ⟨m, _, h2⟩ := track_split h1
  simp only [track] at h2
  split at h2
  · rename_i l1 h3
    have hz : dones l1 = 0 := by
      rcases m with _ | ⟨_ | _, _ | _, _ | _⟩ | _ <;> simp [Life.next] at h3 <;> subst h3 <;> rfl
    have := potential (dones_ok p) h2
    exact List.count_eq_zero.1 (by omega)
  · cases h2

/-- Nothing is called after the destroy callback. -/
theorem C25_last {s : State} (h : Reach step {} s) {p : Nat} {a b : List Ev}
    (hl : s.log = a ++ .destroy p :: b) :
    .done p ∉ b ∧ .exec p ∉ b ∧ .destroy p ∉ b := by
  obtain ⟨l, h1, _⟩ := C25_life h p
  rw [hl] at h1
  obtain ⟨m, _, h2⟩ := track_split h1
  simp only [track] at h2
  split at h2
  · rename_i l1 h3
    have hz : l1 = .gone := by
      rcases m with _ | ⟨_ | _, _ | _, _ | _⟩ | _ <;> simp [Life.next] at h3 <;> exact h3.symm
    subst hz
    have h1 := potential (dones_ok p) h2
    have h2' := potential (execs_ok p) h2
    have h3 := potential (destroys_ok p) h2
    simp only [dones, execs, destroys] at h1 h2' h3
    exact ⟨List.count_eq_zero.1 (by omega), List.count_eq_zero.1 (by omega),
      List.count_eq_zero.1 (by omega)⟩
  · cases h2

theorem exec_of_true {p : Nat} {evs : List Ev} {c d : Bool} : ∀ {l : Life},
    track p l evs = some (.live true c d) → .exec p ∈ evs ∨ ∃ c' d', l = .live true c' d' := by
  induction evs with
  | nil => intro l h; cases h; exact .inr ⟨c, d, rfl⟩
  | cons e evs ih =>
    intro l h
    simp only [track] at h
    split at h
    · rename_i l1 h1
      rcases ih h with h2 | ⟨c', d', h2⟩
      · exact .inl (List.mem_cons_of_mem _ h2)
      · subst h2
        rcases l with _ | ⟨_ | _, _ | _, _ | _⟩ | _ <;> cases e <;> simp [Life.next] at h1 <;>
          simp_all <;> (split at h1 <;> simp_all)
    · cases h

/-- The completion callback is called after fn_exec, i.e. when the result is there. -/
theorem C25_result {s : State} (h : Reach step {} s) {p : Nat} {a b : List Ev}
    (hl : s.log = a ++ .done p :: b) : .exec p ∈ a := by
  obtain ⟨l, h1, _⟩ := C25_life h p
  rw [hl] at h1
  obtain ⟨m, h0, h2⟩ := track_split h1
  simp only [track] at h2
  split at h2
  · rename_i l1 h3
    have hm : ∃ c d, m = .live true c d := by
      rcases m with _ | ⟨_ | _, _ | _, _ | _⟩ | _ <;> simp [Life.next] at h3 ⊢
    obtain ⟨c, d, hm⟩ := hm
    subst hm
    rcases exec_of_true h0 with h4 | ⟨_, _, h4⟩
    · exact h4
    · cases h4
  · cases h2

theorem count_of_gone {p : Nat} {evs : List Ev} : ∀ {l : Life}, track p l evs = some .gone →
    l ≠ .gone → .destroy p ∈ evs := by
  induction evs with
  | nil => intro l h hn; cases h; exact absurd rfl hn
  | cons e evs ih =>
    intro l h hn
    simp only [track] at h
    split at h
    · rename_i l1 h1
      by_cases hg : l1 = .gone
      · subst hg
        rcases l with _ | ⟨_ | _, _ | _, _ | _⟩ | _ <;> cases e <;> simp [Life.next] at h1 <;>
          simp_all <;> (split at h1 <;> simp_all)
      · exact List.mem_cons_of_mem _ (ih h hg)
    · cases h

/-- When nothing is in progress anymore, the destroy callback has been called exactly once for
each transaction that has been submitted. -/
theorem C25_destroy {s : State} (h : Reach step {} s) {p : Nat} (hp : p < s.calls)
    (h1 : p ∉ s.queue) (h2 : p ∉ s.starting) (h3 : p ∉ s.running) (h4 : p ∉ s.finished)
    (h5 : p ∉ s.posted) (h6 : p ∉ s.finishing) : s.log.count (.destroy p) = 1 := by
  obtain ⟨_, ha⟩ := inv_reach h
  have hsum := (ha p).sum
  rw [List.count_eq_zero.2 h1, List.count_eq_zero.2 h2, List.count_eq_zero.2 h3,
    List.count_eq_zero.2 h4, List.count_eq_zero.2 h5, List.count_eq_zero.2 h6] at hsum
  have hn : s.txs p = none := by
    cases ht : s.txs p with
    | none => rfl
    | some tx => rw [ht] at hsum; simp at hsum
  have hg := (ha p).gone hp hn
  have := List.count_pos_iff.2 (count_of_gone hg (by simp))
  have := (C25_once h p).2.2
  omega

/-- The steps made on behalf of one transaction. -/
def mine (p : Nat) : Label → Bool
  | .check q | .exec q | .executed q | .post q | .done q | .free q => q = p
  | _ => false

/-- Whatever happens, each transaction can always be finished without any help: the threads which
have it in their hands only need to proceed. -/
theorem C25_progress {s : State} (h : Reach step {} s) {p : Nat} (hp : p < s.calls)
    (hd : .destroy p ∉ s.log) :
    ∃ ls s', (∀ l ∈ ls, mine p l = true) ∧ exec step s ls = .ok s' ∧ .destroy p ∈ s'.log := by
  have hfin : ∀ {s : State}, Reach step {} s → p ∈ s.finishing → ∃ ls s', (∀ l ∈ ls, mine p l = true) ∧
      exec step s ls = .ok s' ∧ .destroy p ∈ s'.log := by
    intro s h hm
    obtain ⟨tx, htx⟩ := alive_of_mem ((inv_reach h).2 p) (by have := count_of_mem hm; omega)
    refine ⟨[.free p], ?_⟩
    simp only [exec, step, hm, htx, if_true]
    exact ⟨_, by simp [mine], rfl, by simp⟩
  have one : ∀ {s s1 : State} {l : Label}, mine p l = true → step s l = .ok s1 →
      (∃ ls s', (∀ l ∈ ls, mine p l = true) ∧ exec step s1 ls = .ok s' ∧ .destroy p ∈ s'.log) →
      ∃ ls s', (∀ l ∈ ls, mine p l = true) ∧ exec step s ls = .ok s' ∧ .destroy p ∈ s'.log := by
    rintro s s1 l hl hs ⟨ls, s', h1, h2, h3⟩
    refine ⟨l :: ls, s', ?_, ?_, h3⟩
    · intro x hx
      rcases List.mem_cons.1 hx with hx | hx
      · rw [hx]; exact hl
      · exact h1 x hx
    · simp only [exec, hs]; exact h2
  have hpost : ∀ {s : State}, Reach step {} s → p ∈ s.posted → ∃ ls s', (∀ l ∈ ls, mine p l = true) ∧
      exec step s ls = .ok s' ∧ .destroy p ∈ s'.log := by
    intro s h hm
    obtain ⟨tx, htx⟩ := alive_of_mem ((inv_reach h).2 p) (by have := count_of_mem hm; omega)
    have hs : ∃ s1, step s (.done p) = .ok s1 ∧ p ∈ s1.finishing := by
      simp only [step, hm, htx, if_true]
      exact ⟨_, rfl, by simp⟩
    obtain ⟨s1, hs, hf⟩ := hs
    exact one (by simp [mine]) hs (hfin (h.step hs) hf)
  have hfd : ∀ {s : State}, Reach step {} s → p ∈ s.finished → ∃ ls s', (∀ l ∈ ls, mine p l = true) ∧
      exec step s ls = .ok s' ∧ .destroy p ∈ s'.log := by
    intro s h hm
    obtain ⟨tx, htx⟩ := alive_of_mem ((inv_reach h).2 p) (by have := count_of_mem hm; omega)
    have hs : ∃ s1, step s (.post p) = .ok s1 ∧ p ∈ s1.posted := by
      simp only [step, hm, htx, if_true]
      exact ⟨_, rfl, by simp⟩
    obtain ⟨s1, hs, hf⟩ := hs
    exact one (by simp [mine]) hs (hpost (h.step hs) hf)
  have hrun : ∀ {s : State}, Reach step {} s → p ∈ s.running → ∃ ls s', (∀ l ∈ ls, mine p l = true) ∧
      exec step s ls = .ok s' ∧ .destroy p ∈ s'.log := by
    intro s h hm
    have hs : ∃ s1, step s (.executed p) = .ok s1 ∧ p ∈ s1.finished := by
      simp only [step, hm, if_true]
      exact ⟨_, rfl, by simp⟩
    obtain ⟨s1, hs, hf⟩ := hs
    exact one (by simp [mine]) hs (hfd (h.step hs) hf)
  have hst : ∀ {s : State}, Reach step {} s → p ∈ s.starting → ∃ ls s', (∀ l ∈ ls, mine p l = true) ∧
      exec step s ls = .ok s' ∧ .destroy p ∈ s'.log := by
    intro s h hm
    obtain ⟨tx, htx⟩ := alive_of_mem ((inv_reach h).2 p) (by have := count_of_mem hm; omega)
    have hs : ∃ s1, step s (.exec p) = .ok s1 ∧ p ∈ s1.running := by
      simp only [step, hm, htx, if_true]
      exact ⟨_, rfl, by simp⟩
    obtain ⟨s1, hs, hf⟩ := hs
    exact one (by simp [mine]) hs (hrun (h.step hs) hf)
  by_cases h1 : p ∈ s.queue
  · obtain ⟨tx, htx⟩ := alive_of_mem ((inv_reach h).2 p) (by have := count_of_mem h1; omega)
    cases hc : tx.cancelled with
    | true =>
      have hs : ∃ s1, step s (.check p) = .ok s1 ∧ p ∈ s1.finished := by
        simp only [step, h1, htx, hc, if_true]
        exact ⟨_, rfl, by simp⟩
      obtain ⟨s1, hs, hf⟩ := hs
      exact one (by simp [mine]) hs (hfd (h.step hs) hf)
    | false =>
      have hs : ∃ s1, step s (.check p) = .ok s1 ∧ p ∈ s1.starting := by
        simp only [step, h1, htx, hc, if_true, Bool.false_eq_true, if_false]
        exact ⟨_, rfl, by simp⟩
      obtain ⟨s1, hs, hf⟩ := hs
      exact one (by simp [mine]) hs (hst (h.step hs) hf)
  · by_cases h2 : p ∈ s.starting
    · exact hst h h2
    · by_cases h3 : p ∈ s.running
      · exact hrun h h3
      · by_cases h4 : p ∈ s.finished
        · exact hfd h h4
        · by_cases h5 : p ∈ s.posted
          · exact hpost h h5
          · by_cases h6 : p ∈ s.finishing
            · exact hfin h h6
            · have := C25_destroy h hp h1 h2 h3 h4 h5 h6
              exact absurd (List.count_pos_iff.1 (by omega)) hd

/-- Unless gbinder_ipc_exit gets in the way, a call which hasn't been cancelled is completed before
it's destroyed. -/
theorem C25_completed {s : State} (h : ReachIf step (fun _ l => ∀ p, l ≠ .flush p) {} s) {p : Nat}
    (hd : .destroy p ∈ s.log) : .done p ∈ s.log ∨ .cancel p ∈ s.log := by
  suffices hi : (∀ p tx, s.txs p = some tx → tx.cancelled = true → .cancel p ∈ s.log) ∧
      (∀ p, p ∈ s.finishing → .done p ∈ s.log ∨ .cancel p ∈ s.log) ∧
      (∀ p, .destroy p ∈ s.log → .done p ∈ s.log ∨ .cancel p ∈ s.log) from hi.2.2 p hd
  clear hd p
  induction h with
  | init =>
    exact ⟨(fun p tx h => by cases h), (fun p h => by cases h), (fun p h => by cases h)⟩
  | @step s s' l _ hok hs ih =>
    obtain ⟨i1, i2, i3⟩ := ih
    cases l with
    | flush p => exact absurd rfl (hok p)
    | submit =>
      simp only [step] at hs
      split at hs
      · cases hs
      · cases hs
        simp only [List.mem_append, List.mem_singleton]
        refine ⟨?_, ?_, ?_⟩
        · intro p tx htx hc
          by_cases hp : p = s.calls
          · subst hp; rw [upd_same] at htx; cases htx; cases hc
          · rw [upd_ne _ _ hp] at htx; exact .inl (i1 p tx htx hc)
        · intro p hp; have := i2 p hp; grind
        · intro p hp; have := i3 p; grind
    | check q | executed q | post q =>
      simp only [step] at hs
      (repeat' split at hs) <;> first | cases hs | skip
      all_goals exact ⟨i1, i2, i3⟩
    | exec q =>
      simp only [step] at hs
      split at hs
      · split at hs
        · cases hs
          simp only [List.mem_append, List.mem_singleton]
          exact ⟨fun p tx h1 h2 => .inl (i1 p tx h1 h2), (by intro p hp; have := i2 p hp; grind), (by intro p hp; have := i3 p; grind)⟩
        · cases hs
      · cases hs
    | done q =>
      simp only [step] at hs
      split at hs
      · split at hs
        · rename_i tx htx
          cases hs
          simp only
          split
          · rename_i hc
            refine ⟨i1, ?_, i3⟩
            intro p hp
            rcases List.mem_cons.1 hp with hp | hp
            · subst hp; exact .inr (i1 p tx htx hc)
            · exact i2 p hp
          · simp only [List.mem_append, List.mem_singleton]
            refine ⟨fun p tx h1 h2 => .inl (i1 p tx h1 h2), ?_, (by intro p hp; have := i3 p; grind)⟩
            intro p hp
            rcases List.mem_cons.1 hp with hp | hp
            · subst hp; exact .inl (.inr rfl)
            · have := i2 p hp; grind
        · cases hs
      · cases hs
    | free q =>
      simp only [step] at hs
      split at hs
      · rename_i hq
        split at hs
        · cases hs
          simp only [List.mem_append, List.mem_singleton]
          refine ⟨?_, ?_, ?_⟩
          · intro p tx htx hc
            by_cases hp : p = q
            · subst hp; rw [upd_same] at htx; cases htx
            · rw [upd_ne _ _ hp] at htx; exact .inl (i1 p tx htx hc)
          · intro p hp; have := i2 p (List.mem_of_mem_erase hp); grind
          · intro p hp
            have := i3 p
            have := i2 q hq
            grind
        · cases hs
      · cases hs
    | cancel id =>
      simp only [step] at hs
      split at hs
      · rename_i x q hf
        split at hs
        · rename_i tx htx
          cases hs
          simp only [List.mem_append, List.mem_singleton]
          refine ⟨?_, ?_, ?_⟩
          · intro p tx' htx' hc
            by_cases hp : p = q
            · subst hp; exact .inr rfl
            · rw [upd_ne _ _ hp] at htx'; exact .inl (i1 p tx' htx' hc)
          · intro p hp; have := i2 p hp; grind
          · intro p hp; have := i3 p; grind
        · cases hs
      · cases hs
        exact ⟨i1, i2, i3⟩

/-- gbinder_client_transact either returns zero, and nothing happens (and neither of the callbacks
is ever called), or it submits one transaction. It's zero if there's no client, the object is dead or there's no request,
neither an explicit nor a default one. -/
theorem C25_client {s : State} (h : Reach step {} s) {self dead req dflt : Bool} {id : Nat} {s' : State}
    (hc : clientTransact self dead req dflt s = some (id, s')) :
    (id = 0 ∧ s' = s ∧ (self = false ∨ dead = true ∨ (req = false ∧ dflt = false))) ∨
    (id ≠ 0 ∧ s'.calls = s.calls + 1 ∧ s'.log = s.log ++ [.submit s.calls id] ∧ Reach step {} s' ∧
      self = true ∧ dead = false ∧ (req = true ∨ dflt = true)) := by
  unfold clientTransact at hc
  split at hc
  · rename_i hx
    cases hs : step s .submit with
    | no => rw [hs] at hc; cases hc
    | ub => rw [hs] at hc; cases hc
    | ok s1 =>
      rw [hs] at hc
      have hr := h.step hs
      simp only [step] at hs
      split at hs
      · cases hs
      · rename_i id1 next hg
        cases hs
        simp only [upd_same, Option.map_some, Option.some.injEq, Prod.mk.injEq] at hc
        obtain ⟨hi, hs⟩ := hc
        subst hi hs
        have := getId_some (inv_reach h).1.next hg
        exact .inr ⟨by omega, rfl, rfl, hr, hx⟩
  · rename_i hx
    cases hc
    exact .inl ⟨rfl, rfl, by cases self <;> cases dead <;> cases req <;> cases dflt <;> simp_all⟩

/-- Two calls, one of which gets cancelled while it's being executed. -/
def demo : List Label :=
  [.submit, .submit, .check 0, .exec 0, .check 1, .cancel 2, .executed 0, .exec 1, .post 0, .done 0,
    .free 0, .executed 1, .post 1, .done 1, .free 1]

example : (exec step {} demo).holds (fun s => s.calls = 2 ∧ s.log =
    [.submit 0 1, .submit 1 2, .exec 0, .cancel 1, .exec 1, .done 0, .destroy 0, .destroy 1] ∧
    s.finishing = []) = true := by
  decide +kernel

/-- And one which is flushed by gbinder_ipc_exit. -/
example : (exec step {} [.submit, .check 0, .exec 0, .executed 0, .post 0, .flush 0, .free 0]).holds
    (fun s => s.log = [.submit 0 1, .exec 0, .destroy 0]) = true := by
  decide +kernel

example : (clientTransact true false true false {}).map (fun x => (x.1, x.2.log)) = some (1, [.submit 0 1]) := by
  decide +kernel

example : (clientTransact true true true true {}).map (fun x => (x.1, x.2.log)) = some (0, []) := by
  decide +kernel

end Gb.C25
