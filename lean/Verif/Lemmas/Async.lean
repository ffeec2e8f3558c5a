import Verif.Spec.Async
/-
Helper lemmas about asynchronous transactions.
-/
set_option autoImplicit false

namespace Gb.Async

theorem track_append (p : Nat) (l : Life) (a : List Ev) (e : Ev) :
    track p l (a ++ [e]) = (track p l a).bind (·.next p e) := by
  induction a generalizing l with
  | nil =>
    simp only [List.nil_append, track, Option.bind_some]
    cases l.next p e <;> rfl
  | cons x a ih =>
    simp only [List.cons_append, track]
    cases l.next p x with
    | none => rfl
    | some l' => exact ih l'

/-- What the event is about. -/
def Ev.who : Ev → Nat
  | .submit p _ => p
  | .exec p => p
  | .done p => p
  | .destroy p => p
  | .cancel p => p

theorem next_other {p : Nat} {l : Life} {e : Ev} (h : e.who ≠ p) : l.next p e = some l := by
  cases e <;> simp only [Ev.who] at h <;> cases l <;> simp [Life.next, h] <;>
    rename_i a b c <;> cases a <;> cases b <;> cases c <;> simp [Life.next, h]

theorem newId_range {next : Nat} (h : next < 2 ^ 32) :
    0 < (newId next).1 ∧ (newId next).1 < 2 ^ 32 ∧ (newId next).2 < 2 ^ 32 := by
  unfold newId
  simp only
  split
  · simp only; omega
  · simp only; omega

theorem getId_some {used : List Nat} {n next id next' : Nat} (h : next < 2 ^ 32)
    (hg : getId used n next = some (id, next')) :
    id ∉ used ∧ 0 < id ∧ id < 2 ^ 32 ∧ next' < 2 ^ 32 := by
  induction n generalizing next with
  | zero => cases hg
  | succ n ih =>
    have hr := newId_range h
    simp only [getId] at hg
    split at hg
    · exact ih hr.2.2 hg
    · rename_i h1
      cases hg
      exact ⟨by simpa using h1, hr⟩

structure Tab (s : State) : Prop where
  next : s.next < 2 ^ 32
  nodup : (s.table.map (·.1)).Nodup
  mem : ∀ id p, (id, p) ∈ s.table ↔ ∃ tx, s.txs p = some tx ∧ tx.id = id
  range : ∀ id p, (id, p) ∈ s.table → 0 < id ∧ id < 2 ^ 32
  fresh : ∀ p, s.calls ≤ p → s.txs p = none

theorem unique {s : State} (h : Tab s) {id p q : Nat} (hp : (id, p) ∈ s.table) (hq : (id, q) ∈ s.table) :
    p = q := by
  have hn := h.nodup
  generalize s.table = l at hp hq hn
  induction l with
  | nil => cases hp
  | cons a l ih =>
    simp only [List.map_cons, List.nodup_cons, List.mem_map, not_exists, not_and] at hn
    rcases List.mem_cons.1 hp with hp | hp <;> rcases List.mem_cons.1 hq with hq | hq
    · rw [← hp] at hq; cases hq; rfl
    · exact absurd (by rw [← hp]) (hn.1 _ hq)
    · exact absurd (by rw [← hq]) (hn.1 _ hp)
    · exact ih hp hq hn.2

theorem tab_same {s s' : State} (h : Tab s) (h1 : s'.next = s.next) (h2 : s'.table = s.table)
    (h3 : s'.txs = s.txs) (h4 : s'.calls = s.calls) : Tab s' := by
  obtain ⟨a, b, c, d, e⟩ := h
  refine ⟨?_, ?_, ?_, ?_, ?_⟩
  · rw [h1]; exact a
  · rw [h2]; exact b
  · rw [h2, h3]; exact c
  · rw [h2]; exact d
  · rw [h3, h4]; exact e

theorem tab_step {s s' : State} {l : Label} (h : Tab s) (hs : step s l = .ok s') : Tab s' := by
  cases l with
  | submit =>
    simp only [step] at hs
    split at hs
    · cases hs
    · rename_i id next hg
      cases hs
      obtain ⟨h1, h2, h3, h4⟩ := getId_some h.next hg
      refine ⟨h4, ?_, ?_, ?_, ?_⟩
      · simp only [List.map_cons, List.nodup_cons]
        exact ⟨h1, h.nodup⟩
      · intro id' p
        simp only [List.mem_cons]
        have hf := h.fresh s.calls (Nat.le_refl _)
        by_cases hp : p = s.calls
        · subst hp
          rw [upd_same]
          constructor
          · rintro (hp | hp)
            · cases hp; exact ⟨_, rfl, rfl⟩
            · obtain ⟨tx, htx, _⟩ := (h.mem _ _).1 hp
              rw [hf] at htx; cases htx
          · rintro ⟨tx, htx, hid⟩
            cases htx; cases hid; exact .inl rfl
        · rw [upd_ne _ _ hp]
          constructor
          · rintro (hq | hq)
            · cases hq; exact absurd rfl hp
            · exact (h.mem _ _).1 hq
          · intro hq; exact .inr ((h.mem _ _).2 hq)
      · intro id' p hp
        rcases List.mem_cons.1 hp with hp | hp
        · cases hp; exact ⟨h2, h3⟩
        · exact h.range _ _ hp
      · intro p hp
        simp only at hp ⊢
        rw [upd_ne _ _ (by omega)]
        exact h.fresh p (by omega)
  | check p =>
    simp only [step] at hs
    (repeat' split at hs) <;> first | cases hs | skip
    all_goals exact tab_same h rfl rfl rfl rfl
  | exec p =>
    simp only [step] at hs
    (repeat' split at hs) <;> first | cases hs | skip
    all_goals exact tab_same h rfl rfl rfl rfl
  | executed p =>
    simp only [step] at hs
    (repeat' split at hs) <;> first | cases hs | skip
    all_goals exact tab_same h rfl rfl rfl rfl
  | post p =>
    simp only [step] at hs
    (repeat' split at hs) <;> first | cases hs | skip
    all_goals exact tab_same h rfl rfl rfl rfl
  | done p =>
    simp only [step] at hs
    (repeat' split at hs) <;> first | cases hs | skip
    all_goals exact tab_same h rfl rfl rfl rfl
  | flush p =>
    simp only [step] at hs
    (repeat' split at hs) <;> first | cases hs | skip
    all_goals exact tab_same h rfl rfl rfl rfl
  | free p =>
    simp only [step] at hs
    split at hs
    · split at hs
      · rename_i tx htx
        cases hs
        refine ⟨h.next, ?_, ?_, ?_, ?_⟩
        · exact (List.filter_sublist.map _).nodup h.nodup
        · intro id q
          simp only [List.mem_filter, decide_eq_true_eq, ne_eq]
          by_cases hq : q = p
          · subst hq
            rw [upd_same]
            constructor
            · rintro ⟨h1, h2⟩
              obtain ⟨tx', h3, h4⟩ := (h.mem _ _).1 h1
              rw [htx] at h3; cases h3; exact absurd h4.symm h2
            · rintro ⟨tx', h3, h4⟩; cases h3
          · rw [upd_ne _ _ hq]
            constructor
            · rintro ⟨h1, h2⟩; exact (h.mem _ _).1 h1
            · intro h1
              refine ⟨(h.mem _ _).2 h1, ?_⟩
              intro hid
              have h2 := (h.mem tx.id p).2 ⟨tx, htx, rfl⟩
              have h3 := (h.mem id q).2 h1
              rw [hid] at h3
              exact hq (unique h h3 h2)
        · intro id q hq
          exact h.range id q (List.mem_filter.1 hq).1
        · intro q hq
          simp only [upd]
          split
          · rfl
          · exact h.fresh q hq
      · cases hs
    · cases hs
  | cancel id =>
    simp only [step] at hs
    split at hs
    · rename_i x p hf
      split at hs
      · rename_i tx htx
        cases hs
        refine ⟨h.next, h.nodup, ?_, h.range, ?_⟩
        · intro id' q
          rw [h.mem]
          by_cases hq : q = p
          · subst hq
            simp only [upd_same, htx, Option.some.injEq, exists_eq_left']
          · simp only [upd_ne _ _ hq]
        · intro q hq
          have : q ≠ p := by
            intro hqp; subst hqp
            rw [h.fresh q hq] at htx; cases htx
          simp only
          rw [upd_ne _ _ this]
          exact h.fresh q hq
      · cases hs
    · cases hs
      exact h

theorem tab_init : Tab {} :=
  ⟨by decide, List.nodup_nil, (by intro id p; simp), (by intro id p h; cases h), (by intro p _; rfl)⟩

structure At (s : State) (p : Nat) : Prop where
  new : s.calls ≤ p → s.txs p = none ∧ track p .new s.log = some .new
  gone : p < s.calls → s.txs p = none → track p .new s.log = some .gone
  live : ∀ tx, s.txs p = some tx → ∃ e d, track p .new s.log = some (.live e tx.cancelled d) ∧
    (0 < s.queue.count p + s.starting.count p → e = false) ∧
    (0 < s.running.count p → e = true) ∧
    (0 < s.finished.count p + s.posted.count p → e = true ∨ tx.cancelled = true) ∧
    (s.finishing.count p = 0 → d = false)
  sum : s.queue.count p + s.starting.count p + s.running.count p + s.finished.count p +
    s.posted.count p + s.finishing.count p = if (s.txs p).isSome then 1 else 0

theorem at_init (p : Nat) : At {} p :=
  ⟨fun _ => ⟨rfl, rfl⟩, fun h => absurd h (Nat.not_lt_zero _), (fun tx h => by cases h), rfl⟩

theorem count_of_mem {p : Nat} {l : List Nat} (h : p ∈ l) : 0 < l.count p := List.count_pos_iff.2 h

theorem alive_of_mem {s : State} {p : Nat} (h : At s p) (hm : 0 < s.queue.count p + s.starting.count p +
    s.running.count p + s.finished.count p + s.posted.count p + s.finishing.count p) :
    ∃ tx, s.txs p = some tx := by
  have := h.sum
  cases ht : s.txs p with
  | none => rw [ht] at this; simp at this; omega
  | some tx => exact ⟨tx, rfl⟩

theorem count_erase_ne {p q : Nat} (l : List Nat) (h : p ≠ q) : (l.erase q).count p = l.count p :=
  List.count_erase_of_ne h

theorem count_erase_eq {p : Nat} (l : List Nat) : (l.erase p).count p = l.count p - 1 :=
  List.count_erase_self

theorem at_step {s s' : State} {l : Label} (ht : Tab s) (h : ∀ p, At s p) (hs : step s l = .ok s')
    (p : Nat) : At s' p := by
  have hp := h p
  obtain ⟨hnew, hgone, hlive, hsum⟩ := hp
  cases l with
  | submit =>
    simp only [step] at hs
    split at hs
    · cases hs
    · rename_i id next hg
      cases hs
      by_cases hpc : p = s.calls
      · subst hpc
        obtain ⟨h1, h2⟩ := hnew (Nat.le_refl _)
        rw [h1] at hsum
        simp at hsum
        refine ⟨(fun hc => by simp only at hc; omega), (fun _ hc => by simp only [upd_same] at hc; cases hc), ?_, ?_⟩
        · intro tx htx
          simp only [upd_same] at htx
          cases htx
          refine ⟨false, false, ?_, fun _ => rfl, ?_, ?_, fun _ => rfl⟩
          · simp only [track_append, h2, Option.bind_some, Life.next, if_true]
          · simp only; intro h; omega
          · simp only; intro h; omega
        · simp only [upd_same, List.count_append, List.count_singleton_self]
          simp; omega
      · have ho : ∀ x, track p .new s.log = x → track p .new (s.log ++ [.submit s.calls id]) = x := by
          intro x hx
          rw [track_append, hx]
          cases x with
          | none => rfl
          | some l => exact next_other (by simp only [Ev.who]; omega)
        have hc : List.count p [s.calls] = 0 := List.count_eq_zero.2 (by simpa using hpc)
        refine ⟨fun hc => ?_, fun hc hn => ?_, ?_, ?_⟩
        · simp only at hc ⊢
          rw [upd_ne _ _ hpc]
          have := hnew (by omega)
          exact ⟨this.1, ho _ this.2⟩
        · simp only at hc hn ⊢
          rw [upd_ne _ _ hpc] at hn
          exact ho _ (hgone (by omega) hn)
        · intro tx htx
          simp only at htx
          rw [upd_ne _ _ hpc] at htx
          obtain ⟨e, d, h1, h2⟩ := hlive tx htx
          simp only [List.count_append, hc, Nat.add_zero]
          exact ⟨e, d, ho _ h1, h2⟩
        · simp only [List.count_append, hc, Nat.add_zero, upd_ne _ _ hpc]
          exact hsum
  | check q =>
    simp only [step] at hs
    split at hs
    · rename_i hq
      have hq0 := count_of_mem hq
      split at hs
      · rename_i tx htx
        by_cases hpq : p = q
        · subst hpq
          rw [htx] at hsum
          simp only [Option.isSome_some, if_true] at hsum
          obtain ⟨e, d, h1, h2, h3, h4, h5⟩ := hlive tx htx
          split at hs
          · rename_i hcan
            cases hs
            refine ⟨hnew, hgone, ?_, ?_⟩
            · intro tx' htx'
              rw [htx] at htx'; cases htx'
              refine ⟨e, d, h1, ?_, h3, fun _ => .inr hcan, h5⟩
              simp only [count_erase_eq]
              intro _; exact h2 (by omega)
            · simp only [htx, count_erase_eq, List.count_cons_self, Option.isSome_some, if_true]; omega
          · cases hs
            refine ⟨hnew, hgone, ?_, ?_⟩
            · intro tx' htx'
              rw [htx] at htx'; cases htx'
              refine ⟨e, d, h1, ?_, h3, h4, h5⟩
              intro _; exact h2 (by omega)
            · simp only [htx, count_erase_eq, List.count_cons_self, Option.isSome_some, if_true]; omega
        · split at hs <;> cases hs <;>
            exact ⟨hnew, hgone, by
              simp only [count_erase_ne _ hpq, List.count_cons_of_ne (Ne.symm hpq)]; exact hlive, by
              simp only [count_erase_ne _ hpq, List.count_cons_of_ne (Ne.symm hpq)]; exact hsum⟩
      · cases hs
    · cases hs
  | exec q =>
    simp only [step] at hs
    split at hs
    · rename_i hq
      have hq0 := count_of_mem hq
      split at hs
      · rename_i tx htx
        cases hs
        by_cases hpq : p = q
        · subst hpq
          rw [htx] at hsum
          simp only [Option.isSome_some, if_true] at hsum
          obtain ⟨e, d, h1, h2, h3, h4, h5⟩ := hlive tx htx
          have he := h2 (by omega)
          have hd := h5 (by omega)
          subst he hd
          refine ⟨fun hc => ?_, fun _ hn => ?_, ?_, ?_⟩
          · have := (hnew hc).1; rw [this] at htx; cases htx
          · simp only at hn; rw [hn] at htx; cases htx
          · intro tx' htx'
            rw [htx] at htx'; cases htx'
            refine ⟨true, false, ?_, ?_, fun _ => rfl, fun _ => .inl rfl, fun _ => rfl⟩
            · simp only [track_append, h1, Option.bind_some]
              cases tx.cancelled <;> simp [Life.next]
            · simp only [count_erase_eq]
              intro _; omega
          · simp only [htx, count_erase_eq, List.count_cons_self, Option.isSome_some, if_true]; omega
        · have ho : track p .new (s.log ++ [.exec q]) = track p .new s.log := by
            rw [track_append]
            cases track p .new s.log with
            | none => rfl
            | some l => exact next_other (by simp only [Ev.who]; omega)
          exact ⟨by simp only [ho]; exact hnew, by simp only [ho]; exact hgone, by
            simp only [ho, count_erase_ne _ hpq, List.count_cons_of_ne (Ne.symm hpq)]; exact hlive, by
            simp only [count_erase_ne _ hpq, List.count_cons_of_ne (Ne.symm hpq)]; exact hsum⟩
      · cases hs
    · cases hs
  | executed q =>
    simp only [step] at hs
    split at hs
    · rename_i hq
      have hq0 := count_of_mem hq
      cases hs
      by_cases hpq : p = q
      · subst hpq
        refine ⟨hnew, hgone, ?_, ?_⟩
        · intro tx htx
          obtain ⟨e, d, h1, h2, h3, h4, h5⟩ := hlive tx htx
          refine ⟨e, d, h1, h2, fun _ => h3 (by omega), fun _ => .inl (h3 (by omega)), h5⟩
        · simp only [count_erase_eq, List.count_cons_self]; omega
      · exact ⟨hnew, hgone, by
          simp only [count_erase_ne _ hpq, List.count_cons_of_ne (Ne.symm hpq)]; exact hlive, by
          simp only [count_erase_ne _ hpq, List.count_cons_of_ne (Ne.symm hpq)]; exact hsum⟩
    · cases hs
  | post q =>
    simp only [step] at hs
    split at hs
    · rename_i hq
      have hq0 := count_of_mem hq
      split at hs
      · cases hs
        by_cases hpq : p = q
        · subst hpq
          refine ⟨hnew, hgone, ?_, ?_⟩
          · intro tx htx
            obtain ⟨e, d, h1, h2, h3, h4, h5⟩ := hlive tx htx
            exact ⟨e, d, h1, h2, h3, fun _ => h4 (by omega), h5⟩
          · simp only [count_erase_eq, List.count_cons_self]; omega
        · exact ⟨hnew, hgone, by
            simp only [count_erase_ne _ hpq, List.count_cons_of_ne (Ne.symm hpq)]; exact hlive, by
            simp only [count_erase_ne _ hpq, List.count_cons_of_ne (Ne.symm hpq)]; exact hsum⟩
      · cases hs
    · cases hs
  | done q =>
    simp only [step] at hs
    split at hs
    · rename_i hq
      have hq0 := count_of_mem hq
      split at hs
      · rename_i tx htx
        cases hs
        by_cases hpq : p = q
        · subst hpq
          rw [htx] at hsum
          simp only [Option.isSome_some, if_true] at hsum
          obtain ⟨e, d, h1, h2, h3, h4, h5⟩ := hlive tx htx
          have hd := h5 (by omega)
          have he := h4 (by omega)
          subst hd
          refine ⟨fun hc => ?_, fun _ hn => ?_, ?_, ?_⟩
          · have := (hnew hc).1; rw [this] at htx; cases htx
          · simp only at hn; rw [hn] at htx; cases htx
          · intro tx' htx'
            rw [htx] at htx'; cases htx'
            by_cases hcan : tx.cancelled = true
            · simp only [hcan, if_true]
              rw [hcan] at h1
              exact ⟨e, false, h1, h2, h3, fun _ => .inr trivial, fun _ => rfl⟩
            · have hcan : tx.cancelled = false := by simpa using hcan
              rw [hcan] at h1 he
              simp only [hcan, Bool.false_eq_true, if_false]
              rcases he with he | he
              · subst he
                refine ⟨true, true, ?_, h2, h3, fun _ => .inl rfl, ?_⟩
                · simp only [track_append, h1, Option.bind_some, Life.next, if_true]
                · simp only [List.count_cons_self]
                  intro h; omega
              · cases he
          · simp only [htx, count_erase_eq, List.count_cons_self, Option.isSome_some, if_true]; omega
        · have ho : track p .new (if tx.cancelled = true then s.log else s.log ++ [.done q]) = track p .new s.log := by
            split
            · rfl
            rw [track_append]
            cases track p .new s.log with
            | none => rfl
            | some l => exact next_other (by simp only [Ev.who]; omega)
          exact ⟨by simp only [ho]; exact hnew, by simp only [ho]; exact hgone, by
            simp only [ho, count_erase_ne _ hpq, List.count_cons_of_ne (Ne.symm hpq)]; exact hlive, by
            simp only [count_erase_ne _ hpq, List.count_cons_of_ne (Ne.symm hpq)]; exact hsum⟩
      · cases hs
    · cases hs
  | flush q =>
    simp only [step] at hs
    split at hs
    · rename_i hq
      have hq0 := count_of_mem hq.2.2.2.2
      split at hs
      · rename_i tx htx
        cases hs
        by_cases hpq : p = q
        · subst hpq
          rw [htx] at hsum
          simp only [Option.isSome_some, if_true] at hsum
          refine ⟨hnew, hgone, ?_, ?_⟩
          · intro tx' htx'
            obtain ⟨e, d, h1, h2, h3, h4, h5⟩ := hlive tx' htx'
            have hd := h5 (by omega)
            exact ⟨e, d, h1, h2, h3, fun _ => h4 (by omega), fun _ => hd⟩
          · simp only [htx, count_erase_eq, List.count_cons_self, Option.isSome_some, if_true]; omega
        · exact ⟨hnew, hgone, by
            simp only [count_erase_ne _ hpq, List.count_cons_of_ne (Ne.symm hpq)]; exact hlive, by
            simp only [count_erase_ne _ hpq, List.count_cons_of_ne (Ne.symm hpq)]; exact hsum⟩
      · cases hs
    · cases hs
  | free q =>
    simp only [step] at hs
    split at hs
    · rename_i hq
      have hq0 := count_of_mem hq
      split at hs
      · rename_i tx htx
        cases hs
        by_cases hpq : p = q
        · subst hpq
          rw [htx] at hsum
          simp only [Option.isSome_some, if_true] at hsum
          obtain ⟨e, d, h1, _⟩ := hlive tx htx
          refine ⟨fun hc => ?_, fun _ _ => ?_, fun tx' htx' => ?_, ?_⟩
          · have := (hnew hc).1; rw [this] at htx; cases htx
          · simp only [track_append, h1, Option.bind_some]
            cases e <;> cases tx.cancelled <;> cases d <;> simp [Life.next]
          · simp only [upd_same] at htx'; cases htx'
          · simp only [upd_same, count_erase_eq, Option.isSome_none, Bool.false_eq_true, if_false]; omega
        · have ho : track p .new (s.log ++ [.destroy q]) = track p .new s.log := by
            rw [track_append]
            cases track p .new s.log with
            | none => rfl
            | some l => exact next_other (by simp only [Ev.who]; omega)
          refine ⟨?_, ?_, ?_, ?_⟩
          · simp only [ho, upd_ne _ _ hpq]; exact hnew
          · simp only [ho, upd_ne _ _ hpq]; exact hgone
          · simp only [ho, upd_ne _ _ hpq, count_erase_ne _ hpq]; exact hlive
          · simp only [upd_ne _ _ hpq, count_erase_ne _ hpq]; exact hsum
      · cases hs
    · cases hs
  | cancel id =>
    simp only [step] at hs
    split at hs
    · rename_i x q hf
      split at hs
      · rename_i tx htx
        cases hs
        by_cases hpq : p = q
        · subst hpq
          rw [htx] at hsum
          refine ⟨fun hc => ?_, fun _ hn => ?_, ?_, ?_⟩
          · have := (hnew hc).1; rw [this] at htx; cases htx
          · simp only [upd_same] at hn; cases hn
          · intro tx' htx'
            simp only [upd_same] at htx'
            cases htx'
            obtain ⟨e, d, h1, h2, h3, h4, h5⟩ := hlive tx htx
            refine ⟨e, d, ?_, h2, h3, fun _ => .inr rfl, h5⟩
            simp only [track_append, h1, Option.bind_some]
            cases e <;> cases tx.cancelled <;> cases d <;> simp [Life.next]
          · simp only [upd_same, Option.isSome_some]; exact hsum
        · have ho : track p .new (s.log ++ [.cancel q]) = track p .new s.log := by
            rw [track_append]
            cases track p .new s.log with
            | none => rfl
            | some l => exact next_other (by simp only [Ev.who]; omega)
          refine ⟨?_, ?_, ?_, ?_⟩
          · simp only [ho, upd_ne _ _ hpq]; exact hnew
          · simp only [ho, upd_ne _ _ hpq]; exact hgone
          · simp only [ho, upd_ne _ _ hpq]; exact hlive
          · simp only [upd_ne _ _ hpq]; exact hsum
      · cases hs
    · cases hs
      exact h p

theorem inv_reach {s : State} (h : Reach step {} s) : Tab s ∧ ∀ p, At s p := by
  refine Reach.invariant (P := fun s => Tab s ∧ ∀ p, At s p) ⟨tab_init, at_init⟩ ?_ h
  intro s l s' hi hs
  exact ⟨tab_step hi.1 hs, at_step hi.1 hi.2 hs⟩

end Gb.Async
