import Verif.Lemmas.EventLoopStep
/-
C62: what the log tells.
-/
set_option autoImplicit false

namespace Gb.EventLoop

theorem snoc_induction {α : Type} {P : List α → Prop} (h0 : P []) (h1 : ∀ l a, P l → P (l ++ [a])) (l : List α) : P l := by
  have : ∀ r : List α, P r.reverse := by
    intro r
    induction r with
    | nil => exact h0
    | cons a r ih => rw [List.reverse_cons]; exact h1 _ _ ih
  have := this l.reverse
  rwa [List.reverse_reverse] at this

theorem next_none (c : Nat) (es : List Ev) : es.foldl (next c) none = none := by
  induction es with
  | nil => rfl
  | cons e es ih => exact ih

/-- What the log tells about the calls. -/
def Counts (c : Nat) (log : List Ev) : Life → Prop
  | .none => log.count (.func c) = 0 ∧ log.count (.final c) = 0 ∧ log.count (.freed c) = 0 ∧ ∀ f g k, .made c f g k ∉ log
  | .live v => log.count (.func c) = v.called.toNat ∧ log.count (.final c) = v.final.toNat ∧ log.count (.freed c) = 0 ∧
      ∀ f g k, .made c f g k ∈ log → v.func = f ∧ v.fin = g ∧ v.later = k
  | .freed => log.count (.func c) ≤ 1 ∧ log.count (.final c) ≤ 1 ∧ log.count (.freed c) = 1 ∧
      ∀ f g k, .made c f g k ∈ log → log.count (.final c) = g.toNat ∧ (k = true → log.count (.func c) = f.toNat)

theorem Counts.other {c : Nat} {log : List Ev} {l : Life} (h : Counts c log l) {e : Ev} (h1 : e ≠ .func c) (h2 : e ≠ .final c)
    (h3 : e ≠ .freed c) (h4 : ∀ f g k, e ≠ .made c f g k) : Counts c (log ++ [e]) l := by
  have e1 : (log ++ [e]).count (.func c) = log.count (.func c) := by simp [List.count_append, List.count_singleton, h1]
  have e2 : (log ++ [e]).count (.final c) = log.count (.final c) := by simp [List.count_append, List.count_singleton, h2]
  have e3 : (log ++ [e]).count (.freed c) = log.count (.freed c) := by simp [List.count_append, List.count_singleton, h3]
  have e4 : ∀ f g k, .made c f g k ∈ log ++ [e] ↔ .made c f g k ∈ log := by
    intro f g k
    simp only [List.mem_append, List.mem_singleton]
    exact ⟨fun h => h.resolve_right fun he => h4 f g k he.symm, .inl⟩
  cases l <;> simp only [Counts, e1, e2, e3, e4] at h ⊢ <;> exact h

theorem Counts.live {c : Nat} {log : List Ev} {v w : View} (h : Counts c log (.live v)) (h1 : w.called = v.called)
    (h2 : w.final = v.final) (h3 : w.func = v.func) (h4 : w.fin = v.fin) (h5 : w.later = v.later) :
    Counts c log (.live w) := by
  simp only [Counts, h1, h2, h3, h4, h5] at h ⊢
  exact h

theorem counts_step {c : Nat} {log : List Ev} {l0 l : Life} {e : Ev} (h : Counts c log l0) (hl : next c (some l0) e = some l) :
    Counts c (log ++ [e]) l := by
  cases e with
  | func d =>
    by_cases hd : d = c
    · subst hd
      cases l0 <;> simp only [next, if_true] at hl <;> try (cases hl; done)
      split at hl <;> cases hl
      rename_i v hc
      simp only [Counts] at h ⊢
      refine ⟨by simp [List.count_append, h, hc.2.2.1], by simp [List.count_append, List.count_singleton, h],
        by simp [List.count_append, List.count_singleton, h], fun f g k hm => h.2.2.2 f g k (by simpa using hm)⟩
    · simp only [next, hd, if_false] at hl
      cases hl
      exact h.other (by simpa using hd) (by simp) (by simp) (by simp)
  | final d =>
    by_cases hd : d = c
    · subst hd
      cases l0 <;> simp only [next, if_true] at hl <;> try (cases hl; done)
      split at hl <;> cases hl
      rename_i v hc
      simp only [Counts] at h ⊢
      refine ⟨by simp [List.count_append, List.count_singleton, h], by simp [List.count_append, h, hc.2.1],
        by simp [List.count_append, List.count_singleton, h], fun f g k hm => h.2.2.2 f g k (by simpa using hm)⟩
    · simp only [next, hd, if_false] at hl
      cases hl
      exact h.other (by simp) (by simpa using hd) (by simp) (by simp)
  | freed d =>
    by_cases hd : d = c
    · subst hd
      cases l0 <;> simp only [next, if_true] at hl <;> try (cases hl; done)
      split at hl <;> cases hl
      rename_i v hc
      simp only [Counts] at h ⊢
      obtain ⟨h1, h2, h3, h4⟩ := h
      refine ⟨?_, ?_, ?_, ?_⟩
      · simp only [List.count_append, List.count_singleton, h1]; cases v.called <;> simp
      · simp only [List.count_append, List.count_singleton, h2]; cases v.final <;> simp
      · simp [List.count_append, h3]
      · intro f g k hm
        have hm : .made d f g k ∈ log := by simpa using hm
        obtain ⟨q1, q2, q3⟩ := h4 f g k hm
        subst q1 q2 q3
        refine ⟨?_, fun hk => ?_⟩
        · simp [List.count_append, List.count_singleton, h2, hc.2.2.1]
        · simp [List.count_append, List.count_singleton, h1, hc.2.2.2 hk]
    · simp only [next, hd, if_false] at hl
      cases hl
      exact h.other (by simp) (by simp) (by simpa using hd) (by simp)
  | made d f g k =>
    by_cases hd : d = c
    · subst hd
      simp only [next, if_true] at hl
      split at hl <;> cases hl
      rename_i hn
      subst hn
      obtain ⟨h1, h2, h3, h4⟩ := h
      refine ⟨?_, ?_, ?_, ?_⟩
      · simp [List.count_append, List.count_singleton, h1]
      · simp [List.count_append, List.count_singleton, h2]
      · simp [List.count_append, List.count_singleton, h3]
      · intro f' g' k' hm
        rcases List.mem_append.1 hm with hm | hm
        · exact absurd hm (h4 _ _ _)
        · cases List.mem_singleton.1 hm; exact ⟨rfl, rfl, rfl⟩
    · simp only [next, hd, if_false] at hl
      cases hl
      exact h.other (by simp) (by simp) (by simp) (by intro f' g' k' he; cases he; exact hd rfl)
  | asked k op d =>
    have h' := h.other (e := .asked k op d) (by simp) (by simp) (by simp) (by simp)
    by_cases hd : d = c
    · subst hd
      simp only [next, if_true] at hl
      split at hl
      · split at hl <;> cases hl
        exact h'
      · split at hl
        · rename_i v
          obtain ⟨w, hw, rfl⟩ := Option.map_eq_some_iff.1 hl
          refine h'.live ?_ ?_ ?_ ?_ ?_ <;>
            (cases op <;> simp only [nextLive] at hw <;> (repeat' split at hw) <;> cases hw <;> rfl)
        · cases hl
    · simp only [next, hd, if_false] at hl
      cases hl
      exact h'
  | start d =>
    have h' := h.other (e := .start d) (by simp) (by simp) (by simp) (by simp)
    by_cases hd : d = c
    · subst hd
      cases l0 <;> simp only [next, if_true] at hl <;> try (cases hl; done)
      split at hl <;> cases hl
      exact h'.live rfl rfl rfl rfl rfl
    · simp only [next, hd, if_false] at hl
      cases hl
      exact h'
  | stop d =>
    have h' := h.other (e := .stop d) (by simp) (by simp) (by simp) (by simp)
    by_cases hd : d = c
    · subst hd
      cases l0 <;> simp only [next, if_true] at hl <;> try (cases hl; done)
      split at hl <;> cases hl
      exact h'.live rfl rfl rfl rfl rfl
    · simp only [next, hd, if_false] at hl
      cases hl
      exact h'
  | _ =>
    simp only [next] at hl
    cases hl
    exact h.other (by simp) (by simp) (by simp) (by simp)

theorem counts (c : Nat) (log : List Ev) : ∀ l, life c log = some l → Counts c log l := by
  refine snoc_induction (P := fun log => ∀ l, life c log = some l → Counts c log l) ?_ ?_ log
  · intro l hl; cases hl; simp [Counts]
  · intro log e ih l hl
    unfold life at hl
    rw [List.foldl_append] at hl
    cases hl0 : life c log with
    | none => unfold life at hl0; rw [hl0] at hl; cases hl
    | some l0 =>
      have := ih l0 hl0
      unfold life at hl0
      rw [hl0] at hl
      simp only [List.foldl_cons, List.foldl_nil] at hl
      exact counts_step this hl

/-- The function isn't going to be called any more. -/
def Quiet : Life → Prop
  | .none => False
  | .live v => v.stage = .over ∨ v.stage = .running ∧ (v.called = true ∨ v.func = false)
  | .freed => True

theorem quiet_step {c : Nat} {l l' : Life} (h : Quiet l) {e : Ev} (he : next c (some l) e = some l') :
    Quiet l' ∧ e ≠ .func c := by
  cases l with
  | none => exact h.elim
  | freed =>
    cases e <;> simp only [next] at he <;> (repeat' split at he) <;> first | (cases he; done) | (cases he; simp_all [Quiet])
  | live v =>
    simp only [Quiet] at h
    cases e <;> simp only [next] at he <;> (repeat' split at he) <;> first
      | (cases he; done)
      | (cases he; simp_all [Quiet]; done)
      | (obtain ⟨w, hw, rfl⟩ := Option.map_eq_some_iff.1 he
         rename_i op _ _ _
         cases op <;> simp only [nextLive] at hw <;> (repeat' split at hw) <;> cases hw <;> simp_all [Quiet])

theorem quiet_func {c : Nat} {l : Life} (h : Quiet l) {es : List Ev} (hs : (es.foldl (next c) (some l)).isSome = true) :
    .func c ∉ es := by
  induction es generalizing l with
  | nil => simp
  | cons e es ih =>
    rw [List.foldl_cons] at hs
    cases hn : next c (some l) e with
    | none => rw [hn, next_none] at hs; cases hs
    | some l' =>
      rw [hn] at hs
      obtain ⟨h1, h2⟩ := quiet_step h hn
      intro hm
      rcases List.mem_cons.1 hm with hm | hm
      · exact h2 hm.symm
      · exact ih h1 hs hm

theorem then_log {x : Option Src} {l : List Ev} {f : Option Src → Done} {y : Option Src} {m : List Ev}
    (h : Done.then (.ok (x, l)) f = .ok (y, m)) : ∃ m', m = l ++ m' := by
  simp only [Done.then] at h
  split at h
  · cases h; exact ⟨_, rfl⟩
  · cases h
  · cases h

theorem put_log {s s' : State} {c : Nat} {o : Done} (h : s.put c o = .ok s') : ∃ es, s'.log = s.log ++ es := by
  unfold State.put at h
  split at h
  · cases h; exact ⟨_, rfl⟩
  · cases h
  · cases h

theorem tmoUnref_log {s s' : State} {t : Nat} (h : s.tmoUnref t = .ok s') : ∃ es, s'.log = s.log ++ es := by
  unfold State.tmoUnref at h
  split at h
  · cases h
  · split at h
    · cases h
    · split at h
      · cases h; exact ⟨_, rfl⟩
      · cases h; exact ⟨[], by simp [State.setTmo]⟩

/-- Nothing is removed from the log. -/
theorem step_log {s s' : State} {l : Label} (h : step s l = .ok s') : ∃ es, s'.log = s.log ++ es := by
  have known : ∀ c (f : Src → Done), (match s.known c with
        | none => Out.no
        | some x => s.put c (f x)) = .ok s' → ∃ es, s'.log = s.log ++ es := by
    intro c f hf
    split at hf
    · cases hf
    · exact put_log hf
  cases l with
  | set k => simp only [step] at h; split at h <;> cases h <;> exact ⟨_, rfl⟩
  | new =>
    simp only [step, State.add] at h
    obtain ⟨es, he⟩ := put_log h
    exact ⟨es, he⟩
  | scheduleNew =>
    simp only [step, State.add] at h
    obtain ⟨es, he⟩ := put_log h
    exact ⟨es, he⟩
  | later =>
    simp only [step, State.add] at h
    obtain ⟨es, he⟩ := put_log h
    exact ⟨es, he⟩
  | ref c => exact known _ _ h
  | unref c => exact known c (fun x => userUnref c (some x)) h
  | schedule c => exact known _ _ h
  | cancel c => exact known _ _ h
  | destroy c => exact known _ _ h
  | start c =>
    simp only [step] at h
    split at h
    · cases h
    · split at h
      · cases h
      · exact put_log h
  | stop c =>
    simp only [step] at h
    split at h
    · cases h
    · split at h
      · cases h
      · exact put_log h
  | add => cases h; exact ⟨_, rfl⟩
  | idle => cases h; exact ⟨_, rfl⟩
  | remove t =>
    simp only [step] at h
    split at h
    · cases h
    · split at h
      · cases h
      · split at h
        · cases h; exact ⟨_, rfl⟩
        · obtain ⟨es, he⟩ := tmoUnref_log h
          simp only [State.setTmo, State.see, List.append_assoc] at he
          exact ⟨_, he⟩
  | fire t =>
    simp only [step] at h
    split at h
    · cases h
    · split at h
      · cases h
      · cases h; exact ⟨_, rfl⟩
  | fired t a =>
    simp only [step] at h
    split at h
    · cases h
    · split at h
      · cases h
      · unfold Out.andThen at h
        split at h
        · rename_i s1 h1
          obtain ⟨es, he⟩ := tmoUnref_log h1
          simp only [State.setTmo, State.see, List.append_assoc] at he
          split at h
          · cases h; exact ⟨_, he⟩
          · simp only [] at h
            split at h
            · cases h; exact ⟨_, he⟩
            · split at h
              · cases h; exact ⟨_, he⟩
              · obtain ⟨es2, he2⟩ := tmoUnref_log h
                simp only [State.setTmo] at he2
                rw [he, List.append_assoc] at he2
                exact ⟨_, he2⟩
        · cases h
        · cases h

theorem exec_log {s s' : State} {ls : List Label} (h : exec step s ls = .ok s') : ∃ es, s'.log = s.log ++ es := by
  induction ls generalizing s with
  | nil => cases h; exact ⟨[], by simp⟩
  | cons l ls ih =>
    simp only [exec] at h
    split at h
    · rename_i s1 h1
      obtain ⟨e1, q1⟩ := step_log h1
      obtain ⟨e2, q2⟩ := ih h
      exact ⟨e1 ++ e2, by rw [q2, q1]; simp⟩
    · cases h
    · cases h

end Gb.EventLoop
