import Verif.Lemmas.EventLoopLog
/-
C62: callbacks and timeouts.
-/
set_option autoImplicit false

namespace Gb.C62

open EventLoop

theorem inv {s : State} (h : Reach step {} s) : Inv s :=
  h.invariant Inv.init fun s l s' hs hl => by
    rcases hs.step l with k | ⟨_, k1, k2⟩
    · rw [k] at hl; cases hl
    · rw [k1] at hl; cases hl; exact k2

/-- C62: nothing is used after it's been freed, nothing is freed twice, no reference count goes below zero. -/
theorem C62_safe {s : State} (h : Reach step {} s) (l : Label) : step s l ≠ .ub := by
  intro hn
  rcases (inv h).step l with k | ⟨_, k, -⟩ <;> rw [hn] at k <;> cases k

/-- C62: nothing happens to a callback which isn't allowed to (see `next`). -/
theorem C62_life {s : State} (h : Reach step {} s) (c : Nat) : (life c s.log).isSome = true := by
  rw [(inv h).life c]; rfl

/-- C62: a callback which is pending can be called by the main loop, and there are no obstacles to what comes after that. -/
theorem C62_pending {s : State} (h : Reach step {} s) {c : Nat} {v : View} (hv : life c s.log = some (.live v))
    (hp : v.stage = .pending) : ∃ s', step s (.start c) = .ok s' := by
  have hI := inv h
  rw [hI.life c] at hv
  split at hv
  · cases hx : s.src c with
    | none => rw [hx] at hv; cases hv
    | some x =>
      rw [hx] at hv
      cases hv
      rcases hI.step (.start c) with k | ⟨s', k, -⟩
      · exfalso
        simp only [viewOf, stageOf] at hp
        have hw := (hI.wf c x hx).1
        cases h1 : x.running <;> cases h2 : x.destroyed <;> cases h3 : x.attached <;> simp [h1, h2, h3] at hp
        rcases ok_start (c := c) hw h3 h2 h1 with ⟨y, es, e, -⟩
        simp [step, hx, h1, h2, h3, e, State.put] at k
      · exact ⟨s', k⟩
  · cases hv

theorem C62_running {s : State} (h : Reach step {} s) {c : Nat} {v : View} (hv : life c s.log = some (.live v))
    (hp : v.stage = .running) : ∃ s', step s (.stop c) = .ok s' := by
  have hI := inv h
  rw [hI.life c] at hv
  split at hv
  · cases hx : s.src c with
    | none => rw [hx] at hv; cases hv
    | some x =>
      rw [hx] at hv
      cases hv
      have h1 : x.running = true := by
        simp only [viewOf, stageOf] at hp
        cases h1 : x.running <;> cases h2 : x.destroyed <;> cases h3 : x.attached <;> simp [h1, h2, h3] at hp
        all_goals rfl
      rcases ok_stop (c := c) (hI.wf c x hx).1 h1 with ⟨y, es, e, -⟩
      exact ⟨_, by simp [step, hx, h1, e, State.put]; rfl⟩
  · cases hv

/-- C62: the data is finalized as soon as the function has been called, or when what was scheduled is cancelled. -/
theorem C62_over {s : State} (h : Reach step {} s) {c : Nat} {v : View} (hv : life c s.log = some (.live v))
    (hp : v.stage = .over) (hs : v.sched = true) : v.final = v.fin := by
  have hI := inv h
  rw [hI.life c] at hv
  split at hv
  · cases hx : s.src c with
    | none => rw [hx] at hv; cases hv
    | some x =>
      rw [hx] at hv
      cases hv
      have hw := (hI.wf c x hx).1
      simp only [viewOf, stageOf] at hp hs ⊢
      have h4 := hw.cbrefs
      have h5 := hw.att
      cases h1 : x.running <;> cases h2 : x.destroyed <;> cases h3 : x.attached <;> cases h6 : x.cb <;>
        simp_all
  · cases hv

/-- C62: the memory is freed, and the data is finalized, as soon as nobody needs them. -/
theorem C62_unused {s : State} (h : Reach step {} s) {c : Nat} {v : View} (hv : life c s.log = some (.live v))
    (hu : v.users = 0) : v.stage = .pending ∨ v.stage = .running := by
  have hI := inv h
  rw [hI.life c] at hv
  split at hv
  · cases hx : s.src c with
    | none => rw [hx] at hv; cases hv
    | some x =>
      rw [hx] at hv
      cases hv
      have hw := (hI.wf c x hx).1
      simp only [viewOf] at hu
      have h4 := hw.refs
      have h5 := hw.some
      have h6 := hw.att
      simp only [viewOf, stageOf]
      cases h1 : x.running <;> cases h2 : x.destroyed <;> cases h3 : x.attached <;> simp_all
  · cases hv

/-- C62: the function is called at most once, the data is finalized at most once, the memory is freed at most once. -/
theorem C62_once {s : State} (h : Reach step {} s) (c : Nat) :
    s.log.count (.func c) ≤ 1 ∧ s.log.count (.final c) ≤ 1 ∧ s.log.count (.freed c) ≤ 1 := by
  obtain ⟨l, hl⟩ := Option.isSome_iff_exists.1 (C62_life h c)
  have := counts c s.log l hl
  cases l with
  | none => obtain ⟨h1, h2, h3, -⟩ := this; omega
  | live v =>
    obtain ⟨h1, h2, h3, -⟩ := this
    rw [h1, h2, h3]
    cases v.called <;> cases v.final <;> simp
  | freed => obtain ⟨h1, h2, h3, -⟩ := this; omega

/-- C62: by the time when the memory is freed, the data has been finalized, if there was something to call for that. If the
callback was made by gbinder_idle_callback_invoke_later then the function has been called, too. -/
theorem C62_freed {s : State} (h : Reach step {} s) {c : Nat} (hf : .freed c ∈ s.log) {func fin later : Bool}
    (hm : .made c func fin later ∈ s.log) :
    s.log.count (.final c) = fin.toNat ∧ (later = true → s.log.count (.func c) = func.toNat) := by
  obtain ⟨l, hl⟩ := Option.isSome_iff_exists.1 (C62_life h c)
  have := counts c s.log l hl
  have h1 : 0 < s.log.count (.freed c) := List.count_pos_iff.2 hf
  cases l with
  | none => obtain ⟨-, -, h3, -⟩ := this; omega
  | live v => obtain ⟨-, -, h3, -⟩ := this; omega
  | freed => exact this.2.2.2 _ _ _ hm

/-- C62: once a callback has been cancelled, the function isn't called. -/
theorem C62_cancelled {s s1 s2 : State} (h : Reach step {} s) {c : Nat} {l : Label} (hl : l = .cancel c ∨ l = .destroy c)
    (h1 : step s l = .ok s1) {ls : List Label} (h2 : exec step s1 ls = .ok s2) (hn : .func c ∉ s.log) :
    .func c ∉ s2.log := by
  have hI := inv h
  obtain ⟨x, hx, hu⟩ : ∃ x, s.src c = some x ∧ x.users ≠ 0 ∧ x.later = false := by
    cases hk : s.known c with
    | none => rcases hl with rfl | rfl <;> simp [step, hk] at h1
    | some x => exact ⟨x, State.known_some hk⟩
  have hlt := (hI.wf c x hx).2
  have hlife := hI.life c
  rw [if_pos hlt, hx] at hlife
  obtain ⟨es, hes⟩ := step_log h1
  have hes' : ∃ k es', es = .asked k .cancel c :: es' := by
    have hk : s.known c = some x := by simp [State.known, hx, hu]
    rcases hl with rfl | rfl
    · simp only [step, hk, ask] at h1
      cases hd : Done.then (.ok (some x, [.asked x.loop .cancel c])) (destroy c) with
      | no => rw [hd] at h1; cases h1
      | ub => rw [hd] at h1; cases h1
      | ok r =>
        rw [hd] at h1
        obtain ⟨y, m⟩ := r
        obtain ⟨m', rfl⟩ := then_log hd
        cases h1
        have := List.append_cancel_left (show s.log ++ _ = s.log ++ es from hes)
        exact ⟨_, _, this.symm⟩
    · simp only [step, hk, ask] at h1
      cases hd : Done.then (.ok (some x, [.asked x.loop .cancel c])) (destroy c) with
      | no => rw [hd] at h1; cases h1
      | ub => rw [hd] at h1; cases h1
      | ok r =>
        obtain ⟨y, m⟩ := r
        obtain ⟨m', rfl⟩ := then_log hd
        rw [hd] at h1
        cases he : Done.then (.ok (y, [.asked x.loop .cancel c] ++ m')) (userUnref c) with
        | no => rw [he] at h1; cases h1
        | ub => rw [he] at h1; cases h1
        | ok r =>
          rw [he] at h1
          obtain ⟨z, m⟩ := r
          obtain ⟨m2, rfl⟩ := then_log he
          cases h1
          have := List.append_cancel_left (show s.log ++ _ = s.log ++ es from hes)
          exact ⟨_, _, this.symm⟩
  obtain ⟨k, es', rfl⟩ := hes'
  have hr2 : Reach step {} s2 := by
    obtain ⟨l0, h0⟩ := h
    refine ⟨l0 ++ l :: ls, ?_⟩
    rw [exec_append, h0]
    simp only [exec, h1]
    exact h2
  obtain ⟨es2, hes2⟩ := exec_log h2
  have hlog : s2.log = s.log ++ (.asked k .cancel c :: (es' ++ es2)) := by rw [hes2, hes]; simp
  have hsome := C62_life hr2 c
  rw [hlog] at hsome ⊢
  have hcalled : x.called = false := by
    have := counts c s.log _ hlife
    have h0 := List.count_eq_zero.2 hn
    have := this.1
    rw [h0] at this
    cases hc : x.called
    · rfl
    · simp [viewOf, hc] at this
  refine fun hm => (List.mem_append.1 hm).elim hn fun hm => ?_
  rcases List.mem_cons.1 hm with hm | hm
  · cases hm
  · unfold life at hlife hsome
    rw [List.foldl_append, hlife, List.foldl_cons] at hsome
    have hne : next c (some (lifeOf (some x))) (.asked k .cancel c) ≠ none := by
      intro hn; rw [hn, next_none] at hsome; cases hsome
    obtain ⟨l1, hl1⟩ := Option.ne_none_iff_exists'.1 hne
    rw [hl1] at hsome
    have hq : Quiet l1 := by
      have hw := (hI.wf c x hx).1
      simp only [next, if_true, lifeOf, nextLive, viewOf] at hl1
      have := hw.run
      simp only [stageOf] at hl1
      cases h1 : x.running <;> cases h2 : x.destroyed <;> cases h3 : x.attached <;> simp [h1, h2, h3, hu.1, hu.2] at hl1 <;>
        subst hl1 <;> simp_all [Quiet]
    exact quiet_func hq hsome hm

/-- C62: nothing happens to a timeout which isn't allowed to (see `nextTimer`): the function isn't called after the timeout has been
removed, or after the function has said that it shouldn't be. -/
theorem C62_timer {s : State} (h : Reach step {} s) (t : Nat) : (timer t s.log).isSome = true := by
  rw [(inv h).timer t]; rfl

/-- C62: the memory allocated for a timeout is freed exactly once, when it has been removed and isn't being called. -/
theorem C62_timer_freed {s : State} (h : Reach step {} s) (t : Nat) :
    freeings t s.log = if timer t s.log = some .gone then 1 else 0 := by
  have hI := inv h
  rw [hI.freeings t, hI.timer t]
  unfold lost
  by_cases ht : t < s.tmos
  · rw [if_pos ht, if_pos ht]
    cases hx : s.tmo t with
    | none => rfl
    | some x =>
      have hg : timerOf (some x) ≠ .gone := by
        simp only [timerOf]; split
        · split <;> simp
        · simp
      simp [hg]
  · simp [ht]

/-- C62: a timeout which hasn't been removed is called again. -/
theorem C62_timer_armed {s : State} (h : Reach step {} s) {t : Nat} (ht : timer t s.log = some .armed) :
    ∃ s', step s (.fire t) = .ok s' := by
  have hI := inv h
  rw [hI.timer t] at ht
  split at ht
  · cases hx : s.tmo t with
    | none => rw [hx] at ht; cases ht
    | some x =>
      rw [hx] at ht
      have hw := (hI.twf t x hx).1
      have h1 := hw.cbrefs
      have h2 := hw.some
      simp only [timerOf] at ht
      cases hr : x.running <;> cases hd : x.destroyed <;> simp [hr, hd] at ht h1
      · exact ⟨_, by simp [step, hx, hr, hd]; rfl⟩
      · exact absurd h1 h2
  · cases ht

/-- C62: everything goes to the integration which has made the object, that's the one which was chosen at the time. An integration
is told when it's replaced. -/
theorem C62_routes {s : State} (h : Reach step {} s) : ∃ r, routes s.log = some r ∧ r.owed = none := by
  obtain ⟨r, r1, -, r3, -⟩ := (inv h).routes
  exact ⟨r, r1, r3⟩

/-- C62: whoever makes the timeout gets to know how long to wait, and it's not at all for gbinder_idle_add. -/
theorem C62_interval {s s' : State} {l : Label} {interval : Nat} (hl : l = .add interval ∨ l = .idle ∧ interval = 0)
    (h : step s l = .ok s') :
    ∃ k t, s'.log = s.log ++ [.askedTimeout k (.add interval) t] := by
  rcases hl with rfl | ⟨rfl, rfl⟩ <;> cases h <;> exact ⟨_, _, rfl⟩

/-! ### Examples -/

/-- For runs which are to be decided. -/
theorem run_holds {s : State} {ls : List Label} {p : State → Bool} (h : (exec step s ls).holds p = true) :
    ∃ s', exec step s ls = .ok s' ∧ p s' = true := by
  cases he : exec step s ls with
  | ok s' => rw [he] at h; exact ⟨s', rfl, h⟩
  | no => rw [he] at h; cases h
  | ub => rw [he] at h; cases h

/-- A callback which is scheduled, referenced, released and called. It's cancelled while the function is running. -/
example : ∃ s, Reach step {} s ∧ .freed 0 ∈ s.log ∧ .made 0 true true false ∈ s.log ∧ s.log.count (.func 0) = 1 ∧
    life 0 s.log = some .freed := by
  obtain ⟨s, hs, h⟩ := run_holds (s := {}) (ls := [.new true, .schedule 0, .ref 0, .start 0, .unref 0, .cancel 0, .stop 0, .unref 0])
    (p := fun s => decide (.freed 0 ∈ s.log ∧ .made 0 true true false ∈ s.log ∧ s.log.count (.func 0) = 1 ∧
      life 0 s.log = some .freed)) (by decide +kernel)
  exact ⟨s, ⟨_, hs⟩, of_decide_eq_true h⟩

/-- Those made by gbinder_idle_callback_invoke_later: called, and all gone. -/
example : ∃ s, Reach step {} s ∧ .freed 0 ∈ s.log ∧ .made 0 true true true ∈ s.log ∧ .made 1 false true true ∈ s.log ∧
    life 1 s.log = some (.live { func := false, fin := true, later := true, stage := .pending, sched := true }) := by
  obtain ⟨s, hs, h⟩ := run_holds (s := {}) (ls := [.later true true, .later false true, .start 0, .stop 0])
    (p := fun s => decide (.freed 0 ∈ s.log ∧ .made 0 true true true ∈ s.log ∧ .made 1 false true true ∈ s.log ∧
      life 1 s.log = some (.live { func := false, fin := true, later := true, stage := .pending, sched := true })))
    (by decide +kernel)
  exact ⟨s, ⟨_, hs⟩, of_decide_eq_true h⟩

/-- The hypotheses of `C62_pending`, `C62_running`, `C62_over` and `C62_unused`. -/
example : ∃ s v0 v1 v2 v3, Reach step {} s ∧ life 0 s.log = some (.live v0) ∧ v0.stage = .pending ∧
    life 1 s.log = some (.live v1) ∧ v1.stage = .running ∧ life 2 s.log = some (.live v2) ∧ v2.stage = .over ∧
    v2.sched = true ∧ life 3 s.log = some (.live v3) ∧ v3.users = 0 := by
  obtain ⟨s, hs, h⟩ := run_holds (s := {}) (ls := [.scheduleNew true, .scheduleNew true, .scheduleNew true, .scheduleNew true,
      .start 1, .cancel 2, .unref 3])
    (p := fun s => decide (
      life 0 s.log = some (.live { func := true, fin := true, later := false, stage := .pending, sched := true }) ∧
      life 1 s.log = some (.live { func := true, fin := true, later := false, stage := .running, sched := true, called := true }) ∧
      life 2 s.log = some (.live { func := true, fin := true, later := false, stage := .over, sched := true, final := true }) ∧
      life 3 s.log = some (.live { func := true, fin := true, later := false, stage := .pending, sched := true, users := 0 })))
    (by decide +kernel)
  obtain ⟨h0, h1, h2, h3⟩ := of_decide_eq_true h
  exact ⟨s, _, _, _, _, ⟨_, hs⟩, h0, rfl, h1, rfl, h2, rfl, rfl, h3, rfl⟩

/-- The hypotheses of `C62_cancelled`. -/
example : ∃ s s1 s2, Reach step {} s ∧ step s (.cancel 0) = .ok s1 ∧ exec step s1 [.schedule 0, .unref 0] = .ok s2 ∧
    .func 0 ∉ s.log := by
  obtain ⟨s, hs, h⟩ := run_holds (s := {}) (ls := [.scheduleNew true]) (p := fun s => decide (.func 0 ∉ s.log) &&
    ((exec step s [.cancel 0, .schedule 0, .unref 0]).holds fun _ => true)) (by decide +kernel)
  rw [Bool.and_eq_true] at h
  obtain ⟨s2, h2, -⟩ := run_holds h.2
  simp only [exec] at h2
  split at h2
  · rename_i s1 h1
    exact ⟨s, s1, s2, ⟨_, hs⟩, h1, h2, of_decide_eq_true h.1⟩
  · cases h2
  · cases h2

/-- A timeout which is called twice and removed by the function which it calls, after the integration has been replaced. -/
example : ∃ s, Reach step {} s ∧ timer 0 s.log = some .gone ∧ timer 1 s.log = some .armed ∧ freeings 0 s.log = 1 ∧
    .askedTimeout 0 .remove 0 ∈ s.log ∧ .askedTimeout 1 (.add 0) 1 ∈ s.log ∧ .cleanup 0 ∈ s.log := by
  obtain ⟨s, hs, h⟩ := run_holds (s := {}) (ls := [.add 1000, .set 1, .fire 0, .fired 0 true, .fire 0, .remove 0, .idle, .fired 0 true])
    (p := fun s => decide (timer 0 s.log = some .gone ∧ timer 1 s.log = some .armed ∧ freeings 0 s.log = 1 ∧
      .askedTimeout 0 .remove 0 ∈ s.log ∧ .askedTimeout 1 (.add 0) 1 ∈ s.log ∧ .cleanup 0 ∈ s.log)) (by decide +kernel)
  exact ⟨s, ⟨_, hs⟩, of_decide_eq_true h⟩

end Gb.C62
