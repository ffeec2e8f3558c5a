import Verif.Lemmas.LooperPoll
/-
C87. The threads which handle incoming transactions do that until they are told to stop, and then they stop.
-/
set_option autoImplicit false

namespace Gb.C87
open LooperPoll

/-! ### Stopping -/

/-- C87: a thread which has been told to stop takes at most four more steps, whatever else happens. -/
theorem C87_bounded {s s' : State} (h : Reach step {} s) {x : Nat} (hx : s.exit x = true) {ls : List Label}
    (he : exec step s ls = .ok s') : ls.countP (own x) ≤ 4 := by
  have key : ∀ {s : State}, s.phase x ≠ .none → s.exit x = true → ∀ {ls}, exec step s ls = .ok s' →
      ls.countP (own x) ≤ rank (s.phase x) := by
    intro s hn hx ls
    induction ls generalizing s with
    | nil => simp
    | cons l ls ih =>
      intro he
      simp only [exec] at he
      split at he
      · rename_i s1 h1
        have hr := step_rank hn hx h1
        have hn' : s1.phase x ≠ .none := by
          intro hc
          have : ∀ {l}, step s l = .ok s1 → False := by
            intro l h1
            cases l <;> simp only [step, State.go] at h1 <;> (repeat' split at h1) <;> cases h1 <;> simp only [upd] at hc <;> grind
          exact this h1
        have := ih hn' (step_exit h1 hx) he
        rw [List.countP_cons]
        omega
      · cases he
      · cases he
  exact Nat.le_trans (key (exit_exists h hx) hx he) (rank_le _)

/-- C87: it begins no more reads, and handles nothing but what it's about to read. -/
theorem C87_no_more {s s' : State} (h : Reach step {} s) {x : Nat} (hx : s.exit x = true) {ls : List Label}
    (he : exec step s ls = .ok s') :
    (∀ p, s'.phase x = .reading p → s.phase x = .reading p ∧ Label.take x ∉ ls) ∧
    ls.count (.take x) ≤ (match s.phase x with | .reading _ => 1 | _ => 0) := by
  induction ls generalizing s with
  | nil => cases he; simp
  | cons l ls ih =>
    simp only [exec] at he
    split at he
    · rename_i s1 h1
      have hn := exit_exists h hx
      obtain ⟨a, b⟩ := ih (h.step h1) (step_exit h1 hx) he
      refine ⟨?_, ?_⟩
      · intro p hp
        obtain ⟨a1, a2⟩ := a p hp
        obtain ⟨b1, b2⟩ := step_read hn hx h1 a1
        exact ⟨b1, by simp [a2, Ne.symm b2]⟩
      · by_cases hl : l = .take x
        · subst hl
          have h1' := h1
          simp only [step] at h1
          split at h1
          · rename_i p hp
            have : ¬ ∃ q, s1.phase x = .reading q := by
              rintro ⟨q, hq⟩
              exact (step_read hn hx h1' hq).2 rfl
            rw [List.count_cons_self]
            split at b
            · rename_i q hq; exact absurd ⟨q, hq⟩ this
            · rw [hp]; exact Nat.succ_le_succ b
          · cases h1
        · rw [List.count_cons_of_ne hl]
          split at b
          · rename_i q hq
            rw [(step_read hn hx h1 hq).1]
            exact b
          · exact Nat.le_trans b (Nat.zero_le _)
    · cases he
    · cases he

/-- C87: unless it waits for the kernel, a thread which has been told to stop can continue until it ends. -/
theorem C87_continues {s : State} (h : Reach step {} s) {x : Nat} (hx : s.pipe x = true) :
    s.phase x = .ended ∨ Stuck s x ∨ ∃ l s', sure x l = true ∧ step s l = .ok s' := by
  have he := pipe_exit h hx
  have hn := exit_exists h he
  rcases hp : s.phase x with _ | _ | _ | ⟨res, p⟩ | p | p | ⟨ok, p⟩ | _ | _
  · exact absurd hp hn
  · exact .inr (.inr ⟨.poll x, s.go x .polling, by simp [sure, own], by simp [step, hp]⟩)
  · refine .inr (.inr ⟨.polled x (if 0 < s.work then pollin else 0) true,
      s.go x (.check (if 0 < s.work then pollin else 0) true), ?_, ?_⟩)
    · split <;> simp [sure, own, pollin]
    · simp only [step]
      rw [if_pos]
      refine ⟨hp, ?_⟩
      unfold State.ready
      rw [hx]
      split <;> simp_all [pollin]
  · exact .inr (.inr ⟨.test x, _, by simp [sure, own], by simp only [step, hp]; rfl⟩)
  · cases ho : s.isOpen
    · exact .inr (.inr ⟨.flushed x false, s.go x (.handled false p), by simp [sure, own], by simp [step, hp, ho]⟩)
    · by_cases hw : 0 < s.work
      · exact .inr (.inr ⟨.take x, { s.go x (.busy p) with work := s.work - 1 }, by simp [sure, own], by simp [step, hp, ho, hw]⟩)
      · exact .inr (.inl ⟨⟨p, hp⟩, ho, by omega⟩)
  · exact .inr (.inr ⟨.done x, _, by simp [sure, own], by simp only [step, hp]; rfl⟩)
  · exact .inr (.inr ⟨.again x, _, by simp [sure, own], by simp only [step, hp]; rfl⟩)
  · exact .inr (.inr ⟨.finish x, _, by simp [sure, own], by simp only [step, hp, if_true]; rfl⟩)
  · exact .inl rfl

/-- C87: and if it waits for the kernel, the device is closed, so that it doesn't have to wait anymore. -/
theorem C87_closed {s : State} (h : Reach step {} s) {x : Nat} (hx : s.pipe x = true) (hj : s.joined x = false)
    (hs : Stuck s x) :
    ∃ s', step s (.timeout x) = .ok s' ∧ s'.isOpen = false ∧ ∃ l s'', sure x l = true ∧ step s' l = .ok s'' := by
  obtain ⟨⟨p, hp⟩, -, -⟩ := hs
  have h1 : step s (.timeout x) = .ok { s with isOpen := false } := by
    simp [step, hx, hj, hp]
  refine ⟨_, h1, rfl, ?_⟩
  rcases C87_continues (h.step h1) (x := x) (step_pipe h1 hx) with h2 | h2 | h2
  · rw [show (({ s with isOpen := false } : State)).phase x = s.phase x from rfl, hp] at h2
    cases h2
  · cases h2.2.1
  · exact h2

theorem sure_own {x : Nat} {l : Label} (h : sure x l = true) : own x l = true := by
  simp only [sure, Bool.and_eq_true] at h
  exact h.1

/-- No step of a looper's thread opens the device or joins it. -/
theorem own_same {s s' : State} {l : Label} {x : Nat} (hl : own x l = true) (hs : step s l = .ok s') :
    s'.isOpen = s.isOpen ∧ s'.joined = s.joined := by
  cases l <;> simp only [own, Bool.false_eq_true] at hl <;> simp only [step, State.go] at hs <;> (repeat' split at hs) <;>
    cases hs <;> exact ⟨rfl, rfl⟩

/-- C87: whoever stops a looper isn't left waiting for it. -/
theorem C87_joined {s : State} (h : Reach step {} s) {x : Nat} (hx : s.pipe x = true) (hj : s.joined x = false) :
    ∃ ls s', exec step s ls = .ok s' ∧ s'.joined x = true ∧ ls.length ≤ 6 ∧
      ∀ l ∈ ls, sure x l = true ∨ l = .timeout x ∨ l = .join x := by
  have key : ∀ n {s : State}, Reach step {} s → s.pipe x = true → s.joined x = false →
      rank (s.phase x) + (if s.isOpen then 1 else 0) ≤ n →
      ∃ ls s', exec step s ls = .ok s' ∧ s'.joined x = true ∧ ls.length ≤ n + 1 ∧
        ∀ l ∈ ls, sure x l = true ∨ l = .timeout x ∨ l = .join x := by
    intro n
    induction n with
    | zero =>
      intro s h hx hj hr
      have he : s.phase x = .ended := by
        have hn := exit_exists h (pipe_exit h hx)
        have : rank (s.phase x) = 0 := by omega
        cases hp : s.phase x <;> simp_all [rank]
      refine ⟨[.join x], { s with joined := upd s.joined x true }, ?_, by simp [upd], by simp, by simp⟩
      simp [exec, step, hx, hj, he]
    | succ n ih =>
      intro s h hx hj hr
      rcases C87_continues h hx with h1 | h1 | ⟨l, s1, hl, h1⟩
      · refine ⟨[.join x], { s with joined := upd s.joined x true }, ?_, by simp [upd], by simp, by simp⟩
        simp [exec, step, hx, hj, h1]
      · obtain ⟨s1, a1, a2, -⟩ := C87_closed h hx hj h1
        have a3 : s1 = { s with isOpen := false } := by
          simp only [step] at a1
          split at a1 <;> cases a1
          rfl
        obtain ⟨ls, s', b1, b2, b3, b4⟩ := ih (h.step a1) (step_pipe a1 hx) (by rw [a3]; exact hj) (by
          rw [a3]
          rw [h1.2.1] at hr
          simp only [if_true] at hr
          simp only [Bool.false_eq_true, if_false]
          omega)
        refine ⟨.timeout x :: ls, s', by simp only [exec, a1]; exact b1, b2, by simp only [List.length_cons]; omega, ?_⟩
        intro l hl
        rcases List.mem_cons.mp hl with rfl | hl
        · exact .inr (.inl rfl)
        · exact b4 l hl
      · have he := pipe_exit h hx
        have hr1 := step_rank (exit_exists h he) he h1
        rw [sure_own hl] at hr1
        simp only [if_true] at hr1
        obtain ⟨e1, e2⟩ := own_same (sure_own hl) h1
        obtain ⟨ls, s', b1, b2, b3, b4⟩ := ih (h.step h1) (step_pipe h1 hx) (by rw [e2]; exact hj) (by rw [e1]; omega)
        refine ⟨l :: ls, s', by simp only [exec, h1]; exact b1, b2, by simp only [List.length_cons]; omega, ?_⟩
        intro l' hl'
        rcases List.mem_cons.mp hl' with rfl | hl'
        · exact .inl hl
        · exact b4 l' hl'
  refine key 5 h hx hj ?_
  have := rank_le (s.phase x)
  split <;> omega

/-- C87: the device isn't closed for that, if nothing interrupts poll and there's one looper at a time: it never waits for
something which isn't there. Missing: signals and several loopers, see `C87_fails_interrupted` and `C87_fails_taken`. -/
theorem C87_quick_partial {s : State} (h : ReachIf step Quiet {} s) (x : Nat) : ¬ Stuck s x := by
  have key : (∀ y p, s.phase y = .reading p → s.isOpen = true → 0 < s.work) ∧
      (∀ y res p, s.phase y = .check res p → res &&& pollin ≠ 0 → s.isOpen = true → 0 < s.work) ∧
      ∀ y z, y ≠ z → s.phase y ≠ .none → s.phase y ≠ .ended → s.phase z = .none ∨ s.phase z = .ended := by
    induction h with
    | init => refine ⟨?_, ?_, ?_⟩ <;> simp
    | @step s s' l _ hok hs ih =>
      obtain ⟨i1, i2, i3⟩ := ih
      cases l <;> simp only [step, State.go] at hs <;> (repeat' split at hs) <;> cases hs <;> simp only [upd, Quiet] at hok ⊢ <;>
        refine ⟨?_, ?_, ?_⟩ <;> grind [State.ready]
  rintro ⟨⟨p, hp⟩, ho, hw⟩
  have := key.1 x p hp ho
  omega

/-- How far the thread is from its end if it isn't going to poll anymore. -/
def left : Phase → Option Nat
  | .handled false _ => some 2
  | .leaving => some 1
  | .ended => some 0
  | _ => none

/-- C87: reading has failed. The thread ends, whether or not it has been told to: it takes at most two more steps, and
nothing is handled by it. -/
theorem C87_failed {s s' : State} {x : Nat} {p : Bool} (hp : s.phase x = .handled false p) {ls : List Label}
    (he : exec step s ls = .ok s') :
    ls.countP (own x) ≤ 2 ∧ (ls.countP (own x) = 2 → s'.phase x = .ended) ∧ .take x ∉ ls ∧
      ∃ l, s'.phase x ≠ .ended → ∃ s'', sure x l = true ∧ step s' l = .ok s'' := by
  have key : ∀ {s : State} {ls k}, left (s.phase x) = some k → exec step s ls = .ok s' →
      (∃ k', left (s'.phase x) = some k' ∧ ls.countP (own x) + k' = k) ∧ .take x ∉ ls := by
    intro s ls
    induction ls generalizing s with
    | nil => intro k hk he; cases he; exact ⟨⟨k, hk, by simp⟩, by simp⟩
    | cons l ls ih =>
      intro k hk he
      simp only [exec] at he
      split at he
      · rename_i s1 h1
        have hh : ∀ ok p k, left (.handled ok p) = some k → ok = false ∧ k = 2 := by
          intro ok p k h
          cases ok <;> simp only [left] at h <;> grind
        have hs : (∃ k1, left (s1.phase x) = some k1 ∧ k1 + (if own x l then 1 else 0) = k) ∧ l ≠ .take x := by
          cases l <;> simp only [step, State.go] at h1 <;> (repeat' split at h1) <;> cases h1 <;> simp only [upd, own] <;>
            clear ih hp <;> grind [left]
        obtain ⟨⟨k1, a1, a2⟩, a3⟩ := hs
        obtain ⟨⟨k', b1, b2⟩, b3⟩ := ih a1 he
        refine ⟨⟨k', b1, ?_⟩, by simp [b3, Ne.symm a3]⟩
        rw [List.countP_cons]
        omega
      · cases he
      · cases he
  obtain ⟨⟨k', a1, a2⟩, a3⟩ := key (k := 2) (by rw [hp]; rfl) he
  refine ⟨by omega, ?_, a3, ?_⟩
  · intro h2
    have : k' = 0 := by omega
    subst this
    cases hq : s'.phase x <;> rw [hq] at a1 <;> simp only [left] at a1 <;> (repeat' split at a1) <;> grind [left]
  · rcases hq : s'.phase x with _ | _ | _ | ⟨res, p⟩ | p | p | ⟨ok, p⟩ | _ | _ <;> rw [hq] at a1 <;> try (simp [left] at a1; done)
    · exact ⟨.again x, fun _ => ⟨_, by simp [sure, own], by simp only [step, hq]; rfl⟩⟩
    · exact ⟨.finish x, fun _ => ⟨_, by simp [sure, own], by simp only [step, hq, if_true]; rfl⟩⟩
    · exact ⟨.finish x, fun h => absurd rfl h⟩

/-! ### Serving -/

theorem fine_inv {s : State} (h : ReachIf step Fine {} s) {x : Nat} (ho : s.isOpen = true) (hx : s.exit x = false) :
    s.phase x ≠ .leaving ∧ s.phase x ≠ .ended ∧ (∀ p, s.phase x ≠ .handled false p) ∧
      ∀ res p, s.phase x = .check res p → res &&& pollin ≠ 0 := by
  have c1 : pollin &&& pollin ≠ 0 := by decide
  have c2 : BitVec.allOnes 32 &&& pollin ≠ 0 := by decide
  induction h with
  | init => refine ⟨?_, ?_, ?_, ?_⟩ <;> simp
  | @step s s' l hr hok hs ih =>
    have h1 := @sees_pipe s hr.reach x
    have h2 := @pipe_exit s hr.reach x
    cases l <;> simp only [step, State.go] at hs <;> (repeat' split at hs) <;> cases hs <;> simp only [upd, Fine] at hok hx ho ⊢ <;>
      refine ⟨?_, ?_, ?_, ?_⟩ <;> grind [State.ready, sees]

/-- C87: a thread doesn't stop before it's told to, unless reading from the device fails. (The device is closed by those who
stop the loopers.) -/
theorem C87_stays {s : State} (h : ReachIf step Fine {} s) {x : Nat} (hp : s.phase x ≠ .none) (ho : s.isOpen = true)
    (hx : s.exit x = false) : Serving s x := by
  obtain ⟨a, b, -, -⟩ := fine_inv h ho hx
  exact ⟨hp, a, b⟩

/-- The transaction is taken by the thread `x`, which takes at most `n` steps. -/
def Taken (s : State) (x n : Nat) : Prop :=
  ∃ ls s' p, exec step s ls = .ok s' ∧ s'.phase x = .busy p ∧ s'.work + 1 = s.work ∧ ls.length ≤ n ∧
    ∀ l ∈ ls, sure x l = true

theorem Taken.cons {s s1 : State} {x n : Nat} {l : Label} (hs : step s l = .ok s1) (hl : sure x l = true)
    (hw : s1.work = s.work) (h : Taken s1 x n) : Taken s x (n + 1) := by
  obtain ⟨ls, s', p, a, b, c, d, e⟩ := h
  refine ⟨l :: ls, s', p, by simp only [exec, hs]; exact a, b, by omega, by simp only [List.length_cons]; omega, ?_⟩
  intro l' hl'
  rcases List.mem_cons.mp hl' with rfl | hl'
  · exact hl
  · exact e l' hl'

theorem Taken.mono {s : State} {x n m : Nat} (hn : n ≤ m) (h : Taken s x n) : Taken s x m := by
  obtain ⟨ls, s', p, a, b, c, d, e⟩ := h
  exact ⟨ls, s', p, a, b, c, by omega, e⟩

theorem taken_reading {s : State} {x : Nat} {p : Bool} (hp : s.phase x = .reading p) (ho : s.isOpen = true)
    (hw : 0 < s.work) : Taken s x 1 :=
  ⟨[.take x], { s.go x (.busy p) with work := s.work - 1 }, p, by simp [exec, step, hp, ho, hw], by simp [State.go, upd],
    by simp only []; omega, by simp, by simp [sure, own]⟩

theorem taken_check {s : State} {x : Nat} {res : BitVec 32} {p : Bool} (hp : s.phase x = .check res p)
    (hr : res &&& pollin ≠ 0) (ho : s.isOpen = true) (hx : s.exit x = false) (hw : 0 < s.work) : Taken s x 2 := by
  refine Taken.cons (l := .test x) (s1 := s.go x (.reading p)) ?_ (by simp [sure, own]) rfl
    (taken_reading (p := p) (by simp [State.go, upd]) ho hw)
  simp only [step, hp, hx, ho]
  rw [if_neg (by simp), if_pos hr, if_pos trivial]

theorem taken_polling {s : State} {x : Nat} (hp : s.phase x = .polling) (hpi : s.pipe x = false) (ho : s.isOpen = true)
    (hx : s.exit x = false) (hw : 0 < s.work) : Taken s x 3 := by
  refine Taken.cons (l := .polled x pollin false) (s1 := s.go x (.check pollin false)) ?_ (by simp [sure, own, pollin]) rfl
    (taken_check (res := pollin) (p := false) (by simp [State.go, upd]) (by decide) ho hx hw)
  simp [step, hp, State.ready, hpi, hw, pollin]

theorem taken_handled {s : State} {x : Nat} (hp : s.phase x = .handled true false) (hpi : s.pipe x = false) (ho : s.isOpen = true)
    (hx : s.exit x = false) (hw : 0 < s.work) : Taken s x 4 := by
  refine Taken.cons (l := .again x) (s1 := s.go x .polling) ?_ (by simp [sure, own]) rfl
    (taken_polling (by simp [State.go, upd]) hpi ho hx hw)
  simp [step, hp, hx]

/-- C87: a transaction which has arrived can be taken by any thread which is there, and nothing else has to happen first. -/
theorem C87_served {s : State} (h : ReachIf step Fine {} s) {x : Nat} (hp : s.phase x ≠ .none) (ho : s.isOpen = true)
    (hx : s.exit x = false) (hw : 0 < s.work) : Taken s x 5 := by
  have hpi : s.pipe x = false := by
    cases h1 : s.pipe x
    · rfl
    · rw [pipe_exit h.reach h1] at hx; cases hx
  have hse : sees (s.phase x) = false := by
    cases h1 : sees (s.phase x)
    · rfl
    · rw [sees_pipe h.reach h1] at hpi; cases hpi
  obtain ⟨a, b, c, d⟩ := fine_inv h ho hx
  rcases hq : s.phase x with _ | _ | _ | ⟨res, p⟩ | p | p | ⟨ok, p⟩ | _ | _
  · exact absurd hq hp
  · refine Taken.mono (n := 4) (by omega) (Taken.cons (l := .poll x) (s1 := s.go x .polling) ?_ (by simp [sure, own]) rfl
      (taken_polling (by simp [State.go, upd]) hpi ho hx hw))
    simp [step, hq]
  · exact (taken_polling hq hpi ho hx hw).mono (by omega)
  · exact (taken_check hq (d res p hq) ho hx hw).mono (by omega)
  · exact (taken_reading hq ho hw).mono (by omega)
  · rw [hq] at hse
    simp only [sees] at hse
    subst hse
    refine Taken.cons (l := .done x) (s1 := s.go x (.handled true false)) ?_ (by simp [sure, own]) rfl
      (taken_handled (by simp [State.go, upd]) hpi ho hx hw)
    simp [step, hq]
  · rw [hq] at hse
    simp only [sees] at hse
    subst hse
    cases ok
    · exact absurd hq (c false)
    · exact (taken_handled hq hpi ho hx hw).mono (by omega)
  · exact absurd hq a
  · exact absurd hq b

/-! ### What goes wrong -/

/-- What the looper does when a transaction arrives. -/
def serve (x : Nat) : List Label := [.arrive, .polled x pollin false, .test x, .take x, .done x, .again x]

/-- A signal interrupts poll: -1 has all bits set, including POLLIN. -/
def interrupted : List Label := [.create 0, .poll 0] ++ serve 0 ++ [.polled 0 (BitVec.allOnes 32) false, .test 0, .stop 0, .wake 0]

/-- There are two loopers and one transaction. Both are told about it. -/
def taken : List Label :=
  [.create 0, .poll 0, .create 1, .poll 1, .arrive, .polled 0 pollin false, .polled 1 pollin false, .test 0, .test 1,
    .take 0, .done 0, .again 0, .stop 1, .wake 1]

/-- The claim about not waiting for the kernel fails if poll is interrupted: the thread reads although there's nothing to
read, and doesn't notice that it has been told to stop. -/
theorem C87_fails_interrupted : (exec step {} interrupted).holds
    (fun s => s.phase 0 == .reading false && s.isOpen && s.work == 0 && s.exit 0 && s.pipe 0) = true := by decide +kernel

/-- It also fails if there are two loopers. -/
theorem C87_fails_taken : (exec step {} taken).holds
    (fun s => s.phase 1 == .reading false && s.isOpen && s.work == 0 && s.exit 1 && s.pipe 1) = true := by decide +kernel

/-! ### Examples -/

/-- The thread ends, and is joined. -/
example : (exec step {} (interrupted ++ [.timeout 0, .flushed 0 true, .again 0, .finish 0, .join 0])).holds
    (fun s => s.joined 0 && s.phase 0 == .ended && !s.isOpen) = true := by decide +kernel

/-- The device isn't closed if it isn't necessary. -/
example : (exec step {} ([.create 0, .poll 0] ++ serve 0 ++ serve 0 ++
    [.stop 0, .wake 0, .polled 0 0 true, .test 0, .finish 0, .join 0])).holds
    (fun s => s.joined 0 && s.phase 0 == .ended && s.isOpen) = true := by decide +kernel

/-- `C87_bounded`, `C87_no_more`, `C87_continues`, `C87_closed`, `C87_joined`: a looper which is being stopped. -/
example : ∃ s, Reach step {} s ∧ s.exit 0 = true ∧ s.pipe 0 = true ∧ s.joined 0 = false ∧ Stuck s 0 :=
  match h : exec step {} interrupted with
  | .ok s => by
    have := C87_fails_interrupted
    rw [h] at this
    simp only [Out.holds, Bool.and_eq_true, beq_iff_eq] at this
    refine ⟨s, ⟨_, h⟩, this.1.2, this.2, ?_, ⟨⟨false, this.1.1.1.1⟩, this.1.1.1.2, this.1.1.2⟩⟩
    have hj : (exec step {} interrupted).holds (fun s => !s.joined 0) = true := by decide +kernel
    rw [h] at hj
    simpa [Out.holds] using hj
  | .no => by have := C87_fails_interrupted; rw [h] at this; cases this
  | .ub => by have := C87_fails_interrupted; rw [h] at this; cases this

theorem run_if {ok : State → Label → Prop} {s s' : State} (h : ReachIf step ok {} s) :
    ∀ {ls : List Label}, exec step s ls = .ok s' → (∀ l ∈ ls, ∀ t, ok t l) → ReachIf step ok {} s' := by
  intro ls
  induction ls generalizing s with
  | nil => intro he _; cases he; exact h
  | cons l ls ih =>
    intro he hl
    simp only [exec] at he
    split at he
    · rename_i s1 h1
      exact ih (.step l h (hl l (by simp) s) h1) he fun l' hl' => hl l' (by simp [hl'])
    · cases he
    · cases he

/-- `C87_failed`: a looper which nobody has told to stop. -/
example : (exec step {} ([.create 0, .poll 0] ++ serve 0 ++ [.arrive, .polled 0 pollin false, .test 0, .fails 0])).holds
    (fun s => s.phase 0 == .handled false false && !s.exit 0 && s.work == 1) = true := by decide +kernel

/-- `C87_stays`, `C87_served`: two loopers, one of which has taken a transaction, and another one has arrived. -/
example : ∃ s, ReachIf step Fine {} s ∧ s.phase 0 = .busy false ∧ s.phase 1 = .reading false ∧ s.isOpen = true ∧
    s.exit 0 = false ∧ s.exit 1 = false ∧ 0 < s.work := by
  have hk : (exec step {} (taken.take 10 ++ [.arrive])).holds (fun s => s.phase 0 == .busy false && s.phase 1 == .reading false &&
    s.isOpen && !s.exit 0 && !s.exit 1 && decide (0 < s.work)) = true := by decide +kernel
  match h : exec step {} (taken.take 10 ++ [.arrive]) with
  | .ok s =>
    rw [h] at hk
    simp only [Out.holds, Bool.and_eq_true, beq_iff_eq, decide_eq_true_eq, Bool.not_eq_true'] at hk
    refine ⟨s, run_if .init h ?_, hk.1.1.1.1.1, hk.1.1.1.1.2, hk.1.1.1.2, hk.1.1.2, hk.1.2, hk.2⟩
    intro l hl t
    simp only [taken, List.take_succ_cons, List.take_zero, List.cons_append, List.nil_append, List.mem_cons, List.not_mem_nil,
      or_false] at hl
    rcases hl with rfl | rfl | rfl | rfl | rfl | rfl | rfl | rfl | rfl | rfl | rfl <;> simp [Fine]
  | .no => rw [h] at hk; cases hk
  | .ub => rw [h] at hk; cases hk

/-- `C87_quick_partial`: a looper which has read a transaction is polling again. -/
example : ∃ s, ReachIf step Quiet {} s ∧ s.phase 0 = .polling ∧ s.isOpen = true := by
  have hk : (exec step (State.go {} 0 .started) (.poll 0 :: serve 0)).holds (fun s => s.phase 0 == .polling && s.isOpen) = true := by
    decide +kernel
  have h0 : ReachIf step Quiet {} (State.go {} 0 .started) :=
    .step (.create 0) .init (by intro y; exact .inl rfl) rfl
  match h : exec step (State.go {} 0 .started) (.poll 0 :: serve 0) with
  | .ok s =>
    rw [h] at hk
    simp only [Out.holds, Bool.and_eq_true, beq_iff_eq] at hk
    refine ⟨s, run_if h0 h ?_, hk.1, hk.2⟩
    intro l hl t
    simp only [serve, List.mem_cons, List.not_mem_nil, or_false] at hl
    rcases hl with rfl | rfl | rfl | rfl | rfl | rfl | rfl <;> simp [Quiet, pollin]
  | .no => rw [h] at hk; cases hk
  | .ub => rw [h] at hk; cases hk

end Gb.C87
