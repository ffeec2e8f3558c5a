import Verif.Lemmas.SendOrder
import Verif.Props.C25
/-
C89. Calls are sent in the order in which they were made.
-/
set_option autoImplicit false

namespace Gb.C89
open SendOrder

/-- C89: whatever is called after gbinder_client_transact_sync_reply or gbinder_client_transact_sync_oneway on the same thread, is
sent after that. Missing in the full statement: asynchronous calls which were made first, see `C89_fails_order` and
`C89_fails_overtaken`. -/
theorem C89_sync_partial {max : Nat} {s : State} (h : Reach (step max) {} s) (k : Nat) (d : Call) : Sorted (.sync k) d s.log :=
  ordered h _ _ _ fun _ hr hb _ => ⟨(by intro p hp; cases hp), fun j hj hp => by
    cases hj
    exact ((Inv.reach hr).pend k hp).2 d hb⟩

/-- C89: whatever is called after the completion of an asynchronous call has been reported (or from there), is sent after it. -/
theorem C89_completed {max : Nat} {s : State} (h : Reach (step max) {} s) (p : Nat) (d : Call)
    (hb : Before (.over p) (.called d) s.log) : ¬ Before (.sent d) (.sent (.async p)) s.log :=
  ordered h _ _ _ (fun _ hr hb _ => ⟨fun q hq hp => by
    cases hq
    exact ((Inv.reach hr).over p (before_mem hb).1).2.1 (.inr (.inl hp)), (by intro j hj; cases hj)⟩) hb

/-- C89: if there was just one thread in the pool, asynchronous calls would be sent in the order in which they were made.
Missing: there are up to 15 of them, see `C89_fails_order`. -/
theorem C89_single_partial {s : State} (h : Reach (step 1) {} s) (p q : Nat) : Sorted (.async p) (.async q) s.log :=
  ordered h _ _ _ fun s hr hb hs => ⟨fun r hr' hp => by
    cases hr'
    have hi := Inv.reach hr
    have h1 := hi.sorted _ _ hb
    have h2 := hi.single rfl p (.inr (.inl hp)) q (hi.sent q hs)
    omega, (by intro j hj; cases hj)⟩

/-- C89: threads take care of asynchronous calls in the order in which those were made, so nobody is left behind. -/
theorem C89_taken {max : Nat} {s : State} (h : Reach (step max) {} s) (p q : Nat)
    (hb : Before (.called (.async p)) (.called (.async q)) s.log) :
    (.taken q ∈ s.log → .taken p ∈ s.log) ∧ ¬ Before (.taken q) (.taken p) s.log := by
  have hi := Inv.reach h
  have hlt := hi.sorted _ _ hb
  obtain ⟨t, _, _, ht⟩ := hi.order
  refine ⟨fun hq => (ht p).2 (by have := (ht q).1 hq; omega), fun hn => ?_⟩
  have := hi.takes _ _ hn
  omega

/-- C89: nothing is sent which hasn't been called and taken care of, and there are no more than 15 threads which do that. -/
theorem C89_limit {s : State} (h : Reach (step maxThreads) {} s) :
    busy s.async ≤ 15 ∧ (∀ p, .sent (.async p) ∈ s.log → .taken p ∈ s.log) ∧
      ∀ p, .taken p ∈ s.log → .called (.async p) ∈ s.log := by
  have hi := Inv.reach h
  obtain ⟨t, h1, _, ht⟩ := hi.order
  exact ⟨hi.limit, hi.sent, fun p hp => (hi.called p).2 (by have := (ht p).1 hp; omega)⟩

/-- C89: nothing that could happen in the pool is undefined behaviour. -/
theorem C89_safe {max : Nat} {s : State} (h : Reach (step max) {} s) (l : Label) : step max s l ≠ .ub := by
  cases l with
  | async k =>
    simp only [step]
    split
    case isFalse => simp
    split <;> try simp
    rename_i hk
    exact C25.C25_safe (reach_async h) k hk
  | send p => simp only [step]; split <;> simp
  | sync => simp only [step]; split <;> simp
  | syncSent => simp only [step]; split <;> simp
  | syncFailed => simp only [step]; split <;> simp

/-- Those steps are made by threads from the pool. -/
def Pooled : Label → Prop
  | .async l => onMain l = false
  | .send _ => True
  | _ => False

theorem go {max : Nat} {s t : State} {l : Label} (hs : step max s l = .ok t) (hl : Pooled l) {P : State → Prop}
    (h : ∃ ls u, (∀ l ∈ ls, Pooled l) ∧ exec (step max) t ls = .ok u ∧ P u) :
    ∃ ls u, (∀ l ∈ ls, Pooled l) ∧ exec (step max) s ls = .ok u ∧ P u := by
  obtain ⟨ls, u, h1, h2, h3⟩ := h
  refine ⟨l :: ls, u, ?_, ?_, h3⟩
  · intro k hk
    rcases List.mem_cons.1 hk with rfl | hk
    · exact hl
    · exact h1 k hk
  · simp only [exec, hs]
    exact h2

/-- What's left to do. -/
def left (s : Async.State) : Nat := 4 * s.queue.length + 3 * s.starting.length + 2 * s.running.length + s.finished.length

theorem served {max : Nat} (hm : 0 < max) (p n : Nat) (s : State) (h : Reach (step max) {} s) (hn : left s.async ≤ n)
    (hp : p ∈ s.async.queue ∨ p ∈ s.async.starting) (hc : ∃ tx, s.async.txs p = some tx ∧ tx.cancelled = false) :
    ∃ ls u, (∀ l ∈ ls, Pooled l) ∧ exec (step max) s ls = .ok u ∧ .sent (.async p) ∈ u.log := by
  induction n generalizing s with
  | zero =>
    simp only [left] at hn
    rcases hp with hp | hp <;> have := List.length_pos_of_mem hp <;> omega
  | succ n ih =>
    have hr := reach_async h
    have ha := (Async.inv_reach hr).2
    have hi := Inv.reach h
    have live : ∀ q, q ∈ s.async.queue ∨ q ∈ s.async.starting ∨ q ∈ s.async.finished →
        ∃ tx, s.async.txs q = some tx := by
      intro q hq
      apply Async.alive_of_mem (ha q)
      rcases hq with hq | hq | hq <;> have := Async.count_of_mem hq <;> omega
    by_cases hst : p ∈ s.async.starting
    · obtain ⟨tx, htx, hcc⟩ := hc
      refine go (l := .async (.exec p)) (t := { s with async := { s.async with
          starting := s.async.starting.erase p, running := p :: s.async.running, log := s.async.log ++ [.exec p] } }) ?_ rfl ?_
      · simp [step, mayStart, onMain, Async.step, hst, htx, events]
      · refine go (l := .send p) (t := { s with
            async := { s.async with
              starting := s.async.starting.erase p, running := p :: s.async.running, log := s.async.log ++ [.exec p] }
            sent := p :: s.sent, log := s.log ++ [.sent (.async p)] }) ?_ trivial ⟨[], _, by simp, rfl, by simp⟩
        have : p ∉ s.sent := fun hs => (hi.list p hs).2 hst
        simp [step, this]
    · have hq : p ∈ s.async.queue := by grind
      cases hf : s.async.finished with
      | cons q fs =>
        obtain ⟨tx, htx⟩ := live q (.inr (.inr (by rw [hf]; exact List.mem_cons_self)))
        have hs : step max s (.async (.post q)) = .ok { s with async := { s.async with
            finished := fs, posted := q :: s.async.posted } } := by
          simp [step, mayStart, onMain, Async.step, hf, htx, events]
        refine go hs rfl (ih _ (h.step hs) ?_ (.inl hq) hc)
        simp only [left, hf, List.length_cons] at hn ⊢
        omega
      | nil =>
        cases hrun : s.async.running with
        | cons q fs =>
          have hs : step max s (.async (.executed q)) = .ok { s with async := { s.async with
              running := fs, finished := q :: s.async.finished } } := by
            simp [step, mayStart, onMain, Async.step, hrun, events]
          refine go hs rfl (ih _ (h.step hs) ?_ (.inl hq) hc)
          simp only [left, hf, hrun, List.length_cons] at hn ⊢
          omega
        | nil =>
          cases hsta : s.async.starting with
          | cons q fs =>
            obtain ⟨tx, htx⟩ := live q (.inr (.inl (by rw [hsta]; exact List.mem_cons_self)))
            have hs : step max s (.async (.exec q)) = .ok { s with async := { s.async with
                starting := fs, running := q :: s.async.running, log := s.async.log ++ [.exec q] } } := by
              simp [step, mayStart, onMain, Async.step, hsta, htx, events]
            refine go hs rfl (ih _ (h.step hs) ?_ (.inl hq) hc)
            simp only [left, hf, hrun, hsta, List.length_cons] at hn ⊢
            omega
          | nil =>
            have hb : busy s.async < max := by simp [busy, hf, hrun, hsta, hm]
            cases hqu : s.async.queue with
            | nil => rw [hqu] at hq; cases hq
            | cons q fs =>
              obtain ⟨tx, htx⟩ := live q (.inl (by rw [hqu]; exact List.mem_cons_self))
              have hmay : mayStart max s.async (.check q) = true := by simp [mayStart, hqu, hb]
              by_cases hcan : tx.cancelled = true
              · have hs : step max s (.async (.check q)) = .ok { s with
                    async := { s.async with queue := fs, finished := q :: s.async.finished }
                    log := s.log ++ [.taken q] } := by
                  simp only [step, hmay]
                  simp [onMain, Async.step, hqu, htx, events, hcan]
                have hne : p ≠ q := by
                  rintro rfl
                  obtain ⟨tx', htx', hcc⟩ := hc
                  rw [htx] at htx'
                  cases htx'
                  rw [hcan] at hcc
                  cases hcc
                refine go hs rfl (ih _ (h.step hs) ?_ (.inl ?_) hc)
                · simp only [left, hf, hrun, hsta, hqu, List.length_cons] at hn ⊢
                  omega
                · rw [hqu] at hq
                  exact (List.mem_cons.1 hq).resolve_left hne
              · have hs : step max s (.async (.check q)) = .ok { s with
                    async := { s.async with queue := fs, starting := q :: s.async.starting }
                    log := s.log ++ [.taken q] } := by
                  simp only [step, hmay]
                  simp [onMain, Async.step, hqu, htx, events, hcan]
                refine go hs rfl (ih _ (h.step hs) ?_ ?_ hc)
                · simp only [left, hf, hrun, hsta, hqu, List.length_cons] at hn ⊢
                  omega
                · rw [hqu] at hq
                  rcases List.mem_cons.1 hq with rfl | hq
                  · exact .inr List.mem_cons_self
                  · exact .inl hq

/-- C89: an asynchronous call which hasn't been cancelled, and which is still waiting for a thread, is sent by the threads from the
pool if those which take care of the others return, no matter what the main thread is doing. -/
theorem C89_served {s : State} (h : Reach (step maxThreads) {} s) (p : Nat) (hp : p ∈ s.async.queue) (tx : Async.Tx)
    (ht : s.async.txs p = some tx) (hc : tx.cancelled = false) :
    ∃ ls u, (∀ l ∈ ls, Pooled l) ∧ exec (step maxThreads) s ls = .ok u ∧ .sent (.async p) ∈ u.log :=
  served (by decide) p _ s h (Nat.le_refl _) (.inl hp) ⟨tx, ht, hc⟩

/-- Two asynchronous calls, the second one is sent first. -/
def swapped : List Label :=
  [.async .submit, .async .submit, .async (.check 0), .async (.check 1), .async (.exec 0), .async (.exec 1), .send 1, .send 0]

/-- C89 fails: two (one-way) calls which were made by gbinder_client_transact one after another are taken care of by two threads, and
sent in the wrong order. -/
theorem C89_fails_order : ∃ s, Reach (step maxThreads) {} s ∧ ¬ InOrder s.log := by
  have hk : (exec (step maxThreads) {} swapped).holds (fun s => decide (s.log =
      [.called (.async 0), .called (.async 1), .taken 0, .taken 1, .sent (.async 1), .sent (.async 0)])) = true := by
    decide +kernel
  match h : exec (step maxThreads) {} swapped with
  | .ok s =>
    rw [h] at hk
    refine ⟨s, ⟨swapped, h⟩, fun ho => ?_⟩
    have hl := of_decide_eq_true hk
    refine ho (.async 0) (.async 1) ⟨[.called (.async 0)], _, hl, by decide, by decide⟩
      ⟨[.called (.async 0), .called (.async 1), .taken 0, .taken 1, .sent (.async 1)], _, hl, by decide, by decide⟩
  | .no => rw [h] at hk; cases hk
  | .ub => rw [h] at hk; cases hk

/-- An asynchronous call and a synchronous one, which is sent first. -/
def overtaken : List Label :=
  [.async .submit, .sync, .syncSent, .async (.check 0), .async (.exec 0), .send 0]

/-- C89 fails: a call made by gbinder_client_transact is overtaken by the one which is made by gbinder_client_transact_sync_oneway
after that, even if there's just one thread in the pool. -/
theorem C89_fails_overtaken : ∃ s, Reach (step 1) {} s ∧ ¬ InOrder s.log := by
  have hk : (exec (step 1) {} overtaken).holds (fun s => decide (s.log =
      [.called (.async 0), .called (.sync 0), .sent (.sync 0), .taken 0, .sent (.async 0)])) = true := by
    decide +kernel
  match h : exec (step 1) {} overtaken with
  | .ok s =>
    rw [h] at hk
    refine ⟨s, ⟨overtaken, h⟩, fun ho => ?_⟩
    have hl := of_decide_eq_true hk
    refine ho (.async 0) (.sync 0) ⟨[.called (.async 0)], _, hl, by decide, by decide⟩
      ⟨[.called (.async 0), .called (.sync 0), .sent (.sync 0)], _, hl, by decide, by decide⟩
  | .no => rw [h] at hk; cases hk
  | .ub => rw [h] at hk; cases hk

/-- None of the threads is free, all of them are waiting in fn_exec. -/
def Stuck (max : Nat) (s : State) : Prop := s.async.starting = [] ∧ s.async.finished = [] ∧ s.async.running.length = max

theorem stuck_step {max : Nat} {s t : State} {l : Label} (h : Stuck max s) (hl : ∀ p, l ≠ .async (.executed p))
    (hs : step max s l = .ok t) : Stuck max t ∧ ∀ p, .taken p ∈ t.log → .taken p ∈ s.log := by
  obtain ⟨h1, h2, h3⟩ := h
  cases l with
  | async k =>
    simp only [step] at hs
    split at hs
    case isFalse => cases hs
    rename_i hg
    split at hs
    case h_2 => cases hs
    case h_3 => cases hs
    rename_i u hu
    cases hs
    cases k with
    | check p =>
      have := hg.2
      simp [mayStart, busy, h1, h2, h3] at this
    | executed p => exact absurd rfl (hl p)
    | exec p => simp [Async.step, h1] at hu
    | post p => simp [Async.step, h2] at hu
    | submit | done p | free p | cancel p | flush p =>
      simp only [Async.step] at hu
      (repeat' split at hu) <;> cases hu <;> simp [Stuck, h1, h2, h3, events]
  | send p => simp only [step] at hs; split at hs <;> cases hs; simp [Stuck, h1, h2, h3]
  | sync => simp only [step] at hs; split at hs <;> cases hs; simp [Stuck, h1, h2, h3]
  | syncSent => simp only [step] at hs; split at hs <;> cases hs; simp [Stuck, h1, h2, h3]
  | syncFailed => simp only [step] at hs; split at hs <;> cases hs; simp [Stuck, h1, h2, h3]

/-- C89: as long as all threads are waiting for replies, and none of those arrives, nothing else is sent. -/
theorem C89_waits {max : Nat} {s t : State} {ls : List Label} (h : Stuck max s) (hl : ∀ l ∈ ls, ∀ p, l ≠ .async (.executed p))
    (hs : exec (step max) s ls = .ok t) (p : Nat) (hp : .taken p ∈ t.log) : .taken p ∈ s.log := by
  induction ls generalizing s with
  | nil => cases hs; exact hp
  | cons l ls ih =>
    simp only [exec] at hs
    split at hs
    · rename_i u hu
      obtain ⟨h1, h2⟩ := stuck_step h (hl l List.mem_cons_self) hu
      exact h2 p (ih h1 (fun k hk => hl k (List.mem_cons_of_mem _ hk)) hs)
    · cases hs
    · cases hs

/-- 16 calls, the last one of which is still waiting for a thread. -/
def sixteen : List Label :=
  List.replicate 16 (.async .submit) ++ (List.range 15).flatMap fun p => [.async (.check p), .async (.exec p), .send p]

/-- C89 fails: if nobody replies to 15 calls made by gbinder_client_transact, the 16th one isn't sent, not even if it's a one-way
call to another object, which those who have to reply are waiting for. -/
theorem C89_fails_stuck : ∃ s, Reach (step maxThreads) {} s ∧ .called (.async 15) ∈ s.log ∧
    (∀ p, p < 15 → .sent (.async p) ∈ s.log) ∧
    ∀ ls t, (∀ l ∈ ls, ∀ p, l ≠ .async (.executed p)) → exec (step maxThreads) s ls = .ok t → .sent (.async 15) ∉ t.log := by
  have hk : (exec (step maxThreads) {} sixteen).holds (fun s => decide (.called (.async 15) ∈ s.log ∧
      ((List.range 15).all fun p => decide (.sent (.async p) ∈ s.log)) = true ∧ .taken 15 ∉ s.log ∧
      s.async.starting = [] ∧ s.async.finished = [] ∧ s.async.running.length = maxThreads)) = true := by
    decide +kernel
  match h : exec (step maxThreads) {} sixteen with
  | .ok s =>
    rw [h] at hk
    obtain ⟨h1, h2, h3, h4⟩ := of_decide_eq_true hk
    have hr : Reach (step maxThreads) {} s := ⟨sixteen, h⟩
    refine ⟨s, hr, h1, ?_, ?_⟩
    · intro p hp
      exact of_decide_eq_true (List.all_eq_true.1 h2 p (List.mem_range.2 hp))
    · intro ls t hl ht hs
      obtain ⟨l0, hl0⟩ := hr
      have hr' : Reach (step maxThreads) {} t := ⟨l0 ++ ls, by rw [exec_append, hl0]; exact ht⟩
      exact h3 (C89_waits h4 hl ht 15 ((Inv.reach hr').sent 15 hs))
  | .no => rw [h] at hk; cases hk
  | .ub => rw [h] at hk; cases hk

/-- With one thread, two asynchronous calls and one synchronous are sent. -/
def usual : List Label :=
  [.sync, .syncSent, .async .submit, .async .submit, .async (.check 0), .async (.exec 0), .send 0, .async (.executed 0),
   .async (.post 0), .async (.check 1), .async (.exec 1), .send 1, .async (.done 0), .async .submit, .async (.executed 1),
   .async (.post 1), .async (.check 2), .async (.exec 2), .send 2]

example : (exec (step 1) {} usual).holds (fun s => decide (s.log =
    [.called (.sync 0), .sent (.sync 0), .called (.async 0), .called (.async 1), .taken 0, .sent (.async 0), .taken 1,
     .sent (.async 1), .over 0, .called (.async 2), .taken 2, .sent (.async 2)])) = true := by
  decide +kernel

example : (exec (step maxThreads) {} usual).holds (fun s => decide (.over 0 ∈ s.log ∧ .sent (.async 2) ∈ s.log)) = true := by
  decide +kernel

/-- Someone is waiting for a thread while the main thread is busy. -/
example : (exec (step maxThreads) {} [.async .submit, .sync]).holds
    (fun s => decide (0 ∈ s.async.queue ∧ s.async.txs 0 = some { id := 1 } ∧ s.pending = some 0)) = true := by
  decide +kernel

end Gb.C89
