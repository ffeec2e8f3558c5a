import Verif.Lemmas.BridgedMove
/-
C78: Calls made to an object which has been passed through a bridge are sent to the object which was
passed, and to nothing else, for as long as anyone has it; after that it's released.

It's partial because the code doesn't always do that: see `C78_fails_empty`.
-/
set_option autoImplicit false

namespace Gb.C78
open Gb.Bridged

/-- Whoever has the proxy, or has called it, is right about what it is: the handle still refers to
what it referred to when the proxy was sent. -/
theorem C78_target_partial {s : State} (h : ReachIf step Calm {} s) {n : Nat} (hn : n ∈ s.told) (h1 : s.dead = false)
    (h2 : s.dropped = false) : s.live = true ∧ s.forwardsTo = some (some n) := by
  have i := inv_reach h
  have hu := i.used.1 (List.ne_nil_of_mem hn)
  refine ⟨(i.alive (i.shared hu)).2.1, ?_⟩
  rw [State.forwardsTo, if_pos ⟨h2, h1⟩, i.told n hn h1 h2]

/-- Whoever has the proxy, or has called it, was told what it was. -/
theorem C78_known_partial {s : State} (h : ReachIf step Calm {} s) : Used s ↔ s.told ≠ [] := (inv_reach h).used.symm

/-- Those who get the proxy are told what the handle refers to at that moment. -/
theorem C78_send_partial {s s' : State} (h : ReachIf step Calm {} s) {t : Nat} {k : Kind}
    (hs : step s (.send t k) = .ok s') : ∃ n, s.node = some n ∧ s'.told = s.told ++ [n] ∧ s'.node = some n := by
  have i := inv_reach h
  have i' := inv_step (l := .send t k) (by simp [Calm]) i hs
  simp only [step] at hs
  split at hs
  · rename_i hk
    have hpos : 0 < s.holds := by
      have := List.length_pos_of_mem hk.1
      simp only [State.holds]; omega
    cases hn : s.node with
    | none => have := i.node.1 hn; omega
    | some n =>
      refine ⟨n, rfl, ?_⟩
      cases hs
      unfold State.incNode
      split <;> simp [hn]
  · cases hs

/-- A call made to the proxy reaches the object which was passed, unless it's dead or the bridge has been taken
down. -/
theorem C78_call_partial {s s' : State} (h : ReachIf step Calm {} s) {d : Bool} (hs : step s (.handle d) = .ok s')
    (h1 : s.dead = false) (h2 : s.dropped = false) :
    ∃ n ∈ s.told, s.forwardsTo = some (some n) ∧ ∀ m ∈ s.told, m = n := by
  simp only [step] at hs
  split at hs
  · rename_i hd
    have ht := (C78_known_partial h).1 (.inr (.inr (List.ne_nil_of_mem hd)))
    obtain ⟨n, l, hl⟩ := List.exists_cons_of_ne_nil ht
    have hn : n ∈ s.told := by simp [hl]
    have hf := (C78_target_partial h hn h1 h2).2
    refine ⟨n, hn, hf, fun m hm => ?_⟩
    have := (C78_target_partial h hm h1 h2).2
    rw [hf] at this
    simpa using this.symm
  · cases hs

/-- A call made to the proxy is received by the proxy. -/
theorem C78_accept_partial {s s' : State} (h : ReachIf step Calm {} s) {d : Bool} (hs : step s (.accept d) = .ok s') :
    s'.calls = s.calls ++ [d] := by
  have i := inv_reach h
  simp only [step] at hs
  split at hs
  · rename_i hd
    have hl := (i.alive (i.shared (.inr (.inl (List.ne_nil_of_mem hd))))).2.1
    cases hs
    simp only [hl, if_true]
    cases d
    · simp only [Bool.false_eq_true, if_false, State.unused]
      split <;> rfl
    · rfl
  · cases hs

/-- The proxy has exactly one reference to the handle when it has been acquired and none otherwise. -/
theorem C78_balance_partial {s : State} (h : ReachIf step Calm {} s) :
    s.acq = (if s.acquired then 1 else 0) ∧ (s.acquired = true → s.live = true) := by
  have i := inv_reach h
  refine ⟨i.acq, fun ha => ?_⟩
  cases hl : s.live with
  | true => rfl
  | false => have := (i.idle hl).2; rw [ha] at this; cases this

/-- The handle isn't there when there's no proxy and nobody else needs it. -/
theorem C78_gone_partial {s : State} (h : ReachIf step Calm {} s) (hl : s.live = false) (h1 : s.loose = 0)
    (h2 : s.other = 0) : s.node = none := by
  have i := inv_reach h
  obtain ⟨h3, h4⟩ := i.idle hl
  refine i.node.2 ?_
  have := i.acq
  simp only [State.refs] at h3
  have hk := List.countP_le_length (p := Task.keeps) (l := s.tasks)
  simp only [h4, Bool.false_eq_true, if_false] at this
  simp only [State.holds]
  omega

/-- When nobody has the proxy and all that has been scheduled is done, then the proxy is freed and the handle
is released. -/
theorem C78_freed_partial {s : State} (h : ReachIf step Calm {} s) (hl : s.live = true) (hu : ¬ Used s)
    (h1 : s.built = [] ∧ s.sent = [] ∧ s.waiting = [] ∧ s.tasks = []) (h2 : s.inbox = [] ∧ s.todo = [] ∧ s.proc = false)
    (h3 : s.served = [] ∧ s.leaving = 0) :
    ∃ s', step s .free = .ok s' ∧ s'.live = false ∧ s'.acq = 0 ∧ (s.loose = 0 → s.other = 0 → s'.node = none) := by
  have i := inv_reach h
  obtain ⟨b1, b2, b3, b4⟩ := h1
  obtain ⟨q1, q2, q3⟩ := h2
  simp only [Used, not_or, Nat.not_lt, Nat.le_zero, ne_eq, Classical.not_not] at hu
  obtain ⟨u1, u2, u3⟩ := hu
  have hloc := i.loc
  have hcredit := i.credit
  simp only [q1, b4, u2, u3, h3.1, List.countP_nil, List.length_nil, Nat.add_zero] at hloc hcredit
  have hh : s.has = false := by
    cases hh : s.has with
    | false => rfl
    | true =>
      have := quiet_reach h hh (by simp only [State.shared]; omega)
      rw [q3] at this; cases this
  simp only [hh, Bool.false_eq_true, if_false] at hcredit
  have hr : s.refs = 0 := by
    simp only [State.refs, b1, b2, b3, b4, u3, h3.1, h3.2, List.length_nil]; omega
  have hs : step s .free = .ok
      (if s.acquired then { s with live := false, acquired := false, acq := s.acq - 1 }.settle
        else { s with live := false }) := by
    simp only [step]
    rw [if_pos ⟨hl, hr⟩]
  refine ⟨_, hs, ?_⟩
  have h' : ReachIf step Calm {} _ := .step .free h (by simp [Calm]) hs
  have hb := C78_balance_partial h'
  have hlive : (if s.acquired then { s with live := false, acquired := false, acq := s.acq - 1 }.settle
        else { s with live := false }).live = false := by
    split
    · unfold State.settle; split <;> rfl
    · rfl
  refine ⟨hlive, ?_, fun hlo hot => C78_gone_partial h' hlive ?_ ?_⟩
  · rw [hb.1, ((inv_reach h').idle hlive).2]
    rfl
  · split
    · unfold State.settle; split <;> exact hlo
    · exact hlo
  · split
    · unfold State.settle; split <;> exact hot
    · exact hot

/-- When nobody has the proxy, and nothing with it is about to be sent, it's always released: no matter what hasn't been done yet
at that point, that can be done without anyone else doing anything, and then the proxy is gone and the kernel forgets
the handle (unless others need it). -/
theorem C78_released_partial {s : State} (h : ReachIf step Calm {} s) (hu : ¬ Used s) (hb : s.built = []) :
    ∃ ls s', (∀ l ∈ ls, Settling l) ∧ exec step s ls = .ok s' ∧ s'.live = false ∧ s'.acq = 0 ∧
      (s.loose = 0 → s.other = 0 → s'.node = none) := by
  obtain ⟨ls, s1, h1, h2, h3, ⟨⟨e1, e2, e3⟩, e4, e5⟩, a1, a2, a3, a4, a5, a6⟩ := settles h
  have hu' : ¬ Used s1 := by unfold Used at *; rw [a1, a2, a3]; exact hu
  cases hl : s1.live with
  | false =>
    refine ⟨ls, s1, h1, h2, hl, ?_, fun p q => C78_gone_partial h3 hl (a5 ▸ p) (a6 ▸ q)⟩
    rw [(C78_balance_partial h3).1, ((inv_reach h3).idle hl).2]; rfl
  | true =>
    obtain ⟨s2, b1, b2, b3, b4⟩ := C78_freed_partial h3 hl hu' ⟨a4 ▸ hb, e1, e2, e3⟩ e4 e5
    refine ⟨ls ++ [.free], s2, ?_, ?_, b2, b3, fun p q => b4 (a5 ▸ p) (a6 ▸ q)⟩
    · intro l hl
      rcases List.mem_append.1 hl with hl | hl
      · exact h1 l hl
      · rw [List.mem_singleton.1 hl]; trivial
    · rw [exec_append, h2]; simp only [exec, b1]

/-- A call which has been made is received by the proxy and handled, and what the call was made with is sent to the object which was
passed (unless it's dead or the bridge has been taken down); nothing else has to happen before that. -/
theorem C78_delivered_partial {s : State} (h : ReachIf step Calm {} s) {d : Bool} (hd : d ∈ s.arriving) (h1 : s.dead = false)
    (h2 : s.dropped = false) :
    ∃ s1 s2, step s (.accept d) = .ok s1 ∧ step s1 (.handle d) = .ok s2 ∧ s2.served = s.served ++ [d] ∧
      ∃ n ∈ s.told, s1.forwardsTo = some (some n) ∧ ∀ m ∈ s.told, m = n := by
  have i := inv_reach h
  have hl := (i.alive (i.shared (.inr (.inl (List.ne_nil_of_mem hd))))).2.1
  have hdt : d = true := i.data.1 d hd
  subst hdt
  have hs1 : step s (.accept true) = .ok { s with arriving := s.arriving.erase true, calls := s.calls ++ [true] } := by
    simp [step, hd, hl]
  have hs2 : step { s with arriving := s.arriving.erase true, calls := s.calls ++ [true] } (.handle true) =
      .ok { s with
        arriving := s.arriving.erase true, calls := (s.calls ++ [true]).erase true, served := s.served ++ [true] }.forget := by
    simp [step]
  have h' := ReachIf.step (.accept true) h (by simp [Calm]) hs1
  have hc := C78_call_partial h' hs2 h1 h2
  refine ⟨_, _, hs1, hs2, ?_, by exact hc⟩
  unfold State.forget; split <;> rfl

/-- An empty (one-way) call made by a process which then drops its reference, while the request with the proxy is still
being sent. -/
def emptyCall : List Label :=
  [.receive 1, .create .request, .unrefBuffer, .send 1 .request, .call false, .less, .accept false, .read 1, .read 1,
   .take 1, .finish .request, .run, .receive 2]

/-- The buffer of an empty call is freed before the call is handled (gbinder_driver.c:544-547). Then nothing keeps the
handle, the kernel uses it for another object, and that's where the call is sent. -/
theorem C78_fails_empty : ∃ s, Reach step {} s ∧ s.told = [1] ∧ s.dead = false ∧ s.dropped = false ∧
    (step s (.handle false)).isUb = false ∧ false ∈ s.calls ∧ s.forwardsTo = some (some 2) := by
  have h3 : (exec step {} emptyCall).holds (fun s => s.told = [1] ∧ s.dead = false ∧ s.dropped = false ∧
    (step s (.handle false)).isUb = false ∧ false ∈ s.calls ∧ s.forwardsTo = some (some 2)) = true := by decide +kernel
  cases hs : exec step {} emptyCall with
  | ok s =>
    rw [hs] at h3
    simp only [Out.holds, decide_eq_true_eq] at h3
    exact ⟨s, ⟨_, hs⟩, h3⟩
  | no => rw [hs] at h3; cases h3
  | ub => rw [hs] at h3; cases h3

/-- `Calm` holds throughout the run. -/
def calmRun (s : State) : List Label → Bool
  | [] => true
  | l :: ls => decide (Calm s l) && match step s l with
    | .ok s' => calmRun s' ls
    | _ => false

theorem reachIf_of_exec {ls : List Label} : ∀ {s : State}, ReachIf step Calm {} s → calmRun s ls = true →
    ∃ s', exec step s ls = .ok s' ∧ ReachIf step Calm {} s' := by
  induction ls with
  | nil => intro s h _; exact ⟨s, rfl, h⟩
  | cons l ls ih =>
    intro s h hn
    simp only [calmRun, Bool.and_eq_true, decide_eq_true_eq] at hn
    obtain ⟨h1, h2⟩ := hn
    split at h2
    · rename_i s1 hs
      obtain ⟨s', h3, h4⟩ := ih (.step l h h1 hs) h2
      exact ⟨s', by simp only [exec, hs, h3], h4⟩
    · cases h2

/-- The handle is received in a reply, and the proxy is sent in another reply; buffers are freed as soon as
they aren't needed. Then it's sent with a request, and called. -/
def pass : List Label :=
  [.receive 7, .create .reply, .send 1 .reply, .unrefBuffer, .read 1, .read 1, .take 1, .take 1, .finish .reply, .run,
   .run, .receive 7, .find .request, .send 2 .request, .unrefBuffer, .read 2, .take 2, .finish .request, .call true, .less,
   .run, .accept true]

/-- Then it's not needed any more. -/
def unpass : List Label :=
  [.handle true, .less, .answered true, .leave, .readProc 3, .take 3, .run]

/-- The hypotheses of `C78_target_partial` and `C78_call_partial`; nothing but the proxy keeps the handle. -/
example : ∃ s, ReachIf step Calm {} s ∧ s.told = [7, 7] ∧ s.dead = false ∧ s.dropped = false ∧ s.calls = [true] ∧
    s.holds = 0 ∧ s.other = 0 ∧ s.peers = 1 := by
  obtain ⟨s, h1, h2⟩ := reachIf_of_exec (ls := pass) .init (by decide +kernel)
  have h3 : (exec step {} pass).holds (fun s => s.told = [7, 7] ∧ s.dead = false ∧ s.dropped = false ∧
    s.calls = [true] ∧ s.holds = 0 ∧ s.other = 0 ∧ s.peers = 1) = true := by decide +kernel
  rw [h1] at h3
  simp only [Out.holds, decide_eq_true_eq] at h3
  exact ⟨s, h2, h3⟩

/-- The one who has called it doesn't have a reference when the call is received (`C78_accept_partial`), and the
proxy hasn't been acquired. -/
example : calmRun {} [.receive 7, .create .request, .send 2 .request, .unrefBuffer, .call true, .less, .accept true] = true ∧
    (exec step {} [.receive 7, .create .request, .send 2 .request, .unrefBuffer, .call true, .less]).holds (fun s =>
      s.acquired = false ∧ s.peers = 0 ∧ s.arriving = [true] ∧ s.told = [7]) = true := by decide +kernel

/-- `C78_freed_partial` and `C78_gone_partial` -/
example : ∃ s, ReachIf step Calm {} s ∧ s.live = true ∧ ¬ Used s ∧
    (s.built = [] ∧ s.sent = [] ∧ s.waiting = [] ∧ s.tasks = []) ∧ (s.inbox = [] ∧ s.todo = [] ∧ s.proc = false) ∧
    (s.served = [] ∧ s.leaving = 0) ∧ s.node = some 7 ∧ s.loose = 0 ∧ s.other = 0 := by
  obtain ⟨s, h1, h2⟩ := reachIf_of_exec (ls := pass ++ unpass) .init (by decide +kernel)
  have h3 : (exec step {} (pass ++ unpass)).holds (fun s => s.live = true ∧
      ¬ (0 < s.peers ∨ s.arriving ≠ [] ∨ s.calls ≠ []) ∧
    (s.built = [] ∧ s.sent = [] ∧ s.waiting = [] ∧ s.tasks = []) ∧ (s.inbox = [] ∧ s.todo = [] ∧ s.proc = false) ∧
    (s.served = [] ∧ s.leaving = 0) ∧ s.node = some 7 ∧ s.loose = 0 ∧ s.other = 0) = true := by decide +kernel
  rw [h1] at h3
  simp only [Out.holds, decide_eq_true_eq] at h3
  exact ⟨s, h2, h3⟩

/-- `C78_released_partial`: the one who had the proxy has dropped it, nothing else has happened yet. -/
example : ∃ s, ReachIf step Calm {} s ∧ s.live = true ∧ ¬ Used s ∧ s.built = [] ∧ s.loose = 0 ∧ s.other = 0 ∧
    s.node = some 7 ∧ s.todo ≠ [] := by
  obtain ⟨s, h1, h2⟩ := reachIf_of_exec (ls := [.receive 7, .create .request, .send 2 .request, .unrefBuffer, .less]) .init
    (by decide +kernel)
  have h3 : (exec step {} [.receive 7, .create .request, .send 2 .request, .unrefBuffer, .less]).holds (fun s =>
      s.live = true ∧ ¬ (0 < s.peers ∨ s.arriving ≠ [] ∨ s.calls ≠ []) ∧ s.built = [] ∧ s.loose = 0 ∧ s.other = 0 ∧
      s.node = some 7 ∧ s.todo ≠ []) = true := by decide +kernel
  rw [h1] at h3
  simp only [Out.holds, decide_eq_true_eq] at h3
  exact ⟨s, h2, h3⟩

/-- `C78_delivered_partial` -/
example : ∃ s, ReachIf step Calm {} s ∧ s.arriving = [true] ∧ s.dead = false ∧ s.dropped = false ∧ s.told = [7] := by
  obtain ⟨s, h1, h2⟩ := reachIf_of_exec (ls := [.receive 7, .create .request, .send 2 .request, .unrefBuffer, .call true, .less])
    .init (by decide +kernel)
  have h3 : (exec step {} [.receive 7, .create .request, .send 2 .request, .unrefBuffer, .call true, .less]).holds (fun s =>
      s.arriving = [true] ∧ s.dead = false ∧ s.dropped = false ∧ s.told = [7]) = true := by decide +kernel
  rw [h1] at h3
  simp only [Out.holds, decide_eq_true_eq] at h3
  exact ⟨s, h2, h3⟩

/-- After that the handle may refer to another object, there may be another proxy for it. -/
example : calmRun {} (pass ++ unpass ++ [.free, .receive 8, .create .request, .send 1 .request]) = true ∧
    (exec step {} (pass ++ unpass ++ [.free, .receive 8, .create .request, .send 1 .request])).holds (fun s =>
      s.told = [8] ∧ s.forwardsTo = some (some 8)) = true := by decide +kernel

end Gb.C78
