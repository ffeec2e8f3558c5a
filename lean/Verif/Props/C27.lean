import Verif.Lemmas.LooperTxLive
/-
C27: a request handled on the main thread is completed exactly once: with the handler's reply if it
was not blocked, or with the reply given to gbinder_remote_request_complete() if it was, regardless of
whether completion happens before or after the handler returns and on which side the waiting thread
is.

Executions are arbitrary interleavings of the looper and the main thread, the handler and the app do
whatever they like with the request, and the looper may stop waiting at any point.
-/
set_option autoImplicit false

namespace Gb.C27
open Gb.LooperTx

/-- Neither the transaction nor the request nor the pipe is used after it's gone. -/
theorem C27_safe {s : State} (h : Reach step {} s) (l : Label) : step s l ≠ .ub := by
  intro hu
  rcases fine (inv_reach h) l with h | ⟨s', h, _⟩ <;> rw [h] at hu <;> cases hu

/-- Each open pipe belongs to the looper or to a transaction, and no two transactions share it. -/
theorem C27_pipes {s : State} (h : Reach step {} s) :
    (∀ p, s.pipes p ≠ none ↔ s.txfd = some p ∨ ∃ t tx, (s.call t).tx = some tx ∧ tx.pipe = p) ∧
    (∀ t u tx ux, (s.call t).tx = some tx → (s.call u).tx = some ux → tx.pipe = ux.pipe → t = u) := by
  obtain ⟨p1, p2, p3, p4, p5, p6⟩ := (inv_reach h).pipes
  refine ⟨fun p => ⟨fun hp => ?_, ?_⟩, ?_⟩
  · rcases p5 p hp with h | ⟨t, h⟩
    · exact .inl h
    · cases htx : (s.call t).tx with
      | none => simp [htx] at h
      | some tx => exact .inr ⟨t, tx, htx, by simpa [htx] using h⟩
  · rintro (h | ⟨t, tx, h, rfl⟩)
    · exact (p4 p h).1
    · exact (p1 t _ (by simp [h])).1
  · intro t u tx ux h1 h2 h3
    exact p2 t u tx.pipe (by simp [h1]) (by simp [h2, h3])

/-- When the looper is gone and nobody holds a reference to any of the requests and the main
thread is done with them, there are no transactions, no requests and no open pipes left. -/
theorem C27_cleanup {s : State} (h : Reach step {} s) (hp : s.phase = .gone)
    (hd : ∀ t, (s.call t).cb = .done ∧ (s.call t).cmp = false ∧ (s.call t).held = 0) :
    (∀ t, (s.call t).tx = none ∧ (s.call t).req = none) ∧ ∀ p, s.pipes p = none := by
  have hi := inv_reach h
  have hc : ∀ t, (s.call t).tx = none ∧ (s.call t).req = none := by
    intro t
    obtain ⟨h1, h2, h3, h4, h5, h6⟩ := hi.ok t
    obtain ⟨d1, d2, d3⟩ := hd t
    have hl : lp s.phase t = .out := by rw [hp]; rfl
    rw [hl] at h1 h2 h3 h4 h6
    simp only [Stage, d1] at h6
    cases htx : (s.call t).tx with
    | none =>
      refine ⟨rfl, ?_⟩
      cases hr : (s.call t).req with
      | none => rfl
      | some r =>
        have := h4 r hr
        simp [Lp.req, hasReq, htx, d3, d2] at this
        omega
    | some tx =>
      exfalso
      have hn := h2 tx htx
      simp only [d1, Lp.tx, Cb.ref] at hn
      have hf := h6 tx htx
      cases hrt : reqTx (s.call t).req with
      | false => simp [hrt] at hn; omega
      | true =>
        rcases hf with hf | hf | hf
        · rw [hrt] at hf; simp at hf
        · cases hr : (s.call t).req with
          | none => rw [hr] at hrt; simp [reqTx] at hrt
          | some r =>
            have := h4 r hr
            simp [Lp.req, hasReq, htx, d3, d2, hf.1] at this
            omega
        · rw [hrt, d2] at hf; simp at hf
  refine ⟨hc, fun p => ?_⟩
  cases hpp : s.pipes p with
  | none => rfl
  | some l =>
    rcases hi.pipes.leak p (by rw [hpp]; simp) with h | ⟨t, h⟩
    · rw [hi.gone hp] at h; cases h
    · simp [(hc t).1] at h

/-- The caller gets what the main thread has come up with, or the looper has stopped waiting for it, or there was no
way to pass the request to the main thread.
The executions are those in which a looper which has stopped waiting for the main thread, doesn't
handle any more transactions (see below). -/
theorem C27_answer_partial {s : State} (h : ReachIf step Sane {} s) {a b : List Ev} {t : Nat} {v : Val}
    (hl : s.log = a ++ .answer t v :: b) : work t a = .ready v ∨ ((.giveUp t ∈ a ∨ .noPipe t ∈ a) ∧ v = (none, -14)) :=
  (g_reach h).2.ans a t v b hl

/-- The caller gets at most one reply, and exactly one by the time the looper can receive the next
transaction. -/
theorem C27_once_partial {s : State} (h : ReachIf step Sane {} s) (t : Nat) :
    (answers t s.log).length ≤ 1 ∧
    ((s.phase = .idle ∨ s.phase = .gone) → t < s.calls → (answers t s.log).length = 1) := by
  have := (g_reach h).2.cnt t
  constructor
  · rw [this]; split <;> omega
  · intro hp hc
    rw [this, if_pos]
    refine ⟨hc, ?_⟩
    rcases hp with hp | hp <;> rw [hp] <;> rfl

/-- When the reply is ready and the main thread is done with it, the looper will deliver that reply
without any further help. -/
theorem C27_delivered_partial {s : State} (h : ReachIf step Sane {} s) {t : Nat} {v : Val}
    (hp : s.phase = .wait t ∨ s.phase = .wait2 t) (hc : (s.call t).cb = .done)
    (hw : work t s.log = .ready v) :
    ∃ ls s', exec step s ls = .ok s' ∧ (∀ l ∈ ls, l ∈ [Label.read, .take, .destroy, .answer]) ∧
      s'.log = s.log ++ [.answer t v] := by
  obtain ⟨hi, hg⟩ := g_reach h
  refine deliver hi hg ?_ hc hw
  rcases hp with hp | hp <;> simp [hp, lp]

/-- While the looper is waiting, it remains possible to complete the request, unless it's blocked
and the app has no references to it (see below). -/
theorem C27_progress_partial {s : State} (h : ReachIf step Sane {} s) {t : Nat}
    (hp : s.phase = .wait t ∨ s.phase = .wait2 t) (hb : work t s.log = .blocked → 0 < (s.call t).held) :
    ∃ ls s', exec step s ls = .ok s' ∧ (∀ l ∈ ls, l ≠ .giveUp) ∧ ∃ v a, s'.log = a ++ [.answer t v] := by
  obtain ⟨hi, hg⟩ := g_reach h
  refine settle _ s hi hg rfl ?_ hb
  rcases hp with hp | hp <;> simp [hp, lp]

/-! ### What doesn't hold -/

/-- The looper is waiting for the request which nobody is going to complete. -/
def dropped : List Label :=
  [.begin, .handle 0, .block 0, .ret 0 (none, 0), .tail 0, .tail 0, .read, .tail 0]

/-- The request which is blocked and never completed is supposed to be completed when the last
reference goes away (gbinder_ipc.c:527-533) but it's not: the looper holds a reference to the request
too. There's nothing that can happen except shutdown. -/
theorem C27_fails_dropped : ∃ s, exec step {} dropped = .ok s ∧ s.phase = .wait2 0 ∧
    work 0 s.log = .blocked ∧ (s.call 0).held = 0 ∧ ∀ l, l ≠ .giveUp → step s l = .no := by
  have h0 : ∃ s, exec step {} dropped = .ok s ∧ s.phase = .wait2 0 ∧ work 0 s.log = .blocked ∧ s.calls = 1 ∧
      s.pipes 0 = some [] ∧ s.call 0 = {
        tx := some { refs := 2, pipe := 0, hasReq := false, st := .blocked, val := (none, 0) }
        req := some { refs := 1, tx := true }, cb := .done } :=
    ⟨_, rfl, rfl, rfl, rfl, rfl, rfl⟩
  obtain ⟨s, h1, h2, h3, h4, h5, h6⟩ := h0
  refine ⟨s, h1, h2, h3, by rw [h6], ?_⟩
  have hc : ∀ t, (s.call t).cb = .done ∧ (s.call t).cmp = false ∧ (s.call t).held = 0 := by
    intro t
    by_cases ht : t = 0
    · subst ht; rw [h6]; exact ⟨rfl, rfl, rfl⟩
    · rw [((inv_reach ⟨_, h1⟩).fresh t (by omega)).1]; exact ⟨rfl, rfl, rfl⟩
  intro l hl
  cases l <;> simp [step, h2, hc] at hl ⊢
  rw [h6]
  simp [h5]

/-- The looper fails to wait for the first transaction. -/
def stale : List Label :=
  [.begin, .handle 0, .giveUp, .ret 0 (some 7, 0), .tail 0, .tail 0, .tail 0, .take, .destroy, .answer,
   .begin, .read, .take, .destroy, .answer]

/-- If poll() has failed (gbinder_ipc_wait doesn't retry if it was interrupted by a signal), the
next transaction may be completed without being handled. -/
theorem C27_fails_stale : (exec step {} stale).holds (fun s => s.log =
    [.begin 0, .handle 0, .giveUp 0, .ret 0 (some 7, 0), .answer 0 (none, -14), .begin 1, .answer 1 (none, 0)]) := by
  decide +kernel

/-! ### Examples -/

/-- The request is not blocked. -/
def direct : List Label :=
  [.begin, .handle 0, .ret 0 (some 7, 0), .tail 0, .tail 0, .read, .take, .tail 0, .destroy, .answer]

/-- It's blocked, and completed by the handler. -/
def early : List Label :=
  [.begin, .handle 0, .block 0, .complete 0 (some 7, 0), .drop 0, .ret 0 (none, 0), .tail 0, .tail 0, .tail 0,
   .read, .take, .destroy, .answer]

/-- It's blocked, and completed later. The next one uses another pipe. -/
def late : List Label :=
  [.begin, .handle 0, .block 0, .ref 0, .ret 0 (none, 0), .tail 0, .tail 0, .tail 0, .read,
   .complete 0 (some 7, 0), .read, .take, .destroy, .answer, .begin, .handle 1, .ret 1 (none, 3), .drop 0, .unref 0,
   .tail 1, .tail 1, .tail 1, .read, .take, .destroy, .answer, .exit]

example : (exec step {} direct).holds (fun s => (answers 0 s.log == [(some 7, 0)]) && s.phase == .idle) := by
  decide +kernel

example : (exec step {} early).holds (fun s => (answers 0 s.log == [(some 7, 0)]) && s.phase == .idle) := by
  decide +kernel

example : (exec step {} late).holds (fun s => (answers 0 s.log == [(some 7, 0)]) &&
    (answers 1 s.log == [(none, 3)]) && (s.phase == .gone) && (s.npipes == 2) && (s.pipes 0 == none) && s.pipes 1 == none) := by
  decide +kernel

/-- The condition in C27_progress_partial is met by a blocked request. -/
example : (exec step {} (late.take 9)).holds (fun s => (s.phase == .wait2 0) && (work 0 s.log == .blocked) &&
    (s.call 0).held == 1) := by
  decide +kernel

/-- And in C27_delivered_partial, regardless of where the looper is. -/
example : (exec step {} (early.take 9)).holds (fun s => (s.phase == .wait 0) && (work 0 s.log == .ready (some 7, 0)) &&
    (s.call 0).cb == .done) := by
  decide +kernel

/-- These executions are what the theorems are about. -/
theorem sane_exec {ls : List Label} {s s' : State} (h : exec step s ls = .ok s') (hs : ReachIf step Sane {} s)
    (hl : .giveUp ∉ ls) (hp : Patient s) : ReachIf step Sane {} s' := by
  induction ls generalizing s with
  | nil => cases h; exact hs
  | cons l ls ih =>
    simp only [exec] at h
    split at h
    · rename_i s1 h1
      refine ih h (hs.step l (fun _ => hp) h1) (fun hx => hl (by simp [hx])) ?_
      have hne : l ≠ .giveUp := fun hx => hl (by simp [hx])
      clear ih h
      intro t hx
      have key : ∀ {t' : Nat} {f : Option (Call × List Eff)} {evs : List Ev},
          apply s t' f evs = .ok s1 → Ev.giveUp t ∉ evs → False := by
        intro t' f evs ha he
        obtain ⟨_, _, _, _, _, hlog⟩ := apply_ok ha
        rw [hlog] at hx
        rcases List.mem_append.1 hx with hx | hx
        · exact hp t hx
        · exact he hx
      cases l <;> simp only [step] at h1
      case giveUp => exact hne rfl
      case answer =>
        split at h1
        · split at h1
          · rename_i s2 h2
            cases h1
            obtain ⟨_, _, _, _, _, hlog⟩ := apply_ok h2
            simp only at hx
            rw [hlog] at hx
            simp at hx
            exact hp t hx
          · cases h1
          · cases h1
        · cases h1
      case begin =>
        split at h1
        · split at h1 <;> cases h1 <;> simp at hx <;> exact hp t hx
        · cases h1
      case noPipe =>
        split at h1
        · cases h1; simp at hx; exact hp t hx
        · cases h1
      case read | take | destroy | exit =>
        (repeat' split at h1) <;> first | (cases h1; done) | (cases h1; exact hp t hx)
      all_goals (repeat' split at h1) <;> first | (cases h1; done) | exact key h1 (by simp)
    · cases h
    · cases h

example : ∃ s, exec step {} late = .ok s ∧ ReachIf step Sane {} s := by
  have h : ∃ s, exec step {} late = .ok s := ⟨_, rfl⟩
  obtain ⟨s, h⟩ := h
  exact ⟨s, h, sane_exec h .init (by decide) (by intro t; simp)⟩

/-- Shutdown while the handler is running. -/
example : (exec step {} [.begin, .handle 0, .giveUp, .take, .destroy, .answer, .ret 0 (some 7, 0), .exit, .tail 0, .tail 0,
    .tail 0]).holds (fun s => (answers 0 s.log == [(none, -14)]) && s.pipes 0 == none) := by
  decide +kernel

/-- pipe() fails, the next one doesn't. -/
example : (exec step {} [.noPipe, .answer, .begin, .handle 1, .ret 1 (some 7, 0), .tail 1, .tail 1, .tail 1, .read, .take,
    .destroy, .answer]).holds (fun s => (answers 0 s.log == [(none, -14)]) && (answers 1 s.log == [(some 7, 0)])) := by
  decide +kernel

end Gb.C27
