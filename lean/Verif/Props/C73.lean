import Verif.Lemmas.LooperThreads
/-
C73: the threads of the loopers are joined.

A thread which isn't detached keeps its stack until it has been joined, and joining it twice is undefined behaviour.

Missing: a looper which exits on its own isn't joined by anyone (`C73_fails_exit`), not even when there are too many of
them and it's told to (`C73_fails_burst`), and that can't be corrected later (`C73_forever_partial`). The one which can't
be started is joined (`C73_fails_create`, `C73_fails_create_blocked`). The theorems assume that threads can be created and
that no looper is waiting for a blocked transaction to be completed while the loopers are being stopped (see C28).
-/
set_option autoImplicit false

namespace Gb.C73

open Gb Gb.LooperThreads
open Gb.Loopers (Calm)

/-- No thread is joined twice. -/
theorem C73_once_partial {s : State} (h : ReachIf step Orderly {} s) {l : Loopers.Label} (hl : Calm s.base l) :
    step s (.base l) ≠ .ub := by
  have hi := reach_inv h
  cases hb : Loopers.step s.base l with
  | ok b =>
    obtain ⟨s', h1, _⟩ := step_base hi hl hb
    rw [h1]; simp
  | no => simp [step, hb]
  | ub =>
    obtain ⟨P, B, S, J, hj⟩ := hi.inv
    rcases Loopers.step_ok hj hl with h1 | ⟨s', h1, _⟩ <;> (rw [h1] at hb; cases hb)

/-- Whoever drops a reference doesn't have to wait until a thread ends, the only ones who have to wait are those who stop
the loopers. -/
theorem C73_no_wait_partial {s : State} (h : ReachIf step Orderly {} s) {l : Loopers.Label} (hl : Calm s.base l)
    {b : Loopers.State} (hb : Loopers.step s.base l = .ok b) : ∃ s', step s (.base l) = .ok s' ∧ s'.base = b := by
  obtain ⟨s', h1, _, h2, _⟩ := step_base (reach_inv h) hl hb
  exact ⟨s', h1, h2⟩

/-- The thread which has been joined doesn't run anymore. -/
theorem C73_ended_partial {s : State} (h : ReachIf step Orderly {} s) {x : Nat} (hx : s.reaped x = true) :
    s.base.thread x = .gone := ((reach_inv h).gone x hx).1

/-- The loopers being stopped are joined, except the one which stops them. -/
theorem C73_stopped_partial {s s' : State} (h : ReachIf step Orderly {} s) {c : Option Nat} {a : Bool} {t : Option Nat}
    {x : Nat} (hst : s.base.stop = .join c a t x) (hc : c ≠ some x) (hs : step s (.base .joined) = .ok s') :
    s'.reaped x = true ∧ s'.base.thread x = .gone := by
  obtain ⟨_, h2, _, h3, _⟩ := step_inv (l := .joined) (reach_inv h) trivial hs
  have hr := h3 c a t x rfl hst hc
  exact ⟨hr, (h2.gone x hr).1⟩

/-- A thread which has been joined remains joined. -/
theorem C73_stays_partial {s s' : State} (h : ReachIf step Orderly {} s) {l : Label} (hl : Orderly s l)
    (hs : step s l = .ok s') {x : Nat} (hx : s.reaped x = true) : s'.reaped x = true := by
  cases l with
  | base l => exact (step_inv (reach_inv h) hl hs).2.2.1 x hx
  | checkFails => cases hl
  | blockFails y => cases hl

/-- No looper's thread drops the last reference to its own looper. -/
def NotOwn (s : State) : Label → Prop
  | .base l => Calm s.base l ∧ ∀ x b, drops s.base l = some (some x, x) → Loopers.step s.base l = .ok b →
      (b.obj x).isSome = true
  | _ => False

theorem NotOwn.orderly {s : State} {l : Label} (h : NotOwn s l) : Orderly s l := by
  cases l with
  | base l => exact h.1
  | _ => exact h

theorem reach_orderly {s : State} (h : ReachIf step NotOwn {} s) : ReachIf step Orderly {} s := by
  induction h with
  | init => exact .init
  | step l _ hok hs ih => exact .step l ih hok.orderly hs

/-- If no looper's thread drops the last reference to its own looper, then all threads of those which have been freed have
been joined. -/
theorem C73_joined_partial {s : State} (h : ReachIf step NotOwn {} s) {x : Nat} (hx : x < s.base.n)
    (ho : s.base.obj x = none) : s.reaped x = true := by
  induction h with
  | init => cases hx
  | @step s s' l hr hok hs ih =>
    cases l with
    | checkFails => cases hok
    | blockFails y => cases hok
    | base l =>
      obtain ⟨h1, h2, h3, h4, h5⟩ := step_inv (reach_inv (reach_orderly hr)) hok.1 hs
      rcases Nat.lt_or_ge x s.base.n with hlt | hge
      · cases hob : s.base.obj x with
        | none => exact h3 x (ih hlt hob)
        | some o =>
          have hf : freed s.base s'.base x = true := by simp [freed, hob, ho]
          obtain ⟨c, hd⟩ := freed_drops h1 hf
          refine h5 c x hd hf ?_
          rintro rfl
          have := hok.2 x _ hd h1
          rw [ho] at this
          cases this
      · have := new_obj h1 hge hx
        rw [ho] at this
        cases this

/-- The thread of a looper which has been freed without joining it can't be joined anymore. -/
theorem C73_forever_partial {s s' : State} (h : ReachIf step Orderly {} s) {x : Nat} (hx : x < s.base.n)
    (ho : s.base.obj x = none) (hn : s.reaped x = false) (hr : ReachIf step Orderly s s') : s'.reaped x = false := by
  have key : ReachIf step Orderly {} s' ∧ x < s'.base.n ∧ s'.base.obj x = none ∧ s'.reaped x = false := by
    induction hr with
    | init => exact ⟨h, hx, ho, hn⟩
    | @step s s' l _ hok hs ih =>
      obtain ⟨i1, i2, i3, i4⟩ := ih
      have hr' : s'.reaped x = false := by
        cases e : s'.reaped x with
        | false => rfl
        | true =>
          rcases step_reaped hs e with h1 | h1
          · rw [i4] at h1; cases h1
          · rw [i3] at h1; cases h1
      cases l with
      | checkFails => cases hok
      | blockFails y => cases hok
      | base l =>
        have hi := reach_inv i1
        obtain ⟨h1, h2, _⟩ := step_inv hi hok hs
        obtain ⟨P, B, S, J, hj⟩ := hi.inv
        have hz : Loopers.refsOf s.base x = 0 := by simp [Loopers.refsOf, i3]
        have hrf := hj.refs x
        have hg : s.base.thread x = .gone := refs_zero (by simp only [Loopers.thr] at hrf; omega)
        have hf := frame hj hg i2 (by omega) h1
        refine ⟨.step _ i1 hok hs, hf.lt, ?_, hr'⟩
        obtain ⟨P', B', S', J', hj'⟩ := h2.inv
        refine obj_none hj' ?_
        have := hf.refs
        have := hf.temps
        omega
  exact key.2.2.2

/-! Scenarios -/

/-- The driver reports an error, the looper exits and nobody joins its thread. -/
def failing : List Loopers.Label := [.check true, .start 0 true, .release 0, .poll 0, .idle 0, .leave 0, .remove 0, .last 0]

theorem C73_fails_exit : (exec step {} (failing.map .base)).holds
    (fun s => s.base.thread 0 == .gone && s.base.obj 0 == none && s.base.n == 1 && !s.reaped 0) = true := by
  decide +kernel

/-- The looper starts handling a transaction, the handler of which blocks it. That takes another looper. -/
def blockOne (x : Nat) : List Loopers.Label :=
  [.poll x, .begin x, .block x true, .start (x + 1) true, .release (x + 1)]

/-- The transaction is completed. -/
def unblockOne (x : Nat) : List Loopers.Label := [.unblock x, .back x, .idle x]

/-- Five transactions at a time, all of them are blocked and then completed. The driver works. -/
def burst : List Loopers.Label :=
  [.check true, .start 0 true, .release 0] ++ ([0, 1, 2, 3, 4].flatMap blockOne) ++ ([0, 1, 2, 3, 4].flatMap unblockOne) ++
    [.leave 4, .remove 4, .last 4]

/-- The looper is told to exit because there are enough others, and isn't joined. -/
theorem C73_fails_burst : (exec step {} (burst.map .base)).holds
    (fun s => s.base.thread 4 == .gone && s.base.obj 4 == none && s.base.n == 6 && !s.reaped 4) = true := by
  decide +kernel

/-- If the thread can't be created then the one which doesn't exist is joined. -/
theorem C73_fails_create : (step {} .checkFails).isUb = true := by decide +kernel

/-- The same when a looper gets blocked. -/
theorem C73_fails_create_blocked :
    (exec step {} (([.check true, .start 0 true, .release 0, .poll 0, .begin 0].map .base) ++ [.blockFails 0])).isUb =
      true := by decide +kernel

/-- A way to run a scenario and check the assumption. -/
def runIf : State → List Loopers.Label → Option State
  | s, [] => some s
  | s, l :: ls =>
    if C28.calm s.base l then
      match step s (.base l) with
      | .ok s' => runIf s' ls
      | _ => none
    else none

theorem calm_ok {s : State} (h : TInv s) {l : Loopers.Label} (hl : C28.calm s.base l = true) : Calm s.base l := by
  obtain ⟨P, B, S, J, hi⟩ := h.inv
  have key : ((List.range s.base.n).all fun x =>
      s.base.thread x != .blocked true && s.base.thread x != .finishing true) = true →
      ∀ x, s.base.thread x ≠ .blocked true ∧ s.base.thread x ≠ .finishing true := by
    intro hall x
    rcases Nat.lt_or_ge x s.base.n with hx | hx
    · have := List.all_eq_true.1 hall x (by simpa using hx)
      simpa using this
    · rw [(hi.fresh x hx).1]; simp
  cases l with
  | stop b => exact key hl
  | again => exact key hl
  | _ => trivial

theorem runIf_reach {s0 s s' : State} {ls : List Loopers.Label} (hi : TInv s) (h : ReachIf step Orderly s0 s)
    (hr : runIf s ls = some s') : ReachIf step Orderly s0 s' := by
  induction ls generalizing s with
  | nil => cases hr; exact h
  | cons l ls ih =>
    simp only [runIf] at hr
    split at hr
    · rename_i hok
      split at hr
      · rename_i s1 hs
        have hc := calm_ok hi hok
        exact ih (step_inv hi hc hs).2.1 (.step (.base l) h hc hs) hr
      · cases hr
    · cases hr

/-- Two loopers are stopped, one of them after a blocked transaction. Both are joined. -/
example : ∃ s, ReachIf step Orderly {} s ∧ s.base.n = 2 ∧ s.base.stop = .idle ∧ s.reaped 0 = true ∧ s.reaped 1 = true ∧
    s.base.obj 0 = none ∧ s.base.obj 1 = none := by
  have h : ∃ s, runIf {} (C28.busy ++ C28.quit) = some s := ⟨_, rfl⟩
  obtain ⟨s, h⟩ := h
  refine ⟨s, runIf_reach TInv.init .init h, ?_⟩
  cases h
  decide +kernel

/-- Is it the last reference, dropped by the looper itself? -/
def own (s : State) (l : Loopers.Label) : Bool :=
  match drops s.base l with
  | some (some y, x) => y == x && (Loopers.step s.base l).holds fun b => b.obj x == none
  | _ => false

def runNotOwn : State → List Loopers.Label → Option State
  | s, [] => some s
  | s, l :: ls =>
    if C28.calm s.base l ∧ own s l = false then
      match step s (.base l) with
      | .ok s' => runNotOwn s' ls
      | _ => none
    else none

theorem runNotOwn_reach {s s' : State} {ls : List Loopers.Label} (h : ReachIf step NotOwn {} s)
    (hr : runNotOwn s ls = some s') : ReachIf step NotOwn {} s' := by
  induction ls generalizing s with
  | nil => cases hr; exact h
  | cons l ls ih =>
    simp only [runNotOwn] at hr
    split at hr
    · rename_i hok
      split at hr
      · rename_i s1 hs
        refine ih (.step (.base l) h ⟨calm_ok (reach_inv (reach_orderly h)) hok.1, ?_⟩ hs) hr
        intro x b hd hb
        have := hok.2
        simp only [own, hd, hb, Out.holds, beq_self_eq_true, Bool.true_and] at this
        cases ho : b.obj x with
        | none => simp [ho] at this
        | some o => rfl
      · cases hr
    · cases hr

/-- The same, and no looper drops its own last reference. -/
example : ∃ s, ReachIf step NotOwn {} s ∧ 1 < s.base.n ∧ s.base.obj 1 = none := by
  have h : ∃ s, runNotOwn {} (C28.busy ++ C28.quit) = some s := ⟨_, rfl⟩
  obtain ⟨s, h⟩ := h
  refine ⟨s, runNotOwn_reach .init h, ?_⟩
  cases h
  decide +kernel

/-- One of them is about to be joined. -/
example : ∃ s, ReachIf step Orderly {} s ∧ s.base.stop = .join none true (some 0) 1 ∧
    (step s (.base .joined)).holds (fun s => s.reaped 1 && s.joined 1) = true := by
  have h : ∃ s, runIf {} (C28.busy ++ C28.quit.take 12) = some s := ⟨_, rfl⟩
  obtain ⟨s, h⟩ := h
  refine ⟨s, runIf_reach TInv.init .init h, ?_⟩
  cases h
  decide +kernel

/-- The looper is freed by the one who was waiting for it to start, after its thread has been joined by another one. -/
example : ∃ s, ReachIf step Orderly {} s ∧ s.base.temps = [0] ∧ s.joined 0 = true ∧
    (step s (.base (.release 0))).holds (fun s => s.base.obj 0 == none && s.reaped 0) = true := by
  have h : ∃ s, runIf {} [.check true, .start 0 true, .stop none, .leave 0, .remove 0, .last 0, .pop, .joined] = some s :=
    ⟨_, rfl⟩
  obtain ⟨s, h⟩ := h
  refine ⟨s, runIf_reach TInv.init .init h, ?_⟩
  cases h
  decide +kernel

/-- The looper is freed by the one who was waiting for it to start, and who joins the thread. -/
example : ∃ s, ReachIf step Orderly {} s ∧ s.base.temps = [0] ∧ s.joined 0 = false ∧
    (step s (.base (.release 0))).holds (fun s => s.base.obj 0 == none && s.reaped 0) = true := by
  have h : ∃ s, runIf {} [.check true, .start 0 true, .leave 0, .remove 0, .last 0] = some s := ⟨_, rfl⟩
  obtain ⟨s, h⟩ := h
  refine ⟨s, runIf_reach TInv.init .init h, ?_⟩
  cases h
  decide +kernel

/-- The thread which can't be joined anymore. -/
example : ∃ s, ReachIf step Orderly {} s ∧ 0 < s.base.n ∧ s.base.obj 0 = none ∧ s.reaped 0 = false := by
  have h : ∃ s, runIf {} failing = some s := ⟨_, rfl⟩
  obtain ⟨s, h⟩ := h
  refine ⟨s, runIf_reach TInv.init .init h, ?_⟩
  cases h
  decide +kernel

end Gb.C73
