import Verif.Lemmas.Loopers
/-
C28: the pool of loopers.

`C28_exclusive_partial`, `C28_limit_partial` and `C28_safe_partial` assume that no looper is waiting
for a blocked transaction to be completed while the loopers are being stopped. Without that the lists
get mixed up and a looper is freed too early (`C28_fails_shutdown`).

`C28_served_partial` says that there's a looper to accept transactions. It assumes that the driver works, and
`C28_fails_enter` is what happens if it doesn't.
-/
set_option autoImplicit false

namespace Gb.C28

open Gb Gb.Loopers

theorem chain_unique {next : Nat → Option Nat} {h : Option Nat} {l l' : List Nat}
    (h1 : Chain next h l) (h2 : Chain next h l') : l = l' := by
  induction l generalizing h l' with
  | nil => rw [show h = none from h1] at h2; exact (chain_none h2).symm
  | cons x l ih =>
    cases l' with
    | nil => rw [show h = none from h2] at h1; exact chain_none h1
    | cons y l' =>
      have := h1.1.symm.trans h2.1
      cases this
      rw [ih h1.2 h2.2]

/-- No looper is in both lists, or in one list twice. -/
theorem C28_exclusive_partial {s : State} (h : ReachIf step Calm {} s) :
    ∃ P B, Chain s.next s.primary P ∧ Chain s.next s.blocked B ∧ (P ++ B).Nodup := by
  obtain ⟨P, B, S, J, hi⟩ := reach_inv h
  refine ⟨P, B, hi.cp, hi.cb, ?_⟩
  rw [List.nodup_iff_count]
  intro x
  have := hi.once x
  simp only [lists] at this
  rw [List.count_append]
  omega

/-- There are no more than five primary loopers. -/
theorem C28_limit_partial {s : State} (h : ReachIf step Calm {} s) {P : List Nat}
    (hP : Chain s.next s.primary P) : P.length ≤ 5 := by
  obtain ⟨P', B, S, J, hi⟩ := reach_inv h
  rw [chain_unique hP hi.cp]
  exact hi.limit

/-- No memory is accessed after it has been freed. -/
theorem C28_safe_partial {s : State} (h : ReachIf step Calm {} s) {l : Label} (hl : Calm s l) :
    step s l ≠ .ub := by
  obtain ⟨P, B, S, J, hi⟩ := reach_inv h
  rcases step_ok hi hl with h1 | ⟨s', h1, _⟩ <;> (rw [h1]; simp)

/-- When all threads have exited and nothing refers to the loopers, they're freed. -/
theorem C28_freed_partial {s : State} (h : ReachIf step Calm {} s) (h1 : s.primary = none)
    (h2 : s.blocked = none) (h3 : s.stop = .idle) (h4 : s.temps = []) (x : Nat)
    (h5 : s.thread x = .gone) : s.obj x = none := by
  obtain ⟨P, B, S, J, hi⟩ := reach_inv h
  have hp := hi.cp
  have hb := hi.cb
  have hs := hi.cs
  rw [h1] at hp
  rw [h2] at hb
  rw [h3] at hs
  have := chain_none hp
  have := chain_none hb
  obtain ⟨rfl, rfl⟩ := hs
  subst P B
  have hr := hi.refs x
  simp only [lists, thr, h4, h5, Thread.refs, List.count_nil] at hr
  cases ho : s.obj x with
  | none => rfl
  | some o =>
    have := hi.pos x o ho
    simp only [refsOf, ho, Option.map_some, Option.getD_some] at hr
    omega

/-- If a primary looper gets blocked, then there's another one or a new one is created. The new one
is in the list, and going to run. -/
theorem C28_replaced_partial {s s' : State} (h : ReachIf step Calm {} s) {x : Nat} {P : List Nat}
    (hP : Chain s.next s.primary P) (hx : x ∈ P) (hs : step s (.block x true) = .ok s') :
    ∃ P', P' ≠ [] ∧ Chain s'.next s'.primary P' ∧ x ∉ P' ∧
      (∀ y ∈ P', y ∈ P ∨ (y = s.n ∧ s'.thread y = .starting)) := by
  obtain ⟨P', B, S, J, hi⟩ := reach_inv h
  have := chain_unique hP hi.cp
  subst this
  by_cases ht : s.thread x = .waiting
  · have h1 := hi.walkP
    have h3 := hi.aliveP
    simp only [State.walk] at h1
    simp only [State.alive] at h3
    obtain ⟨n', p', hr, hc, hn⟩ := removeFrom_some hi.cp hx hi.dp (f := s.n + 1) (by have := hi.lp; omega)
    have hI := hi.block hx ht hc hn
    simp only [step, if_pos ht, State.walk, State.alive, h1, h3, if_true, hr, and_true] at hs
    by_cases hp : p' = none
    · rw [if_pos hp] at hs
      cases hs
      refine ⟨[s.n], by simp, ⟨rfl, by simp [State.create, upd_same, Chain]⟩, ?_, ?_⟩
      · intro hm
        simp only [List.mem_singleton] at hm
        have := (hi.fresh s.n (Nat.le_refl _)).1
        rw [← hm, ht] at this
        cases this
      · intro y hy
        simp only [List.mem_singleton] at hy
        exact .inr ⟨hy, by simp [State.create, hy, upd_same]⟩
    · rw [if_neg hp] at hs
      cases hs
      refine ⟨P.erase x, ?_, hI.cp, not_mem_erase hi.dp, fun y hy => .inl (List.mem_of_mem_erase hy)⟩
      intro he
      rw [he] at hc
      exact hp hc
  · simp only [step, if_neg ht] at hs
    cases hs

/-- There's a primary looper, and each of them is accepting transactions, i.e. isn't blocked and isn't
going to exit. -/
theorem C28_served_partial {s : State} (h : ReachIf step Healthy {} s) (hn : 0 < s.n) :
    ∃ P, P ≠ [] ∧ Chain s.next s.primary P ∧ ∀ x ∈ P, Serving s x := by
  obtain ⟨P, B, S, J, hi, hg⟩ := reach_good h
  refine ⟨P, hg.some hn, hi.cp, fun x hx => ⟨hg.serv x hx, ?_⟩⟩
  have hc := List.count_pos_iff.2 hx
  obtain ⟨o, ho, _⟩ := hi.alive (x := x) (by simp only [lists]; omega)
  exact ⟨o, ho, hg.stay x o hx ho⟩

/-- The first looper is created when it's needed. -/
theorem C28_check (s : State) : ∃ s', step s (.check true) = .ok s' ∧ s'.primary ≠ none := by
  by_cases h : s.primary = none
  · exact ⟨s.create, by simp [step, h], by simp [State.create]⟩
  · exact ⟨s, by simp [step, h], h⟩

/-- No more loopers are created than necessary: only if there's no primary looper. -/
theorem C28_needed (s s' : State) (l : Label) (hs : step s l = .ok s') (hp : s'.n ≠ s.n) :
    s'.n = s.n + 1 ∧ s'.primary = some s.n ∧ s'.next s.n = none ∧
      (s.primary = none ∨ ∃ x ok, l = .block x ok) := by
  have hu : ∀ (t : State) (x : Nat) (t' : State), t.unref x = .ok t' → t'.n = t.n := by
    intro t x t' h
    simp only [State.unref] at h
    split at h
    · cases h
    · split at h
      · cases h
      · cases h; rfl
      · cases h; rfl
  have hcol : ∀ (t : State) (b : Option Nat) (t' : State), t.collect b = .ok t' → t'.n = t.n := by
    intro t b t' h
    simp only [State.collect] at h
    split at h
    · cases h; rfl
    · cases h
  cases l with
  | check ok =>
    simp only [step] at hs
    cases hs
    split at hp
    · rename_i hc
      rw [if_pos hc]
      exact ⟨rfl, rfl, by simp [State.create, upd_same], .inl hc.1⟩
    · exact absurd rfl hp
  | block x ok =>
    simp only [step] at hs
    split at hs
    · split at hs
      · split at hs
        · cases hs; exact absurd rfl hp
        · cases hs
          split at hp
          · rename_i hc
            rw [if_pos hc]
            exact ⟨rfl, rfl, by simp [State.create, upd_same], .inr ⟨x, ok, rfl⟩⟩
          · exact absurd rfl hp
      · cases hs
    · cases hs
  | release x =>
    simp only [step] at hs
    split at hs
    · exact absurd (hu _ _ _ hs) hp
    · cases hs
  | remove x =>
    simp only [step] at hs
    split at hs
    · split at hs
      · cases hs
      · split at hs
        · split at hs
          · split at hs
            · exact absurd (hu _ _ _ hs) hp
            · split at hs
              · exact absurd (hu _ _ _ hs) hp
              · cases hs; exact absurd rfl hp
          · cases hs
        · cases hs; exact absurd rfl hp
    · cases hs
  | last x =>
    simp only [step] at hs
    split at hs
    · exact absurd (hu _ _ _ hs) hp
    · cases hs
  | stop b =>
    simp only [step] at hs
    split at hs
    · exact absurd (hcol _ _ _ hs) hp
    · split at hs
      · exact absurd (hcol _ _ _ hs) hp
      · cases hs
    · cases hs
  | joined =>
    simp only [step] at hs
    split at hs
    · split at hs
      · split at hs
        · cases hs
        · exact absurd (hu _ _ _ hs) hp
      · cases hs
    · cases hs
  | again =>
    simp only [step] at hs
    split at hs
    · split at hs
      · exact absurd (hcol _ _ _ hs) hp
      · cases hs; exact absurd rfl hp
    · cases hs
  | _ =>
    simp only [step] at hs
    repeat' split at hs
    all_goals first
      | cases hs; exact absurd rfl hp
      | cases hs

/-! Scenarios -/

/-- Two loopers, the first one blocked by a transaction. -/
def busy : List Label :=
  [.check true, .start 0 true, .release 0, .poll 0, .begin 0, .block 0 true, .start 1 true, .release 1, .poll 1]

/-- The transaction is completed, and the loopers are stopped. -/
def quit : List Label :=
  [.unblock 0, .back 0, .idle 0, .idle 1, .stop none, .leave 0, .remove 0, .last 0, .leave 1, .remove 1, .last 1,
   .pop, .joined, .pop, .joined, .again, .again]

/-- The loopers are stopped while the first one is blocked. -/
def race : List Label :=
  [.stop none, .pop, .unblock 0, .back 0, .idle 0, .leave 0, .remove 0, .last 0, .joined]

/-- In the code `looper->next` is what links both lists. A looper which has been stopped is put in the
list of primary loopers, and then releases the reference which belongs to the thread stopping it. -/
theorem C28_fails_shutdown : (exec step {} (busy ++ race)).isUb = true := by decide +kernel

/-- If the driver doesn't let the thread in then the looper stays in the list, and no other looper is
created. -/
theorem C28_fails_enter :
    (exec step {} [.check true, .start 0 false, .last 0, .release 0, .check true, .check true]).holds
      (fun s => s.primary == some 0 && s.thread 0 == .gone && s.n == 1) = true := by decide +kernel

/-- A way to run a scenario and check the assumption. -/
def runIf (ok : State → Label → Bool) : State → List Label → Option State
  | s, [] => some s
  | s, l :: ls =>
    if ok s l then
      match step s l with
      | .ok s' => runIf ok s' ls
      | _ => none
    else none

theorem runIf_reach {ok : State → Label → Bool} {p : State → Label → Prop}
    (hp : ∀ s l, ReachIf step p {} s → ok s l = true → p s l) {s s' : State} {ls : List Label}
    (h : ReachIf step p {} s) (hr : runIf ok s ls = some s') : ReachIf step p {} s' := by
  induction ls generalizing s with
  | nil => cases hr; exact h
  | cons l ls ih =>
    simp only [runIf] at hr
    split at hr
    · rename_i hok
      split at hr
      · rename_i s1 hs
        exact ih (.step l h (hp s l h hok) hs) hr
      · cases hr
    · cases hr

def healthy (s : State) : Label → Bool
  | .check ok | .block _ ok | .start _ ok => ok
  | .leave x => match s.obj x with | some o => o.exit | none => false
  | .stop _ => false
  | _ => true

def calm (s : State) : Label → Bool
  | .stop _ | .again => (List.range s.n).all fun x => s.thread x != .blocked true && s.thread x != .finishing true
  | _ => true

theorem healthy_ok (s : State) (l : Label) (h : healthy s l = true) : Healthy s l := by
  cases l with
  | leave x =>
    simp only [healthy] at h
    split at h
    · rename_i o ho; exact ⟨o, ho, h⟩
    · cases h
  | stop b => cases h
  | _ => first | exact h | trivial

theorem calm_ok (s : State) (l : Label) (hr : ReachIf step Calm {} s) (h : calm s l = true) : Calm s l := by
  obtain ⟨P, B, S, J, hi⟩ := reach_inv hr
  have key : ((List.range s.n).all fun x => s.thread x != .blocked true && s.thread x != .finishing true) = true →
      ∀ x, s.thread x ≠ .blocked true ∧ s.thread x ≠ .finishing true := by
    intro hall x
    rcases Nat.lt_or_ge x s.n with hx | hx
    · have := List.all_eq_true.1 hall x (by simpa using hx)
      simpa using this
    · rw [(hi.fresh x hx).1]; simp
  cases l with
  | stop b => exact key h
  | again => exact key h
  | _ => trivial

/-- One looper is blocked, another one is waiting for transactions. -/
example : ∃ s, ReachIf step Healthy {} s ∧ 0 < s.n ∧ s.thread 0 = .blocked true ∧ s.primary = some 1 := by
  have h : ∃ s, runIf healthy {} busy = some s := ⟨_, rfl⟩
  obtain ⟨s, h⟩ := h
  refine ⟨s, runIf_reach (fun s l _ => healthy_ok s l) .init h, ?_⟩
  cases h
  decide +kernel

/-- Orderly shutdown: nothing is left. -/
example : ∃ s, ReachIf step Calm {} s ∧ s.n = 2 ∧ s.primary = none ∧ s.blocked = none ∧ s.stop = .idle ∧
    s.temps = [] ∧ s.thread 0 = .gone ∧ s.obj 0 = none := by
  have h : ∃ s, runIf calm {} (busy ++ quit) = some s := ⟨_, rfl⟩
  obtain ⟨s, h⟩ := h
  refine ⟨s, runIf_reach calm_ok .init h, ?_⟩
  cases h
  decide +kernel

/-- A primary looper about to be blocked. -/
example : ∃ s, ReachIf step Calm {} s ∧ Chain s.next s.primary [0] ∧ (step s (.block 0 true)).holds (fun s => s.n == 2) := by
  have h : ∃ s, runIf calm {} (busy.take 5) = some s := ⟨_, rfl⟩
  obtain ⟨s, h⟩ := h
  refine ⟨s, runIf_reach calm_ok .init h, ?_⟩
  cases h
  exact ⟨⟨rfl, rfl⟩, by decide +kernel⟩

end Gb.C28
