import Verif.Lemmas.Parcels
import Verif.Spec.Demo
/-
C47. What has been registered with a parcel is done exactly once.

The executions are those in which the callers follow the rules of `Ok`. `duties` is what a parcel has
to do according to what's been observed, `owner` tells whom memory and descriptors belong to; they
are none if something is done twice, too early, too late, or in a different order.
-/
set_option autoImplicit false

namespace Gb.C47
open Parcels

/-- Nothing is freed or closed twice and nothing is used after it's been freed. -/
theorem C47_safe {e : Env} (ha : Allocates e) {s : State} (h : ReachIf (step e) (Ok e) {} s) (l : Label)
    (hok : Ok e s l) : step e s l ≠ .ub := by
  rcases step_inv ha (reach_inv ha h) l hok with h1 | ⟨s', h1, _⟩ <;> rw [h1] <;> simp

/-- Callbacks are called (and references dropped) once, in the order of registration, when the parcel
is freed or its contents are replaced. -/
theorem C47_order {e : Env} (ha : Allocates e) {s : State} (h : ReachIf (step e) (Ok e) {} s) (p : Nat) :
    duties p s.log ≠ none := by
  rw [(reach_inv ha h).duty p]; simp

/-- When the parcel is gone, nothing is left to do. -/
theorem C47_freed {e : Env} (ha : Allocates e) {s : State} (h : ReachIf (step e) (Ok e) {} s) {p : Nat}
    (hp : s.parcel p = none) : duties p s.log = some {} := by
  rw [(reach_inv ha h).duty p]; simp [State.duties, hp]

/-- When the contents have been replaced (or have never been), all that had been registered before has
been done. -/
theorem C47_replaced {e : Env} (ha : Allocates e) {s : State} (h : ReachIf (step e) (Ok e) {} s) {p : Nat}
    {x : Parcel} (hp : s.parcel p = some x) (hi : x.phase = .idle) :
    ∃ d, duties p s.log = some d ∧ d.now = [] := by
  refine ⟨_, (reach_inv ha h).duty p, ?_⟩
  simp [State.duties, hp, Parcel.now, hi, these]

/-- Memory allocated by the writer and descriptors are released once, by the parcel, when it's freed or
its contents are replaced, and not before that. -/
theorem C47_owner {e : Env} (ha : Allocates e) {s : State} (h : ReachIf (step e) (Ok e) {} s) (k : Kind) (a : Nat) :
    owner k a s.log ≠ none := by
  have hi := reach_inv ha h
  by_cases hv : valid k a
  · obtain ⟨o, h1, _⟩ := hi.own k a hv
    rw [h1]; simp
  · obtain ⟨rfl, h2⟩ := Classical.not_imp.1 hv
    rw [Classical.not_not.1 h2, hi.null.1]; simp

/-- Memory is valid and descriptors are open exactly as long as they are owned. -/
theorem C47_valid {e : Env} (ha : Allocates e) {s : State} (h : ReachIf (step e) (Ok e) {} s) (a : Nat) :
    (a ∈ s.mem.map (·.1) ↔ owner .mem a s.log ≠ some .nobody) ∧
    (a ∈ s.fds ↔ owner .fd a s.log ≠ some .nobody) := by
  have hi := reach_inv ha h
  have key : ∀ k, valid k a → (a ∈ s.pool k ↔ owner k a s.log ≠ some .nobody) := by
    intro k hv
    obtain ⟨o, h1, h2⟩ := hi.own k a hv
    rw [h1, ← List.count_pos_iff, h2.pool]
    by_cases ho : o = .nobody
    · simp [ho]
    · simp [ho]
  refine ⟨?_, key .fd fun h => (by cases h)⟩
  by_cases h0 : a = 0
  · subst h0
    rw [hi.null.1]
    have := hi.null.2
    constructor
    · intro hm
      have := List.count_pos_iff.2 hm
      exact absurd hi.null.2 (by show (s.mem.map (·.1)).count 0 ≠ 0; omega)
    · intro hc; exact absurd rfl hc
  · exact key .mem fun _ => h0

/-- Nothing is left behind: whatever isn't the application's belongs to a parcel which is still there. -/
theorem C47_left {e : Env} (ha : Allocates e) {s : State} (h : ReachIf (step e) (Ok e) {} s) {k : Kind} {a p : Nat}
    {b : Bool} (ho : owner k a s.log = some (.of p b)) : s.parcel p ≠ none := by
  have hi := reach_inv ha h
  by_cases hv : valid k a
  · obtain ⟨o, h1, h2⟩ := hi.own k a hv
    rw [h1] at ho
    cases ho
    exact h2.there p b rfl
  · obtain ⟨rfl, h2⟩ := Classical.not_imp.1 hv
    rw [Classical.not_not.1 h2, hi.null.1] at ho
    cases ho

/-- Freeing comes to an end: nothing can stop the loop. -/
theorem C47_ends {e : Env} (ha : Allocates e) {s : State} (h : ReachIf (step e) (Ok e) {} s) {p : Nat} {x : Parcel}
    (hp : s.parcel p = some x) (hr : x.refs = 0) :
    ∃ n s', exec (step e) s (List.replicate n (.run p)) = .ok s' ∧ s'.parcel p = none := by
  have hw := (reach_inv ha h).wf p x hp
  obtain ⟨refs, w, ph⟩ := x
  simp only [] at hr
  subst hr
  cases ph with
  | idle => exact absurd hw (Nat.lt_irrefl 0)
  | resetting i n => exact absurd hw.1 (Nat.lt_irrefl 0)
  | freeing i =>
    have key : ∀ k (s : State) (i : Nat), ReachIf (step e) (Ok e) {} s → w.cleanup.length - i = k →
        s.parcel p = some ⟨0, w, .freeing i⟩ →
        ∃ n s', exec (step e) s (List.replicate n (.run p)) = .ok s' ∧ s'.parcel p = none := by
      intro k
      induction k with
      | zero =>
        intro s i hre hk hp
        have hg : w.cleanup[i]? = none := List.getElem?_eq_none_iff.2 (by omega)
        refine ⟨1, (s.set p none).see [.done p], ?_, upd_same _ _ _⟩
        simp [exec, step, hp, hg]
      | succ k ih =>
        intro s i hre hk hp
        have hlt : i < w.cleanup.length := by omega
        have hg : w.cleanup[i]? = some w.cleanup[i] := List.getElem?_eq_getElem hlt
        have hst : step e s (.run p) = (s.set p (some ⟨0, w, .freeing (i + 1)⟩)).destroy p w.cleanup[i] := by
          simp [step, hp, hg]
        rcases step_inv ha (reach_inv ha hre) (.run p) trivial with h1 | ⟨s1, h1, _⟩
        · rw [hst] at h1
          generalize w.cleanup[i] = c at h1
          cases c <;> simp only [State.destroy, State.free, State.close] at h1 <;> repeat' split at h1
          all_goals cases h1
        · have hp1 : s1.parcel p = some ⟨0, w, .freeing (i + 1)⟩ := by
            rw [hst] at h1
            generalize w.cleanup[i] = c at h1
            cases c <;> simp only [State.destroy, State.free, State.close] at h1 <;> repeat' split at h1
            all_goals first
              | (cases h1; exact upd_same _ _ _)
              | cases h1
          obtain ⟨n, s', h2, h3⟩ := ih s1 (i + 1) (.step (.run p) hre trivial h1) (by omega) hp1
          refine ⟨n + 1, s', ?_, h3⟩
          simp only [List.replicate_succ, exec, h1]
          exact h2
    exact key _ s i h rfl hp

/-- A callback passed to gbinder_local_request_cleanup or gbinder_local_reply_cleanup without a parcel is
called as often. -/
theorem C47_null {e : Env} (ha : Allocates e) {s : State} (h : ReachIf (step e) (Ok e) {} s) (c : CleanupItem) :
    registered c s.log = done c s.log := (reach_inv ha h).nobody c

/-- Whatever is done, what's been registered without a parcel isn't done more often than that. -/
theorem step_nobody {e : Env} {s s' : State} {l : Label} (h : step e s l = .ok s') (c : CleanupItem) :
    registered c s.log + done c s'.log ≤ registered c s'.log + done c s.log := by
  have hev : ∃ evs, s'.log = s.log ++ evs ∧ evs.count (.ran none c) ≤ evs.count (.reg none c) := by
    have hmap : ∀ (k : Kind) (p : Nat) (l : List Nat), (l.map (Ev.get k (some p))).count (.ran none c) = 0 := by
      intro k p l
      refine List.count_eq_zero_of_not_mem fun h => ?_
      obtain ⟨a, _, ha⟩ := List.mem_map.1 h
      cases ha
    have hmap' : ∀ (p : Nat) (l : List CleanupItem), (l.map (Ev.reg (some p))).count (.ran none c) = 0 := by
      intro p l
      refine List.count_eq_zero_of_not_mem fun h => ?_
      obtain ⟨a, _, ha⟩ := List.mem_map.1 h
      cases ha
    cases l with
    | op p o =>
      simp only [step] at h
      split at h
      · cases h
      · split at h
        · cases h
        · split at h
          · cases h
          · split at h
            · cases h
            · split at h
              · cases h
              · cases h
                exact ⟨_, rfl, by simp only [List.count_append, hmap, hmap']; omega⟩
    | contents p src off convert =>
      simp only [step] at h
      split at h
      · cases h
      · split at h
        · cases h
        · split at h
          · cases h
          · cases h
            exact ⟨_, rfl, by rw [hmap']; omega⟩
    | new => cases h; exact ⟨[], by simp [State.set], Nat.le_refl _⟩
    | alloc d => cases h; exact ⟨_, rfl, by simp⟩
    | requestNull f x =>
      simp only [step] at h
      split at h
      · cases h; exact ⟨[], by simp, Nat.le_refl _⟩
      · cases h
        refine ⟨_, rfl, ?_⟩
        by_cases hc : CleanupItem.user f x = c
        · subst hc; simp
        · simp [List.count_cons, hc]
    | writerNull f x =>
      simp only [step] at h
      split at h
      · cases h; exact ⟨[], by simp, Nat.le_refl _⟩
      · cases h; exact ⟨_, rfl, by simp⟩
    | ref p =>
      simp only [step] at h
      split at h
      · cases h
      · split at h
        · cases h
        · cases h; exact ⟨[], by simp [State.set], Nat.le_refl _⟩
    | unref p =>
      simp only [step] at h
      split at h
      · cases h
      · split at h
        · cases h
        · split at h
          · cases h; exact ⟨_, rfl, by simp⟩
          · cases h
        · cases h; exact ⟨[], by simp [State.set], Nat.le_refl _⟩
    | reset p =>
      simp only [step] at h
      split at h
      · cases h
      · split at h
        · cases h; exact ⟨_, rfl, by simp⟩
        · cases h
    | run p =>
      simp only [step] at h
      split at h
      · cases h
      · split at h
        · cases h
        · split at h
          · split at h
            · cases h
            · rename_i c' _
              cases c' <;> simp only [State.destroy, State.free, State.close] at h <;> repeat' split at h
              all_goals first
                | (cases h; exact ⟨_, rfl, by simp⟩)
                | (cases h; exact ⟨[], by simp [State.set], Nat.le_refl _⟩)
                | cases h
          · cases h; exact ⟨_, rfl, by simp⟩
        · split at h
          · rename_i c' _
            cases c' <;> simp only [State.destroy, State.free, State.close] at h <;> repeat' split at h
            all_goals first
              | (cases h; exact ⟨_, rfl, by simp⟩)
              | (cases h; exact ⟨[], by simp [State.set], Nat.le_refl _⟩)
              | cases h
          · cases h; exact ⟨_, rfl, by simp⟩
    | free a =>
      simp only [step, State.free] at h
      split at h
      · cases h; exact ⟨[], by simp, Nat.le_refl _⟩
      · split at h
        · cases h; exact ⟨_, rfl, by simp⟩
        · cases h
    | opens d =>
      simp only [step] at h
      split at h
      · cases h
      · cases h; exact ⟨_, rfl, by simp⟩
    | close d =>
      simp only [step, State.close] at h
      split at h
      · cases h; exact ⟨_, rfl, by simp⟩
      · cases h
  obtain ⟨evs, h1, h2⟩ := hev
  rw [h1]
  simp only [registered, done, List.count_append]
  omega

/-- The claim is false for gbinder_writer_add_cleanup without a parcel: the callback is never called
(gbinder_local_request_cleanup calls it at once). -/
theorem C47_fails_null (e : Env) {ls : List Label} {s : State}
    (h : exec (step e) {} (.writerNull 1 2 :: ls) = .ok s) :
    done (.user 1 2) s.log < registered (.user 1 2) s.log := by
  simp only [exec, step] at h
  have key : ∀ (s0 : State), done (.user 1 2) s0.log < registered (.user 1 2) s0.log →
      ∀ {s1 : State}, exec (step e) s0 ls = .ok s1 → done (.user 1 2) s1.log < registered (.user 1 2) s1.log := by
    intro s0 h0 s1 h1
    refine exec_invariant (P := fun s => done (.user 1 2) s.log < registered (.user 1 2) s.log) ?_ h0 h1
    intro s l s' hp hs
    have := step_nobody hs (.user 1 2)
    omega
  refine key _ ?_ h
  show 0 < 1
  omega

/-- When the contents are about to be replaced, nothing is left of the old ones. -/
theorem C47_reset {e : Env} {s s' : State} {p : Nat} (h : step e s (.reset p) = .ok s') :
    ∃ x, s'.parcel p = some x ∧ x.w.bytes = [] ∧ x.w.offsets = [] ∧ x.w.buffersSize = 0 := by
  simp only [step] at h
  split at h
  · cases h
  · split at h
    · cases h
      exact ⟨_, upd_same _ _ _, rfl, rfl, rfl⟩
    · cases h

/-! ### Examples -/

/-- An allocator: the first address after all that are in use. -/
def env : Env := { Demo.env with alloc := fun m _ => m.foldr (fun b a => max a b.1) 0 + 1 }

theorem env_allocates : Allocates env := by
  intro m n
  refine ⟨by show _ + 1 ≠ 0; omega, ?_⟩
  have key : ∀ m : Mem, ∀ a ∈ m.map (·.1), a ≤ m.foldr (fun b a => max a b.1) 0 := by
    intro m
    induction m with
    | nil => intro a h; cases h
    | cons b m ih =>
      intro a h
      simp only [List.foldr_cons]
      rcases List.mem_cons.1 h with h | h
      · rw [h]; exact Nat.le_max_right _ _
      · exact Nat.le_trans (ih a h) (Nat.le_max_left _ _)
  intro h
  have := key m _ h
  have h2 : env.alloc m n = m.foldr (fun b a => max a b.1) 0 + 1 := rfl
  omega

/-- The rules, as a program. -/
def okB (e : Env) (s : State) : Label → Bool
  | .ref p => match s.parcel p with
    | some x => decide (0 < x.refs)
    | none => false
  | .unref p => match s.parcel p with
    | some x => decide (0 < x.refs) && (decide (x.phase = .idle) || decide (1 < x.refs))
    | none => false
  | .op p o => match s.parcel p with
    | some x => decide (0 < x.refs) && (match o.run e { x.w with mem := s.mem } with
      | .ok _ => true
      | .error _ => false)
    | none => false
  | .contents p src off convert => match s.parcel p with
    | some x => decide (0 < x.refs) && (match x.w.appendContents e src off convert with
      | .ok _ => true
      | .error _ => false)
    | none => false
  | .reset p => match s.parcel p with
    | some x => decide (0 < x.refs) && decide (x.phase = .idle)
    | none => false
  | .writerNull _ _ => false
  | .free a => decide (a = 0) || decide (owner .mem a s.log = some .app)
  | .close d => decide (owner .fd d s.log = some .app)
  | _ => true

theorem okB_sound {e : Env} {s : State} {l : Label} (h : okB e s l = true) : Ok e s l := by
  cases l <;> simp only [okB] at h <;> try trivial
  case ref p =>
    split at h
    · exact ⟨_, ‹_›, by simpa using h⟩
    · cases h
  case unref p =>
    split at h
    · rename_i x hx
      simp only [Bool.and_eq_true, Bool.or_eq_true, decide_eq_true_eq] at h
      exact ⟨x, hx, h.1, fun hc => h.2.resolve_left hc⟩
    · cases h
  case op p o =>
    split at h
    · rename_i x hx
      simp only [Bool.and_eq_true, decide_eq_true_eq] at h
      refine ⟨x, hx, h.1, ?_⟩
      have h2 := h.2
      split at h2
      · exact ⟨_, ‹_›⟩
      · cases h2
    · cases h
  case contents p src off convert =>
    split at h
    · rename_i x hx
      simp only [Bool.and_eq_true, decide_eq_true_eq] at h
      refine ⟨x, hx, h.1, ?_⟩
      have h2 := h.2
      split at h2
      · exact ⟨_, ‹_›⟩
      · cases h2
    · cases h
  case reset p =>
    split at h
    · rename_i x hx
      simp only [Bool.and_eq_true, decide_eq_true_eq] at h
      exact ⟨x, hx, h.1, h.2⟩
    · cases h
  case free a =>
    simp only [Bool.or_eq_true, decide_eq_true_eq] at h
    exact h
  case close d =>
    simp only [decide_eq_true_eq] at h
    exact h

/-- An execution in which the rules are followed. -/
def runIf (e : Env) (s : State) : List Label → Option State
  | [] => some s
  | l :: ls =>
    if okB e s l then
      match step e s l with
      | .ok s' => runIf e s' ls
      | _ => none
    else none

theorem runIf_reach {e : Env} {ls : List Label} : ∀ {s0 s : State}, ReachIf (step e) (Ok e) {} s0 →
    runIf e s0 ls = some s → ReachIf (step e) (Ok e) {} s := by
  induction ls with
  | nil => intro s0 s h0 h; cases h; exact h0
  | cons l ls ih =>
    intro s0 s h0 h
    simp only [runIf] at h
    split at h
    · rename_i hok
      split at h
      · rename_i s1 hs
        exact ih (.step l h0 (okB_sound hok) hs) h
      · cases h
    · cases h

/-- A request with two callbacks, a string and a descriptor. The first callback creates another
request. -/
def story : List Label :=
  [.alloc [0x61, 0x62, 0], .opens 3, .new .io64 .aidl, .ref 0, .op 0 (.addCleanup 7 1), .op 0 (.hidlString 1),
   .op 0 (.fd 3 (some 4)), .op 0 (.addCleanup 8 2), .close 3, .unref 0, .unref 0, .run 0,
   .new .io32 .hidl, .op 1 (.addCleanup 9 9), .run 0, .opens 3, .run 0, .run 0, .run 0, .free 1]

example : ∃ s, ReachIf (step env) (Ok env) {} s ∧ s.parcel 0 = none ∧ s.mem = [] ∧ s.fds = [3] ∧
    duties 1 s.log = some { later := [.user 9 9] } ∧
    s.log = [.get .mem none 1, .get .fd none 3, .reg (some 0) (.user 7 1), .get .mem (some 0) 2,
      .get .fd (some 0) 4, .reg (some 0) (.user 8 2), .put .fd none 3, .ending 0,
      .ran (some 0) (.user 7 1), .reg (some 1) (.user 9 9), .put .mem (some 0) 2, .get .fd none 3,
      .put .fd (some 0) 4, .ran (some 0) (.user 8 2), .done 0, .put .mem none 1] := by
  obtain ⟨s, hs⟩ : ∃ s, runIf env {} story = some s := ⟨_, rfl⟩
  refine ⟨s, runIf_reach .init hs, ?_⟩
  cases hs
  refine ⟨rfl, rfl, rfl, by decide +kernel, by decide +kernel⟩

/-- The contents of a reply are replaced; the callback adds something to the same reply. -/
def replaced : List Label :=
  [.new .io64 .aidl, .op 0 (.addCleanup 7 1), .op 0 (.malloc [1, 2]), .reset 0, .run 0,
   .op 0 (.addCleanup 8 2), .run 0, .run 0, .contents 0 ⟨5, .aidl, [1, 2, 3, 4], []⟩ 0 none]

example : ∃ s, ReachIf (step env) (Ok env) {} s ∧ (s.parcel 0).isSome ∧
    duties 0 s.log = some { later := [.user 8 2, .unrefBuffer 5] } ∧
    s.log = [.reg (some 0) (.user 7 1), .get .mem (some 0) 1, .ending 0, .ran (some 0) (.user 7 1),
      .reg (some 0) (.user 8 2), .put .mem (some 0) 1, .done 0, .reg (some 0) (.unrefBuffer 5)] := by
  obtain ⟨s, hs⟩ : ∃ s, runIf env {} replaced = some s := ⟨_, rfl⟩
  refine ⟨s, runIf_reach .init hs, ?_⟩
  cases hs
  exact ⟨rfl, by decide +kernel, by decide +kernel⟩

/-- What the specification says about other histories. -/
example : duties 0 [.reg (some 0) (.user 7 1), .ran (some 0) (.user 7 1)] = none ∧
    duties 0 [.reg (some 0) (.user 7 1), .reg (some 0) (.user 8 1), .ending 0, .ran (some 0) (.user 8 1)] = none ∧
    duties 0 [.reg (some 0) (.user 7 1), .ending 0, .ran (some 0) (.user 7 1), .ran (some 0) (.user 7 1)] = none ∧
    duties 0 [.reg (some 0) (.user 7 1), .ending 0, .done 0] = none ∧
    owner .mem 5 [.get .mem (some 0) 5, .put .mem (some 0) 5] = none ∧
    owner .mem 5 [.get .mem (some 0) 5, .ending 0, .put .mem (some 0) 5, .put .mem (some 0) 5] = none ∧
    owner .mem 5 [.get .mem (some 0) 5, .ending 0, .done 0] = none := by decide

end Gb.C47
