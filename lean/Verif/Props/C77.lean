import Verif.Lemmas.HandleRefs
/-
C77: an object received from another process refers to that very thing for as long as it's alive;
transactions never go elsewhere, although the kernel reuses the numbers. It's declared dead only if
what it refers to is dead. And the kernel forgets what's not used anymore.

Executions are arbitrary: any number of handles, buffers, objects, threads which read handles and drop
references, processes which die at any time, and the kernel sending BR_DEAD_BINDER whenever it has to.
It's about all handles except zero, which is always the service manager (C31, C66).
-/
set_option autoImplicit false

namespace Gb.C77
open Gb.HandleRefs

/-- Transactions sent with an object go where it came from. Partial: numbers aren't reused too early,
and nobody creates objects without acquiring them (`Calm`), see the negations below. -/
theorem C77_target_partial {s : State} (h : ReachIf step Calm {} s) {p : Nat} {o : RemoteObj.Obj}
    (ho : s.lib.objs p = some o) (h0 : o.handle ≠ 0) (hd : o.dead = false) :
    ∃ n, s.names p = some n ∧ target s p = some n := by
  have i := inv_reach h
  have ha := i.alive p o ho h0 hd
  have hs := i.same p o ho h0 ha
  have hp := (i.acq _ h0).pos ⟨o, ho, rfl, ha⟩
  cases hn : s.node o.handle with
  | none => have := (i.node _ h0).1 hn; omega
  | some n => exact ⟨n, by rw [hs, hn], by simp only [target, ho, hn]⟩

/-- Where it came from never changes. -/
theorem C77_names {s s' : State} {l : Label} (hs : step s l = .ok s') {p : Nat} (hp : s.lib.objs p ≠ none) :
    s'.names p = s.names p := by
  have hdrop : ∀ (t : State) h, (t.drop h).names = t.names := by intro t h; unfold State.drop; split <;> rfl
  have hk : ∀ (es : List RemoteObj.Ev) (t : State), (es.foldl State.kernel t).names = t.names := by
    intro es
    induction es with
    | nil => intro t; rfl
    | cons e es ih =>
      intro t
      rw [List.foldl_cons, ih]
      unfold State.kernel
      split
      · split <;> rfl
      · split
        · exact hdrop _ _
        · rfl
      · rfl
  have hw : ∀ (t : State) b, (t.wrote b).names = t.names := fun t b => hk _ _
  cases l with
  | read h c id =>
    simp only [step] at hs
    split at hs
    · split at hs
      · rename_i b hb
        cases hs
        rw [hw]
        dsimp only
        split
        · rename_i htab
          have : p ≠ id := by
            rintro rfl
            simp only [RemoteObj.step, htab] at hb
            split at hb
            · subst c
              have h := ‹0 < s.buffers h ∧ _›.2
              rcases h with h | h <;> cases h
            · first | (cases hb; done) | (split at hb <;> first | (cases hb; done) | exact hp ‹_›)
          exact upd_ne _ _ this
        · rfl
      · cases hs
      · cases hs
    · cases hs
  | _ =>
    simp only [step] at hs
    repeat' split at hs
    all_goals first
      | (cases hs; done)
      | (cases hs; rw [hw]; done)
      | (cases hs; rw [hdrop]; done)
      | (cases hs; rfl)

/-- Whoever reads a handle from a buffer gets an object which refers to what the kernel has put there. -/
theorem C77_read_partial {s s' : State} (h : ReachIf step Calm {} s) {hd id : Nat} {c : RemoteObj.Create}
    (hc : Calm s (.read hd c id)) (hs : step s (.read hd c id) = .ok s') :
    ∃ p o n, s'.lib.objs p = some o ∧ o.handle = hd ∧ s'.lib.user p = s.lib.user p + 1 ∧
      s.node hd = some n ∧ s'.names p = some n ∧ (s.gone n = false → o.dead = false) := by
  have i := inv_reach h
  have hr : ReachIf step Calm {} s' := .step _ h hc hs
  have i' := inv_reach hr
  have hlib : ∀ (es : List RemoteObj.Ev) (t : State), (es.foldl State.kernel t).lib = t.lib ∧
      (es.foldl State.kernel t).gone = t.gone ∧ (es.foldl State.kernel t).names = t.names := by
    intro es
    induction es with
    | nil => intro t; exact ⟨rfl, rfl, rfl⟩
    | cons e es ih =>
      intro t
      rw [List.foldl_cons, (ih _).1, (ih _).2.1, (ih _).2.2]
      unfold State.kernel
      split
      · split <;> exact ⟨rfl, rfl, rfl⟩
      · split
        · unfold State.drop; split <;> exact ⟨rfl, rfl, rfl⟩
        · exact ⟨rfl, rfl, rfl⟩
      · exact ⟨rfl, rfl, rfl⟩
  simp only [Calm] at hc
  subst hc
  have hs0 := hs
  simp only [step] at hs
  split at hs
  · rename_i hg
    have h0 : hd ≠ 0 := by rintro rfl; have := i.zero; omega
    obtain ⟨n, hn⟩ : ∃ n, s.node hd = some n := by
      cases hn : s.node hd with
      | none => have := (i.node hd h0).1 hn; omega
      | some n => exact ⟨n, rfl⟩
    split at hs
    · rename_i b hb
      cases hs
      have hw := hlib (b.log.drop s.lib.log.length)
      cases htab : s.lib.table hd with
      | some p =>
        simp only [RemoteObj.step, htab] at hb
        obtain ⟨o, ho, _, rfl⟩ := RemoteObj.addRef_ok hb
        dsimp only at ho
        have hh : o.handle = hd := by
          obtain ⟨o1, ho1, hh⟩ := (RemoteObj.inv_reach i.lib).table hd p htab
          rw [ho] at ho1; cases ho1; exact hh
        have hname : s.names p = some n := by
          rcases i.table hd p h0 htab with h | h
          · rw [hn] at h; cases h
          · rw [h, hn]
        refine ⟨p, { o with refs := o.refs + 1 }, n, ?_, hh, ?_, hn, ?_, ?_⟩
        · unfold State.wrote; rw [(hw _).1]; exact upd_same _ _ _
        · unfold State.wrote; rw [(hw _).1]; exact upd_same _ _ _
        · unfold State.wrote; rw [(hw _).2.2]
          simp only [reduceCtorEq, if_false]; exact hname
        · intro hgone
          cases hdead : o.dead with
          | false => rfl
          | true =>
            obtain ⟨m, h1, h2⟩ := i.dead p o ho (by rw [hh]; exact h0) hdead
            rw [hname] at h1; cases h1
            rw [hgone] at h2; cases h2
      | none =>
        simp only [RemoteObj.step, htab, reduceCtorEq, if_false] at hb
        split at hb
        · cases hb
          refine ⟨id, ⟨1, hd, false, true⟩, n, ?_, rfl, ?_, hn, ?_, fun _ => rfl⟩
          · unfold State.wrote; rw [(hw _).1]; exact upd_same _ _ _
          · unfold State.wrote; rw [(hw _).1]; exact upd_same _ _ _
          · unfold State.wrote; rw [(hw _).2.2]
            simp only [if_true, upd_same]; exact hn
        · cases hb
    · cases hs
    · cases hs
  · cases hs

/-- An object is dead only if what it refers to is dead. -/
theorem C77_dead_partial {s : State} (h : ReachIf step Calm {} s) {p : Nat} {o : RemoteObj.Obj}
    (ho : s.lib.objs p = some o) (h0 : o.handle ≠ 0) (hd : o.dead = true) :
    ∃ n, s.names p = some n ∧ s.gone n = true :=
  (inv_reach h).dead p o ho h0 hd

/-- The kernel knows exactly the handles which are in use: there's an object which is alive, or a
buffer. -/
theorem C77_known_partial {s : State} (h : ReachIf step Calm {} s) {hd : Nat} (h0 : hd ≠ 0) :
    s.node hd ≠ none ↔ 0 < s.buffers hd ∨ ∃ p o, s.lib.objs p = some o ∧ o.handle = hd ∧ o.dead = false := by
  have i := inv_reach h
  constructor
  · intro hn
    by_cases hb : 0 < s.buffers hd
    · exact .inl hb
    · right
      obtain ⟨l, h1, h2, h3⟩ := i.acq hd h0
      cases l with
      | nil =>
        exact absurd ((i.node hd h0).2 (by simp only [List.length_nil] at h3; omega)) hn
      | cons p l =>
        obtain ⟨o, h4, h5, h6⟩ := (h2 p).1 (by simp)
        refine ⟨p, o, h4, h5, ?_⟩
        cases hd : o.dead with
        | false => rfl
        | true => rw [i.deadAcq p o h4 hd] at h6; cases h6
  · rintro (hb | ⟨p, o, h1, rfl, h3⟩) hn
    · have := (i.node hd h0).1 hn; omega
    · have := (i.acq _ h0).pos ⟨o, h1, rfl, i.alive p o h1 h0 h3⟩
      have := (i.node _ h0).1 hn
      omega

/-! ### What's missing -/

/-- The process dies, and while BR_DEAD_BINDER is on its way, the last reference to the object is
dropped. Then the same handle is received for something else (2). -/
def stale : List Label :=
  [.receive 5 1, .read 5 .acquired 7, .freeBuffer 5, .die 1, .deadBinder 5, .lib (.unref 7), .lib (.dispose 7),
   .lib (.settle 7), .lib (.invalidate 7), .lib (.free 7), .receive 5 2, .read 5 .acquired 8,
   .lib (.deliver 5 7), .lib (.notify 8), .lib (.run 8), .lib (.bury 8)]

/-- It's the new object that is declared dead, although what it refers to is alive. -/
theorem C77_fails_stale : ∃ s o, Reach step {} s ∧ s.lib.objs 8 = some o ∧ o.dead = true ∧ s.names 8 = some 2 ∧
    s.gone 2 = false ∧ .signal 8 ∈ s.lib.log := by
  have h : (exec step {} stale).holds (fun s => (s.lib.objs 8).map (·.dead) = some true ∧ s.names 8 = some 2 ∧
      s.gone 2 = false ∧ .signal 8 ∈ s.lib.log) = true := by decide +kernel
  cases he : exec step {} stale with
  | ok s =>
    rw [he] at h
    simp only [Out.holds, decide_eq_true_eq] at h
    obtain ⟨h1, h2⟩ := h
    cases ho : s.lib.objs 8 with
    | none => rw [ho] at h1; cases h1
    | some o => rw [ho] at h1; simp only [Option.map_some, Option.some.injEq] at h1; exact ⟨s, o, ⟨_, he⟩, ho, h1, h2⟩
  | no => rw [he] at h; cases h
  | ub => rw [he] at h; cases h

/-- When an object dies, BC_RELEASE is sent before the object is removed from the table
(gbinder_remote_object.c:77-85). If another thread receives the same handle at this very moment ... -/
def window : List Label :=
  [.receive 5 1, .read 5 .acquired 7, .freeBuffer 5, .die 1, .deadBinder 5, .lib (.deliver 5 7), .lib (.notify 7),
   .lib (.run 7), .receive 5 2, .read 5 .acquired 8]

/-- ... it gets the dead object. -/
theorem C77_fails_window : ∃ s o, Reach step {} s ∧ s.lib.objs 7 = some o ∧ o.dead = true ∧ s.lib.user 7 = 2 ∧
    s.lib.objs 8 = none ∧ s.node 5 = some 2 ∧ s.gone 2 = false ∧ s.names 7 = some 1 := by
  have h : (exec step {} window).holds (fun s => (s.lib.objs 7).map (·.dead) = some true ∧ s.lib.user 7 = 2 ∧
      s.lib.objs 8 = none ∧ s.node 5 = some 2 ∧ s.gone 2 = false ∧ s.names 7 = some 1) = true := by decide +kernel
  cases he : exec step {} window with
  | ok s =>
    rw [he] at h
    simp only [Out.holds, decide_eq_true_eq] at h
    obtain ⟨h1, h2⟩ := h
    cases ho : s.lib.objs 7 with
    | none => rw [ho] at h1; cases h1
    | some o => rw [ho] at h1; simp only [Option.map_some, Option.some.injEq] at h1; exact ⟨s, o, ⟨_, he⟩, ho, h1, h2⟩
  | no => rw [he] at h; cases h
  | ub => rw [he] at h; cases h

/-- An object for the same handle has been created by a bridge, which doesn't acquire it. Then the
application reads the handle from another buffer and gets the object, which isn't acquired
(gbinder_ipc.c:1332-1335). When the buffers are freed, the kernel gives the handle to something else. -/
def bridged : List Label :=
  [.receive 5 1, .read 5 .alive 7, .receive 5 1, .read 5 .acquired 8, .freeBuffer 5, .freeBuffer 5, .receive 5 2]

/-- Transactions sent with an object which is alive go to something else. -/
theorem C77_fails_bridged : ∃ s o, Reach step {} s ∧ s.lib.objs 7 = some o ∧ o.dead = false ∧ s.lib.user 7 = 2 ∧
    s.gone 1 = false ∧ s.names 7 = some 1 ∧ target s 7 = some 2 := by
  have h : (exec step {} bridged).holds (fun s => (s.lib.objs 7).map (·.dead) = some false ∧ s.lib.user 7 = 2 ∧
      s.gone 1 = false ∧ s.names 7 = some 1 ∧ target s 7 = some 2) = true := by decide +kernel
  cases he : exec step {} bridged with
  | ok s =>
    rw [he] at h
    simp only [Out.holds, decide_eq_true_eq] at h
    obtain ⟨h1, h2⟩ := h
    cases ho : s.lib.objs 7 with
    | none => rw [ho] at h1; cases h1
    | some o => rw [ho] at h1; simp only [Option.map_some, Option.some.injEq] at h1; exact ⟨s, o, ⟨_, he⟩, ho, h1, h2⟩
  | no => rw [he] at h; cases h
  | ub => rw [he] at h; cases h

/-! ### Examples -/

/-- Handles aren't reused too early. -/
def calmRun (s : State) : List Label → Bool
  | [] => true
  | l :: ls => decide (Calm s l) && match step s l with
    | .ok s' => calmRun s' ls
    | _ => false

theorem reachIf_of_exec {ls : List Label} : ∀ {s : State},
    ReachIf step Calm {} s → calmRun s ls = true →
    ∃ s', exec step s ls = .ok s' ∧ ReachIf step Calm {} s' := by
  induction ls with
  | nil => intro s h _; exact ⟨s, rfl, h⟩
  | cons l ls ih =>
    intro s h hn
    simp only [calmRun, Bool.and_eq_true, decide_eq_true_eq] at hn
    obtain ⟨h1, h2⟩ := hn
    split at h2
    · rename_i s1 hs
      obtain ⟨s', h3, h4⟩ := ih (.step l h h1 hs) h2
      exact ⟨s', by simp only [exec, hs, h3], h4⟩
    · cases h2

/-- The handle is received twice, the second time the same object is found; it dies, and the number is
reused for something else. -/
def run : List Label :=
  [.receive 5 1, .read 5 .acquired 7, .receive 5 1, .read 5 .acquired 8, .freeBuffer 5, .freeBuffer 5, .die 1,
   .deadBinder 5, .lib (.deliver 5 7), .lib (.notify 7), .lib (.run 7), .lib (.bury 7), .receive 5 2,
   .read 5 .acquired 9]

/-- The hypotheses of all the theorems are satisfied: 7 is dead, 9 is alive, both have the same handle. -/
example : ∃ s o o', ReachIf step Calm {} s ∧ s.lib.objs 7 = some o ∧ o.dead = true ∧ o.handle = 5 ∧
    s.lib.objs 9 = some o' ∧ o'.dead = false ∧ o'.handle = 5 ∧ s.names 7 = some 1 ∧ target s 9 = some 2 := by
  obtain ⟨s, h1, h2⟩ := reachIf_of_exec (ls := run) .init (by decide +kernel)
  have h3 : (exec step {} run).holds (fun s => s.lib.objs 7 = some ⟨3, 5, true, false⟩ ∧
      s.lib.objs 9 = some ⟨1, 5, false, true⟩ ∧ s.names 7 = some 1 ∧ target s 9 = some 2) = true := by decide +kernel
  rw [h1] at h3
  simp only [Out.holds, decide_eq_true_eq] at h3
  obtain ⟨h4, h5, h6, h7⟩ := h3
  exact ⟨s, _, _, h2, h4, rfl, rfl, h5, rfl, rfl, h6, h7⟩

/-- `C77_read_partial`: both when the object is there and when it isn't. -/
example : calmRun {} (run.take 1) = true ∧ (exec step {} (run.take 2)).holds (fun s => s.names 7 = some 1) = true ∧ calmRun {} (run.take 3) = true ∧
    (exec step {} (run.take 4)).holds (fun s => s.lib.user 7 = 2) = true := by decide +kernel

end Gb.C77
