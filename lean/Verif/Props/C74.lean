import Verif.Lemmas.Locks
/-
C74: threads don't wait for each other forever because of the locks, and locks aren't held while the application's code
runs. The full statement fails: see `C74_fails_create` (what happens if a thread can't be created) and `C74_fails_exit`
(requests received by asynchronous calls when the process exits).
-/
set_option autoImplicit false

namespace Gb.C74

open Gb.Locks

variable {progs : Nat → List Act} {s : State}

/-- No mutex is locked again by the thread which has locked it, and no mutex is unlocked by a thread which hasn't, no
matter which functions the threads call and in which order things happen. -/
theorem C74_safe_partial (hp : ∀ t, Prog (progs t)) (hc : ∀ t, Creates (progs t)) (h : Reach step (start progs) s)
    (t : Nat) : step s t ≠ .ub := by
  rcases step_inv (reach_inv hp hc h) t with h1 | ⟨s', h1, _⟩ <;> (rw [h1]; simp)

/-- Nothing remains locked when the functions have returned. -/
theorem C74_unlocked_partial (hp : ∀ t, Prog (progs t)) (hc : ∀ t, Creates (progs t)) (h : Reach step (start progs) s)
    {t : Nat} (ht : s.rest t = []) : ¬ s.Holder t := by
  rintro ⟨l, hl⟩
  obtain ⟨g, hm, _⟩ := reach_inv hp hc h t
  have hs := hm.scan
  rw [ht] at hs
  simp only [scan, Option.some.injEq] at hs
  have := (hm.mem l).2 hl
  rw [hs] at this
  cases this

/-- The application's code gets called with no locks held, so it may call any functions. And nobody waits for other
threads with a lock held. -/
theorem C74_outside_partial (hp : ∀ t, Prog (progs t)) (hc : ∀ t, Creates (progs t)) (h : Reach step (start progs) s)
    {t : Nat} {a : Act} {r : List Act} (ht : s.rest t = a :: r) (ha : a.long = true) : ¬ s.Holder t := by
  rintro ⟨l, hl⟩
  obtain ⟨g, hm, _⟩ := reach_inv hp hc h t
  have hs := hm.scan
  rw [ht] at hs
  have hg : g ≠ [] := by
    rintro rfl
    have := (hm.mem l).2 hl
    cases this
  cases a <;> simp [Act.long] at ha <;> simp [scan, hg] at hs

/-- Whoever waits for a lock gets a chance to take it: those who hold locks (and nobody else) only have to be given time
until the lock is free. -/
theorem C74_no_deadlock_partial (hp : ∀ t, Prog (progs t)) (hc : ∀ t, Creates (progs t))
    (h : Reach step (start progs) s) {t : Nat} {l : Lock} {r : List Act} (ht : s.rest t = .lock l :: r) :
    ∃ s' s'', Runs State.Holder s s' ∧ s'.rest t = s.rest t ∧ step s' t = .ok s'' ∧ s''.held l = some t := by
  have hi := reach_inv hp hc h
  have key : ∃ s', Runs State.Holder s s' ∧ s'.rest t = s.rest t ∧ s'.held l = none := by
    cases hl : s.held l with
    | none => exact ⟨s, .refl _, rfl, hl⟩
    | some u =>
      obtain ⟨s', p, hf⟩ := free hi hl
      exact ⟨s', p.runs fun _ _ h => h, (p.waits hi ht).1, hf⟩
  obtain ⟨s', h1, h2, h3⟩ := key
  refine ⟨s', (s'.set l (some t)).next t r, h1, h2, ?_, ?_⟩
  · simp [step, h2, ht, h3]
  · simp [State.next, State.set]

/-- The looper which has been told to stop gets to its end. It doesn't need any help, except that those who hold locks must be
given time to release them. In particular, whoever waits for its end (and therefore holds no locks) doesn't have to do
anything else. -/
theorem C74_stops_partial (hp : ∀ t, Prog (progs t)) (hc : ∀ t, Creates (progs t)) (h : Reach step (start progs) s)
    {x : Nat} (hs : s.stopped x = true) (ho : OfLooper x (s.rest x)) :
    ∃ s', Runs (fun s t => t = x ∨ s.Holder t) s s' ∧ s'.rest x = [] ∧
      ∀ m, m ≠ x → ¬ s.Holder m → s'.rest m = s.rest m :=
  ends x _ s (reach_inv hp hc h) hs ho (Nat.le_refl _)

/-- Nothing that loopers do by themselves makes them wait for what they can't stop waiting for. -/
theorem C74_looper (i x : Nat) (entered : Bool) (reads : List Reading) (abandoned : Bool) :
    OfLooper x (looperThread i x entered reads abandoned) := by
  have hw : ∀ (w : Started) (c : Created) a, a ∈ looperWait w c → (∀ u, a ≠ .join u) ∧ ∀ r v, a ≠ .ask r v := by
    intro w c a
    cases c <;> cases w <;> simp [looperWait, looperStart, locked] <;> grind
  have hn : ∀ (c : Created) a, a ∈ looperNew c → (∀ u, a ≠ .join u) ∧ ∀ r v, a ≠ .ask r v := by
    intro c a
    cases c <;> simp [looperNew, locked] <;> grind
  have hk : ∀ (c : Option Created) (w : Started) a, a ∈ looperCheck i c w → (∀ u, a ≠ .join u) ∧ ∀ r v, a ≠ .ask r v := by
    intro c w a
    cases c with
    | none => simp [looperCheck, locked]; grind
    | some c =>
      simp only [looperCheck, locked, List.mem_append, List.mem_cons, List.not_mem_nil, or_false]
      intro h
      have := hw w c a
      have := hn c a
      grind
  have hr : ∀ d a, a ∈ looperReading i x d → (∀ u, a ≠ .join u) ∧ ∀ r v, a = .ask r v → v = some x := by
    intro d a
    cases d with
    | sys => simp [looperReading]; grind
    | other => simp [looperReading]; grind
    | getLocal => simp [looperReading, localsOnly, locked]; grind
    | getRemote create c w =>
      have := hk c w a
      cases create <;> simp [looperReading, getRemote, remoteNew, locked] <;> grind
    | request r h =>
      cases h with
      | done => simp [looperReading, looperTransact]; grind
      | blocked q p c w =>
        cases p with
        | false => simp [looperReading, looperTransact, locked]; grind
        | true =>
          cases c with
          | none => simp [looperReading, looperTransact, locked]; grind
          | some c =>
            have := hw w c a
            have := hn c a
            simp [looperReading, looperTransact, locked]; grind
  have hall : ∀ a, a ∈ looperThread i x entered reads abandoned →
      (∀ u, a ≠ .join u) ∧ ∀ r v, a = .ask r v → v = some x := by
    intro a
    have h1 : a ∈ reads.flatMap (looperReading i x) → (∀ u, a ≠ .join u) ∧ ∀ r v, a = .ask r v → v = some x := by
      intro h
      obtain ⟨d, _, hd⟩ := List.mem_flatMap.1 h
      exact hr d a hd
    cases entered <;> cases abandoned <;>
      simp only [looperThread, locked, List.mem_append, List.mem_cons, List.not_mem_nil, or_false, List.cons_append,
        List.nil_append, if_true, Bool.false_eq_true, if_false] <;> grind
  exact ⟨fun u hu => (hall _ hu).1 u rfl, fun r w hw => (hall _ hw).2 r w rfl⟩

/-! Examples -/

/-- The state in which the threads get after these steps. -/
def after (progs : Nat → List Act) (ls : List Nat) : State :=
  match exec step (start progs) ls with
  | .ok s => s
  | _ => start progs

theorem after_reach (progs : Nat → List Act) (ls : List Nat) : Reach step (start progs) (after progs ls) := by
  unfold after
  split
  · rename_i s h; exact ⟨ls, h⟩
  · exact Reach.init

/-- The main thread gets a remote object, which starts looper 2, and then releases GBinderIpc. The looper gets a request for
the main thread, and thread 1 creates a local object. -/
def demo : Nat → List Act
  | 0 => getRemote 0 true false (some (.ok 2)) .notYet ++ (ipcDispose 0 [[⟨2, false, true⟩]] [] ++ [])
  | 1 => registerLocal 0 none .already ++ []
  | 2 => looperThread 0 2 true [.getRemote false none .already, .request 7 .done] false ++ []
  | _ => []

theorem demo_prog : ∀ t, Prog (demo t)
  | 0 => .call (.getRemote ..) (.call (.ipcDispose ..) .nil)
  | 1 => .call (.registerLocal ..) .nil
  | 2 => .call (.looperThread ..) .nil
  | _ + 3 => .nil

theorem demo_creates : ∀ t, Creates (demo t)
  | 0 => by decide
  | 1 => by decide
  | 2 => by decide
  | _ + 3 => by simp [demo, Creates]

/-- The main thread has locked the table of remote objects and the list of loopers, the looper waits for its own mutex, and
thread 1 waits for the list. -/
def busy : State := after demo ([1, 1] ++ [0, 0, 0])

example : (busy.held (.remotes 0), busy.held (.loopers 0), busy.held (.looper 2)) = (some 0, some 0, some 0) := by decide
example : busy.rest 1 = [.lock (.loopers 0), .unlock (.loopers 0)] := by decide
example : (busy.rest 2).head? = some (.lock (.looper 2)) := by decide

example : ∃ s' s'', Runs State.Holder busy s' ∧ s'.rest 1 = busy.rest 1 ∧ step s' 1 = .ok s'' ∧
    s''.held (.loopers 0) = some 1 :=
  C74_no_deadlock_partial demo_prog demo_creates (after_reach _ _) (by decide : busy.rest 1 = [.lock (.loopers 0), .unlock (.loopers 0)])

example : ¬ (after demo [1, 1, 1, 1]).Holder 1 :=
  C74_unlocked_partial demo_prog demo_creates (after_reach _ _) (by decide)

/-- The looper waits until the main thread handles the request, and the main thread waits for the looper. -/
def stopping : State :=
  after demo ([0, 0, 0, 0, 0, 0, 0, 0, 2, 2, 2, 0, 0, 0, 0, 0, 0, 0] ++ [2, 2, 2] ++ [0, 0, 0, 0, 0, 0, 0, 0, 0])

example : (stopping.rest 0).head? = some (.join 2) := by decide
example : (stopping.rest 2).head? = some (.ask 7 (some 2)) := by decide
example : stopping.stopped 2 = true := by decide

example : ∃ s', Runs (fun s t => t = 2 ∨ s.Holder t) stopping s' ∧ s'.rest 2 = [] ∧
    ∀ m, m ≠ 2 → ¬ stopping.Holder m → s'.rest m = stopping.rest m :=
  C74_stops_partial demo_prog demo_creates (after_reach _ _) (by decide : stopping.stopped 2 = true) (by
    have h : stopping.rest 2 = (looperThread 0 2 true [.getRemote false none .already, .request 7 .done] false).drop 6 := by
      decide
    have h1 := C74_looper 0 2 true [.getRemote false none .already, .request 7 .done] false
    show OfLooper 2 (stopping.rest 2)
    rw [h]
    exact ⟨fun u hu => h1.1 u (List.mem_of_mem_drop hu), fun r w hw => h1.2 r w (List.mem_of_mem_drop hw)⟩)

example : ¬ stopping.Holder 0 :=
  C74_outside_partial demo_prog demo_creates (after_reach _ _) (by decide : stopping.rest 0 = .join 2 :: (stopping.rest 0).tail) rfl

/-! What goes wrong -/

/-- One thread gets a remote object, and the looper's thread can't be created. -/
def unlucky : Nat → List Act
  | 0 => getRemote 0 true false (some (.noThread 2)) .already ++ []
  | _ => []

/-- If a thread can't be created then pthread_join is called for a thread which doesn't exist, with two locks being held. -/
theorem C74_fails_create : ∃ progs : Nat → List Act, (∀ t, Prog (progs t)) ∧ ∃ s, Reach step (start progs) s ∧
    s.held (.remotes 0) = some 0 ∧ s.held (.loopers 0) = some 0 ∧ (s.rest 0).head? = some .joinUnset ∧ step s 0 = .ub := by
  refine ⟨unlucky, ?_, after unlucky [0, 0, 0, 0, 0], after_reach _ _, by decide, by decide, by decide, ?_⟩
  · intro t
    cases t with
    | zero => exact .call (.getRemote ..) .nil
    | succ t => exact .nil
  · exact Out.isUb_iff.1 (by decide)

/-- An asynchronous call receives a request while the process exits. The request would be handled by the main loop, after
gbinder_ipc_exit. -/
def exiting : Nat → List Act
  | 0 => ipcExit [(0, [], [1])] ++ (mainServe 7 ++ [])
  | 1 => txProc 0 [.request 7 .done] ++ []
  | _ => []

/-- gbinder_ipc_exit waits until asynchronous calls are finished, and the asynchronous call waits until the main thread
responds to the request. Nothing happens anymore. -/
theorem C74_fails_exit : ∃ progs : Nat → List Act, (∀ t, Prog (progs t)) ∧ (∀ t, Creates (progs t)) ∧
    ∃ s, Reach step (start progs) s ∧ (s.rest 0).head? = some (.join 1) ∧ (s.rest 1).head? = some (.ask 7 none) ∧
      ∀ t, step s t = .no := by
  refine ⟨exiting, ?_, ?_, after exiting [0, 0, 0, 0], after_reach _ _, by decide, by decide, ?_⟩
  · intro t
    match t with
    | 0 => exact .call (.ipcExit ..) (.call (.mainServe ..) .nil)
    | 1 => exact .call (.txProc ..) .nil
    | _ + 2 => exact .nil
  · intro t
    match t with
    | 0 => show Creates (ipcExit [(0, [], [1])] ++ (mainServe 7 ++ [])); decide
    | 1 => show Creates (txProc 0 [.request 7 .done] ++ []); decide
    | _ + 2 => simp [exiting, Creates]
  · intro t
    match t with
    | 0 => rfl
    | 1 => rfl
    | _ + 2 => rfl

end Gb.C74
