import Verif.Lemmas.Races
import Verif.Lemmas.Locks
/-
C79: tables of objects, of GBinderIpc's, of service managers and lists of loopers can be used by any number of threads at the
same time without data races. The full statement (no data races at all) fails: see `C79_fails_protocols`,
`C79_fails_types`, `C79_fails_config` (things which are loaded when they're needed for the first time), `C79_fails_fd`
(the device being closed), `C79_fails_next` (loopers being stopped) and `C79_fails_dead`.
-/
set_option autoImplicit false

namespace Gb.C79

open Gb.Races
open Gb.Locks (Lock Creates)

variable {progs : Nat → List Act} {s : State}

/-- Two threads never access a guarded variable at the same time, no matter which functions they call and in which order
things happen. -/
theorem C79_exclusive_partial (hp : ∀ t, Prog (progs t)) (h : Reach step (start progs) s) {v : Var} {l : Lock}
    (hv : guard v = some l) {t u : Nat} {w w' : Bool} {r r' : List Act} (ht : s.rest t = .use v w :: r)
    (hu : s.rest u = .use v w' :: r') : t = u := by
  have h1 := (reach_inv hp h).guarded ht hv
  rw [(reach_inv hp h).guarded hu hv] at h1
  exact (Option.some.inj h1).symm

/-- There are no data races. -/
theorem C79_no_race_partial (hp : ∀ t, Prog (progs t)) (h : Reach step (start progs) s) {v : Var}
    (hv : (guard v).isSome = true ∨ Private progs v) : ¬ s.Race v := by
  rintro ⟨t, u, w, r, r', htu, ht, hu⟩
  rcases hv with hv | hv | ⟨m, hm⟩
  · obtain ⟨l, hl⟩ := Option.isSome_iff_exists.1 hv
    exact htu (C79_exclusive_partial hp h hl ht hu)
  · exact hv t ((reach_suffix h t).subset (by simp [ht]))
  · have h1 : t = m := Classical.byContradiction fun hc => hm t hc _ ((reach_suffix h t).subset (by rw [ht]; exact List.mem_cons_self))
    have h2 : u = m := Classical.byContradiction fun hc => hm u hc _ ((reach_suffix h u).subset (by rw [hu]; exact List.mem_cons_self))
    exact htu (h1.trans h2.symm)

/-- If two threads have accessed a guarded variable then the first one has unlocked the mutex before the other one locked
it, so everything that was done by the first one is seen by the other one. -/
theorem C79_ordered_partial (hp : ∀ t, Prog (progs t)) (h : Reach step (start progs) s) {v : Var} {l : Lock}
    (hv : guard v = some l) {t u : Nat} (htu : t ≠ u) {w w' : Bool} {a b c : List Ev}
    (hl : s.log = a ++ .used t v w :: (b ++ .used u v w' :: c)) :
    ∃ b1 b2 b3, b = b1 ++ .unlocked t l :: (b2 ++ .locked u l :: b3) := by
  have hw := (reach_logged hp h).wf l
  rw [hl, wf_append] at hw
  obtain ⟨_, h1, h2⟩ := hw
  rw [wf_append] at h2
  obtain ⟨h2, h3, _⟩ := h2
  have e1 : holder l none a = some t := h1 hv
  have e2 : holder l (holder l none a) b = some u := h3 hv
  have h2' : Wf l (holder l none a) b := h2
  rw [e1] at e2 h2'
  exact passed htu h2' e2

/-- While the thread holds the mutex, nobody else gets to the variable: what is read is still there until the thread
unlocks the mutex. That's why other models may treat such pieces of code as one step. -/
theorem C79_atomic_partial (hp : ∀ t, Prog (progs t)) (h : Reach step (start progs) s) {v : Var} {l : Lock}
    (hv : guard v = some l) {t : Nat} {w : Bool} {a b : List Ev} (hl : s.log = a ++ .used t v w :: b)
    (hn : Ev.unlocked t l ∉ b) {u : Nat} {w' : Bool} (hu : Ev.used u v w' ∈ b) : u = t := by
  refine Classical.byContradiction fun hc => ?_
  obtain ⟨b1, b2, rfl⟩ := List.append_of_mem hu
  obtain ⟨c1, c2, c3, rfl⟩ := C79_ordered_partial hp h hv (Ne.symm hc) hl
  exact hn (by simp)

/-- As far as mutexes and waiting are concerned, it's the same thing as the model of C74, so there are no deadlocks here
either. -/
theorem C79_locks (hp : ∀ t, Prog (progs t)) (h : Reach step (start progs) s) :
    (∀ t, Locks.Prog (erase (progs t))) ∧ Reach Locks.step { rest := fun t => erase (progs t) } s.erased :=
  ⟨fun t => prog_erase (hp t), reach_erased h⟩

/-- No mutex is locked again by the thread which has locked it, and no mutex is unlocked by a thread which hasn't. -/
theorem C79_safe_partial (hp : ∀ t, Prog (progs t)) (hc : ∀ t, Creates (erase (progs t))) (h : Reach step (start progs) s)
    (t : Nat) : step s t ≠ .ub := by
  intro hub
  have hi := Locks.reach_inv (fun t => prog_erase (hp t)) hc (C79_locks hp h).2
  have key : Locks.step s.erased t = .ub := by
    have go : ∀ {a r}, s.rest t = .act a :: r → s.erased.rest t = a :: erase r := by
      intro a r hr
      simp [State.erased, hr, erase_cons_act]
    unfold step at hub
    split at hub
    · cases hub
    · cases hub
    · rename_i l r hr
      split at hub
      · cases hub
      · rename_i u hu
        split at hub
        · rename_i hut
          have : s.erased.held l = some u := hu
          unfold Locks.step
          rw [go hr]
          simp only [this, hut, if_true]
        · cases hub
    · rename_i l r hr
      split at hub
      · cases hub
      · rename_i hn
        have : ¬ s.erased.held l = some t := hn
        unfold Locks.step
        rw [go hr]
        simp only [this, if_false]
    · split at hub <;> cases hub
    · rename_i r hr
      unfold Locks.step
      rw [go hr]
    · cases hub
    · split at hub <;> cases hub
    · cases hub
    · cases hub
    · cases hub
    · cases hub
    · cases hub
  rcases Locks.step_inv hi t with h1 | ⟨s', h1, _⟩ <;> (rw [h1] at key; cases key)

/-! Examples -/

/-- The state in which the threads get after these steps. -/
def after (progs : Nat → List Act) (ls : List Nat) : State :=
  match exec step (start progs) ls with
  | .ok s => s
  | _ => start progs

theorem after_reach (progs : Nat → List Act) (ls : List Nat) : Reach step (start progs) (after progs ls) := by
  unfold after
  split
  · rename_i s h; exact ⟨ls, h⟩
  · exact Reach.init

/-- The main thread gets a remote object, which starts looper 2. The looper receives another one, thread 1 creates
a local object. -/
def demo : Nat → List Act
  | 0 => getRemote 0 true false (some (.ok 2)) .already ++ (localGone 0 ++ [])
  | 1 => registerLocal 0 none .already ++ []
  | 2 => looperThread 0 2 true [.getRemote false none .already] false ++ []
  | _ => []

theorem demo_prog : ∀ t, Prog (demo t)
  | 0 => .call (.getRemote ..) (.call (.localGone ..) .nil)
  | 1 => .call (.registerLocal ..) .nil
  | 2 => .call (.looperThread ..) .nil
  | _ + 3 => .nil

/-- All of them have done some of what they had to. -/
def busy : State := after demo ([1, 1] ++ List.replicate 16 0 ++ List.replicate 8 2 ++ [1, 1, 1])

example : busy.log = [.locked 1 (.locals 0), .used 1 (.locals 0) false, .locked 0 (.remotes 0), .used 0 (.remotes 0) false,
    .locked 0 (.loopers 0), .used 0 (.loopers 0) false, .locked 0 (.looper 2), .unlocked 0 (.looper 2),
    .used 0 (.loopers 0) true, .unlocked 0 (.loopers 0), .used 0 (.fd 0) false, .used 0 (.fd 0) false,
    .used 0 (.remotes 0) true, .unlocked 0 (.remotes 0), .locked 2 (.looper 2), .used 2 (.fd 0) false,
    .unlocked 2 (.looper 2), .used 2 (.fd 0) false, .locked 2 (.remotes 0), .used 2 (.remotes 0) false,
    .used 1 (.locals 0) true, .unlocked 1 (.locals 0), .locked 1 (.loopers 0)] := by decide +kernel

example : ∃ b1 b2 b3, (busy.log.drop 13).take 6 = b1 ++ Ev.unlocked 0 (.remotes 0) :: (b2 ++ .locked 2 (.remotes 0) :: b3) :=
  C79_ordered_partial (s := busy) demo_prog (after_reach _ _) (v := .remotes 0) rfl (t := 0) (u := 2) (by decide) (w := true) (w' := false)
    (a := busy.log.take 12) (c := busy.log.drop 20) (by decide +kernel)

example : Ev.used 0 (.remotes 0) true ∈ (busy.log.drop 4).take 9 ∧ Ev.unlocked 0 (.remotes 0) ∉ (busy.log.drop 4).take 9 := by
  decide +kernel

example : (0 : Nat) = 0 :=
  C79_atomic_partial (s := after demo ([1, 1] ++ List.replicate 15 0)) demo_prog (after_reach _ _) (v := .remotes 0) rfl
    (t := 0) (w := false) (a := busy.log.take 3) (b := (busy.log.drop 4).take 9) (by decide +kernel) (by decide +kernel) (w' := true)
    (by decide +kernel)

/-- Thread 1 is about to use the list of loopers. -/
example : busy.rest 1 = .use (.loopers 0) false :: (busy.rest 1).tail := by decide +kernel

example : ¬ busy.Race (.loopers 0) := C79_no_race_partial demo_prog (after_reach _ _) (.inl rfl)

/-- Only one of these threads makes service managers. -/
def one : Nat → List Act
  | 0 => typeFor false (some .now) ++ (managerNew 0 0 false (some .before) false true true none none none .already .already
      .already ++ [])
  | 1 => registerLocal 0 none .already ++ []
  | _ => []

theorem one_prog : ∀ t, Prog (one t)
  | 0 => .call (.typeFor ..) (.call (.managerNew ..) .nil)
  | 1 => .call (.registerLocal ..) .nil
  | _ + 2 => .nil

theorem one_private : Private one .types := by
  refine .inr ⟨0, fun t ht w => ?_⟩
  match t with
  | 0 => exact absurd rfl ht
  | 1 => cases w <;> decide
  | _ + 2 => simp [one]

theorem one_creates : ∀ t, Creates (erase (one t))
  | 0 => by decide
  | 1 => by decide
  | _ + 2 => by simp [one, erase, Creates]

example : (after one [0, 0, 0, 1]).rest 0 = .use .types true :: ((after one [0, 0, 0, 1]).rest 0).tail := by decide +kernel

example : ¬ (after one [0, 0, 0, 1]).Race .types :=
  C79_no_race_partial one_prog (after_reach _ _) (.inr one_private)

example : step (after one [0, 0, 0, 1]) 1 ≠ .ub := C79_safe_partial one_prog one_creates (after_reach _ _) 1

/-! What goes wrong -/

theorem race_of {s : State} {v : Var} {t u : Nat} {w : Bool} (htu : t ≠ u)
    (ht : (s.rest t).head? = some (.use v true)) (hu : (s.rest u).head? = some (.use v w)) : s.Race v := by
  cases h1 : s.rest t with
  | nil => rw [h1] at ht; cases ht
  | cons a r =>
    rw [h1] at ht
    cases h2 : s.rest u with
    | nil => rw [h2] at hu; cases hu
    | cons b r' =>
      rw [h2] at hu
      simp only [List.head?_cons, Option.some.injEq] at ht hu
      subst ht hu
      exact ⟨t, u, w, r, r', htu, h1, h2⟩

/-- Two threads create GBinderIpc's. -/
def twoIpcs : Nat → List Act
  | 0 => ipcNew false (some .none) false ++ []
  | 1 => ipcNew false (some .none) false ++ []
  | _ => []

/-- gbinder_ipc_new calls gbinder_rpc_protocol_for_device without locking anything. -/
theorem C79_fails_protocols : ∃ progs : Nat → List Act, (∀ t, Prog (progs t)) ∧ (∀ t, Creates (erase (progs t))) ∧
    ∃ s, Reach step (start progs) s ∧ s.Race .protocols := by
  refine ⟨twoIpcs, ?_, ?_, after twoIpcs [0, 1, 0, 1], after_reach _ _,
    race_of (t := 0) (u := 1) (w := true) (by decide) (by decide +kernel) (by decide +kernel)⟩
  · intro t
    match t with
    | 0 => exact .call (.ipcNew ..) .nil
    | 1 => exact .call (.ipcNew ..) .nil
    | _ + 2 => exact .nil
  · intro t
    match t with
    | 0 => show Creates (erase (ipcNew false (some .none) false ++ [])); decide
    | 1 => show Creates (erase (ipcNew false (some .none) false ++ [])); decide
    | _ + 2 => simp [twoIpcs, erase, Creates]

/-- Two threads create service managers, the device is the same. -/
def twoManagers : Nat → List Act
  | 0 => typeFor false (some .now) ++ []
  | 1 => typeFor false (some .now) ++ []
  | _ => []

theorem twoManagers_prog : ∀ t, Prog (twoManagers t)
  | 0 => .call (.typeFor ..) .nil
  | 1 => .call (.typeFor ..) .nil
  | _ + 2 => .nil

/-- gbinder_servicemanager_new2 doesn't lock anything before it makes its table. -/
theorem C79_fails_types : ∃ progs : Nat → List Act, (∀ t, Prog (progs t)) ∧
    ∃ s, Reach step (start progs) s ∧ s.Race .types :=
  ⟨twoManagers, twoManagers_prog, after twoManagers [0, 0, 0, 1, 1, 1], after_reach _ _,
    race_of (t := 0) (u := 1) (w := true) (by decide) (by decide +kernel) (by decide +kernel)⟩

/-- Neither does gbinder_config_get. -/
theorem C79_fails_config : ∃ progs : Nat → List Act, (∀ t, Prog (progs t)) ∧
    ∃ s, Reach step (start progs) s ∧ s.Race .config :=
  ⟨twoManagers, twoManagers_prog, after twoManagers [0, 0, 1], after_reach _ _,
    race_of (t := 0) (u := 1) (w := false) (by decide) (by decide +kernel) (by decide +kernel)⟩

/-- Looper 2 is stuck (it hasn't noticed that it has to stop), the main thread stops it. -/
def stuck : Nat → List Act
  | 0 => ipcDispose 0 [[⟨2, false, true⟩]] [] ++ []
  | 2 => looperThread 0 2 true [.sys] false ++ []
  | _ => []

/-- The device is closed while the looper uses it. -/
theorem C79_fails_fd : ∃ progs : Nat → List Act, (∀ t, Prog (progs t)) ∧
    ∃ s, Reach step (start progs) s ∧ s.Race (.fd 0) := by
  refine ⟨stuck, ?_, after stuck (List.replicate 13 0 ++ List.replicate 4 2), after_reach _ _,
    race_of (t := 0) (u := 2) (w := false) (by decide) (by decide +kernel) (by decide +kernel)⟩
  intro t
  match t with
  | 0 => exact .call (.ipcDispose ..) .nil
  | 1 => exact .nil
  | 2 => exact .call (.looperThread ..) .nil
  | _ + 3 => exact .nil

/-- Looper 2 is blocked by a request, the main thread stops it. -/
def blocked : Nat → List Act
  | 0 => mainServe 7 ++ (ipcDispose 0 [[⟨2, false, false⟩]] [] ++ [])
  | 2 => looperThread 0 2 true [.request 7 (.blocked 8 true none .already)] true ++ []
  | _ => []

/-- The looper which is being stopped returns to the list while the main thread goes through the loopers it has taken from
there, both of them write to the same looper. -/
theorem C79_fails_next : ∃ progs : Nat → List Act, (∀ t, Prog (progs t)) ∧
    ∃ s, Reach step (start progs) s ∧ s.Race (.next 0) := by
  refine ⟨blocked, ?_, after blocked ([0, 0] ++ List.replicate 12 2 ++ List.replicate 10 0 ++ List.replicate 4 2), after_reach _ _,
    race_of (t := 0) (u := 2) (w := true) (by decide) (by decide +kernel) (by decide +kernel)⟩
  intro t
  match t with
  | 0 => exact .call (.mainServe ..) (.call (.ipcDispose ..) .nil)
  | 1 => exact .nil
  | 2 => exact .call (.looperThread ..) .nil
  | _ + 3 => exact .nil

/-- A remote object dies while another thread calls it. -/
def dying : Nat → List Act
  | 0 => remoteDied 0 ++ []
  | 1 => workerCall 0 [.sys] ++ []
  | _ => []

/-- `dead` is written by the main thread and is read by the others, without locking anything. -/
theorem C79_fails_dead : ∃ progs : Nat → List Act, (∀ t, Prog (progs t)) ∧
    ∃ s, Reach step (start progs) s ∧ s.Race (.dead 0) := by
  refine ⟨dying, ?_, after dying [0], after_reach _ _,
    race_of (t := 0) (u := 1) (w := false) (by decide) (by decide +kernel) (by decide +kernel)⟩
  intro t
  match t with
  | 0 => exact .call (.remoteDied ..) .nil
  | 1 => exact .call (.workerCall ..) .nil
  | _ + 2 => exact .nil

end Gb.C79
