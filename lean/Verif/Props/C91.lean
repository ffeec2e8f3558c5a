import Verif.Lemmas.MutualEnd
/-
C91. Processes which call each other don't wait for each other forever.
-/
set_option autoImplicit false

namespace Gb.C91
open Mutual

/-- C91: as long as there are calls which haven't been replied to, something can be done about them (if the hierarchy of processes is
observed): nobody waits for each other. Partial: nothing makes applications observe a hierarchy, see `C91_fails_mutual`. -/
theorem C91_moves_partial {c : Cfg} {rank : Nat → Nat} {B : Nat} (hB : ∀ q, rank q ≤ B) {s : State}
    (h : ReachIf (step c) (Ok c rank) {} s) (hidle : CanReceive c s) {k : Nat} (hk : s.base.chain k ≠ []) :
    ∃ l s', Progress l = true ∧ step c s l = .ok s' :=
  moves (base_reach h.reach) (Fit.reach h) hidle hB (B + 2) hk (.inl (by omega))

/-- C91: the same, if there's a single process which uses libgbinder. All others handle calls on the thread which has received them,
as Android does. They may call back, as deep as they want. -/
theorem C91_single_partial {c : Cfg} (hone : ∀ p q, c.lib p = true → c.lib q = true → p = q) {s : State}
    (h : ReachIf (step c) (fun _ => NotSelf c) {} s) (hidle : CanReceive c s) {k : Nat} (hk : s.base.chain k ≠ []) :
    ∃ l s', Progress l = true ∧ step c s l = .ok s' :=
  C91_moves_partial (B := 0) (fun _ => Nat.le_refl 0) (single_reach hone h) hidle hk

/-- C91: unless new calls are made, there's only so much to do, in whatever order it's done and whoever waits for whom. -/
theorem C91_ends {c : Cfg} {s : State} (h : Reach (step c) {} s) :
    ∃ n, ∀ ls s', (∀ l ∈ ls, Progress l = true) → exec (step c) s ls = .ok s' → ls.length ≤ n := by
  obtain ⟨b, hb⟩ := limited h
  exact ⟨b, fun ls s' hp he => progress_ends h hb hp he⟩

theorem progress_reach {c : Cfg} {rank : Nat → Nat} {s s' : State} (h : ReachIf (step c) (Ok c rank) {} s) {ls : List Label}
    (hp : ∀ l ∈ ls, Progress l = true) (he : exec (step c) s ls = .ok s') : ReachIf (step c) (Ok c rank) {} s' := by
  induction ls generalizing s with
  | nil => cases he; exact h
  | cons l ls ih =>
    simp only [exec] at he
    split at he
    · rename_i s1 h1
      refine ih (.step l h ?_ h1) (fun l hl => hp l (List.mem_cons_of_mem _ hl)) he
      have := hp l List.mem_cons_self
      cases l <;> first | trivial | simp [Progress] at this
    · cases he
    · cases he

/-- C91: whatever is done, and in whichever order, it comes to an end; and then all calls have returned (if the hierarchy of processes
is observed, and there are threads to receive calls), on all threads. Partial for the same reason as `C91_moves_partial`. -/
theorem C91_returns_partial {c : Cfg} {rank : Nat → Nat} {B : Nat} (hB : ∀ q, rank q ≤ B) {s : State}
    (h : ReachIf (step c) (Ok c rank) {} s) :
    ∃ n, ∀ ls s', (∀ l ∈ ls, Progress l = true) → exec (step c) s ls = .ok s' → ls.length ≤ n ∧
      (CanReceive c s' → (∃ l s'', Progress l = true ∧ step c s' l = .ok s'') ∨ ∀ t, s'.base.frames t = [] ∧ s'.base.todo t = []) := by
  obtain ⟨n, hn⟩ := C91_ends h.reach
  refine ⟨n, fun ls s' hp he => ⟨hn ls s' hp he, fun hidle => ?_⟩⟩
  by_cases hm : Moves c s'
  · exact .inl hm
  · exact .inr (all_done hB (progress_reach h hp he) hidle hm)

/-- C91: the same, if there's a single process which uses libgbinder. -/
theorem C91_single_returns_partial {c : Cfg} (hone : ∀ p q, c.lib p = true → c.lib q = true → p = q) {s : State}
    (h : ReachIf (step c) (fun _ => NotSelf c) {} s) :
    ∃ n, ∀ ls s', (∀ l ∈ ls, Progress l = true) → exec (step c) s ls = .ok s' → ls.length ≤ n ∧
      (CanReceive c s' → (∃ l s'', Progress l = true ∧ step c s' l = .ok s'') ∨ ∀ t, s'.base.frames t = [] ∧ s'.base.todo t = []) :=
  C91_returns_partial (B := 0) (fun _ => Nat.le_refl 0) (single_reach hone h)

/-- C91: the same, if main threads make their calls asynchronously. Any number of processes may use libgbinder then, and call each other
and back in whichever way they want. -/
theorem C91_async_partial {c : Cfg} {s : State} (h : ReachIf (step c) (fun _ => Async c) {} s) :
    ∃ n, ∀ ls s', (∀ l ∈ ls, Progress l = true) → exec (step c) s ls = .ok s' → ls.length ≤ n ∧
      (CanReceive c s' → (∃ l s'', Progress l = true ∧ step c s' l = .ok s'') ∨ ∀ t, s'.base.frames t = [] ∧ s'.base.todo t = []) :=
  C91_returns_partial (B := 0) (fun _ => Nat.le_refl 0) (async_reach h)

/-- Ten threads in each process, the first one is the main one. -/
def demo (lib : Nat → Bool) : Cfg := ⟨fun t => t / 10, lib, fun p => 10 * p, fun p => by omega⟩

/-- All processes use libgbinder. The main thread of the process 0 calls the process 1, and the handler (on the main thread of the
process 1) calls the process 0 back. -/
def eachOther : List Label :=
  [.call 0 0 1, .pick 11 0, .read 11, .take 1 11 0, .call 10 1 0, .pick 1 1, .read 1, .read 0, .read 10]

/-- Where that leads to. -/
structure Dead (s : State) : Prop where
  told : Nested.Told s.base
  inv : Nested.Inv s.base
  alive : ∀ t, s.base.dead t = false
  c0 : s.base.chain 0 = [⟨0, 0, some 11⟩]
  c1 : s.base.chain 1 = [⟨1, 10, some 1⟩]
  f0 : s.base.frames 0 = [.call 0]
  f10 : s.base.frames 10 = [.call 1]
  f1 : s.base.frames 1 = [.handle 1]
  f11 : s.base.frames 11 = [.handle 0]
  t0 : s.base.todo 0 = []
  t10 : s.base.todo 10 = []
  t1 : s.base.todo 1 = []
  t11 : s.base.todo 11 = []
  next : 2 ≤ s.base.next
  others : ∀ h, h ≠ 0 → h ≠ 1 → ∀ x ∈ s.base.chain h, 2 ≤ x.id ∧ x.src ≠ 0 ∧ x.src ≠ 1 ∧ x.src ≠ 10 ∧ x.src ≠ 11
  jobs : ∀ p i, p ≠ 1 → s.job p = some i → 2 ≤ i
  held : ∀ i ∈ s.blocked, 2 ≤ i
  undone : ∀ i ∈ s.done, 2 ≤ i

theorem workers : (demo fun _ => true).isWorker 1 = true ∧ (demo fun _ => true).isWorker 11 = true := by decide

theorem Dead.chainOf {s : State} (h : Dead s) {k t : Nat} {x : Nested.Tx} {l : List Nested.Tx} (hc : s.base.chain k = x :: l)
    (hx : x.to = some t) (h1 : t ≠ 1) (h11 : t ≠ 11) : k ≠ 0 ∧ k ≠ 1 := by
  refine ⟨fun e => ?_, fun e => ?_⟩
  · subst e
    rw [h.c0] at hc
    cases hc
    cases hx
    exact h11 rfl
  · subst e
    rw [h.c1] at hc
    cases hc
    cases hx
    exact h1 rfl

/-- None of the four threads calls anything. -/
theorem Dead.caller {s : State} (h : Dead s) {t k : Nat} (hm : mayCall (demo fun _ => true) s t = true)
    (hb : s.base.mayCall t k = true) : t ≠ 0 ∧ t ≠ 1 ∧ t ≠ 10 ∧ t ≠ 11 ∧ k ≠ 0 ∧ k ≠ 1 := by
  have e1 : t ≠ 1 := fun e => by subst e; simp [mayCall, workers.1, h.f1] at hm
  have e11 : t ≠ 11 := fun e => by subst e; simp [mayCall, workers.2, h.f11] at hm
  have hcase := (h.inv.mayCall hb).2.2
  refine ⟨fun e => ?_, e1, fun e => ?_, e11, ?_⟩
  · subst e
    rcases hcase with ⟨i, fs, x, c, hf, _⟩ | ⟨hf, _⟩ <;> rw [h.f0] at hf <;> cases hf
  · subst e
    rcases hcase with ⟨i, fs, x, c, hf, _⟩ | ⟨hf, _⟩ <;> rw [h.f10] at hf <;> cases hf
  · rcases hcase with ⟨i, fs, x, c, hf, hc, hx, _⟩ | ⟨_, hc⟩
    · exact h.chainOf hc hx e1 e11
    · refine ⟨fun e => ?_, fun e => ?_⟩
      · subst e; rw [h.c0] at hc; cases hc
      · subst e; rw [h.c1] at hc; cases hc

theorem Dead.busy {s : State} (h : Dead s) : inLoop (demo fun _ => true) s 0 = false ∧ inLoop (demo fun _ => true) s 1 = false := by
  have e0 : (demo fun _ => true).main 0 = 0 := rfl
  have e1 : (demo fun _ => true).main 1 = 10 := rfl
  simp [inLoop, e0, e1, h.f0, h.f10]

theorem Dead.step {s s' : State} {l : Label} (h : Dead s) (hs : step (demo fun _ => true) s l = .ok s') : Dead s' := by
  have hi : Nested.Inv s'.base ∧ Nested.Told s'.base := by
    rcases base_step hs with e | ⟨l, e⟩
    · rw [e]; exact ⟨h.inv, h.told⟩
    · exact ⟨h.inv.step e, h.told.step h.inv e⟩
  have hn := h.next
  have ho := h.others
  cases base hs with
  | call t k q b hm hq hb =>
    obtain ⟨hmc, h1, h2, h3, h4, h5⟩ := call_ok hb
    obtain ⟨a0, a1, a10, a11, k0, k1⟩ := h.caller hm hmc
    have w := fun v (hv : v ≠ t) => (congrFun h4 v).trans (upd_ne _ _ hv)
    have w' := fun v (hv : v ≠ t) => (congrFun h5 v).trans (upd_ne _ _ hv)
    have wc := fun v (hv : v ≠ k) => (congrFun h3 v).trans (upd_ne _ _ hv)
    refine ⟨hi.2, hi.1, by simp only [h1]; exact h.alive, (wc 0 k0.symm).trans h.c0, (wc 1 k1.symm).trans h.c1,
      (w 0 a0.symm).trans h.f0, (w 10 a10.symm).trans h.f10, (w 1 a1.symm).trans h.f1, (w 11 a11.symm).trans h.f11,
      (w' 0 a0.symm).trans h.t0, (w' 10 a10.symm).trans h.t10, (w' 1 a1.symm).trans h.t1, (w' 11 a11.symm).trans h.t11,
      by simp only [h2]; omega, fun j j0 j1 x hx => ?_, h.jobs, h.held, h.undone⟩
    simp only [h3, upd] at hx
    grind
  | callTo t k u b hm hb =>
    obtain ⟨hmc, hut, hu, h1, h2, h3, h4, h5⟩ := callTo_ok hb
    obtain ⟨a0, a1, a10, a11, k0, k1⟩ := h.caller hm hmc
    obtain ⟨z, hz, e⟩ := List.mem_map.1 hu
    have b := ho k k0 k1 z hz
    rw [e] at b
    have w := fun v (hv : v ≠ t) => (congrFun h4 v).trans (upd_ne _ _ hv)
    have wc := fun v (hv : v ≠ k) => (congrFun h3 v).trans (upd_ne _ _ hv)
    refine ⟨hi.2, hi.1, by simp only [h1]; exact h.alive, (wc 0 k0.symm).trans h.c0, (wc 1 k1.symm).trans h.c1,
      (w 0 a0.symm).trans h.f0, (w 10 a10.symm).trans h.f10, (w 1 a1.symm).trans h.f1, (w 11 a11.symm).trans h.f11,
      (h5 0 a0.symm b.2.1.symm).trans h.t0, (h5 10 a10.symm b.2.2.2.1.symm).trans h.t10,
      (h5 1 a1.symm b.2.2.1.symm).trans h.t1, (h5 11 a11.symm b.2.2.2.2.symm).trans h.t11,
      by simp only [h2]; omega, fun j j0 j1 x hx => ?_, h.jobs, h.held, h.undone⟩
    simp only [h3, upd] at hx
    grind
  | pick u k b hm hq hb =>
    obtain ⟨x, l, hc, hx, hf, h1, h2, h3, h4, h5⟩ := pick_ok hb
    have k0 : k ≠ 0 := fun e => by subst e; rw [h.c0] at hc; cases hc; cases hx
    have k1 : k ≠ 1 := fun e => by subst e; rw [h.c1] at hc; cases hc; cases hx
    have a : u ≠ 0 ∧ u ≠ 1 ∧ u ≠ 10 ∧ u ≠ 11 := by
      refine ⟨?_, ?_, ?_, ?_⟩ <;> intro e <;> subst e
      · rw [h.f0] at hf; cases hf
      · rw [h.f1] at hf; cases hf
      · rw [h.f10] at hf; cases hf
      · rw [h.f11] at hf; cases hf
    have wc := fun v (hv : v ≠ k) => (congrFun h3 v).trans (upd_ne _ _ hv)
    refine ⟨hi.2, hi.1, by simp only [h1]; exact h.alive, (wc 0 k0.symm).trans h.c0, (wc 1 k1.symm).trans h.c1,
      by simp only [h4]; exact h.f0, by simp only [h4]; exact h.f10, by simp only [h4]; exact h.f1, by simp only [h4]; exact h.f11,
      (h5 0 a.1.symm).trans h.t0, (h5 10 a.2.2.1.symm).trans h.t10,
      (h5 1 a.2.1.symm).trans h.t1, (h5 11 a.2.2.2.symm).trans h.t11,
      by simp only [h2]; exact hn, fun j j0 j1 y hy => ?_, h.jobs, h.held, h.undone⟩
    simp only [h3, upd] at hy
    have hk := ho k k0 k1
    rw [hc] at hk
    grind
  | read t b hb =>
    obtain ⟨hw, h1, h2, h3, h4, h5⟩ := read_ok hb
    have a : t ≠ 0 ∧ t ≠ 1 ∧ t ≠ 10 ∧ t ≠ 11 := by
      refine ⟨?_, ?_, ?_, ?_⟩ <;> intro e <;> subst e
      · exact hw h.t0
      · exact hw h.t1
      · exact hw h.t10
      · exact hw h.t11
    exact ⟨hi.2, hi.1, by simp only [h1]; exact h.alive, by simp only [h3]; exact h.c0, by simp only [h3]; exact h.c1,
      (h4 0 a.1.symm).trans h.f0, (h4 10 a.2.2.1.symm).trans h.f10,
      (h4 1 a.2.1.symm).trans h.f1, (h4 11 a.2.2.2.symm).trans h.f11,
      (h5 0 a.1.symm).trans h.t0, (h5 10 a.2.2.1.symm).trans h.t10,
      (h5 1 a.2.1.symm).trans h.t1, (h5 11 a.2.2.2.symm).trans h.t11,
      by simp only [h2]; exact hn, by simp only [h3]; exact ho, h.jobs, h.held, h.undone⟩
  | reply t k i fs b hf hd hb =>
    obtain ⟨x, l, hc, hx, h1, h2, h3, h4, h5⟩ := reply_ok h.alive hb
    have a : t ≠ 0 ∧ t ≠ 1 ∧ t ≠ 10 ∧ t ≠ 11 := by
      refine ⟨?_, ?_, ?_, ?_⟩ <;> intro e <;> subst e
      · rw [h.f0] at hf; cases hf
      · rw [h.f1] at hf; cases hf
        rcases hd with hd | hd
        · rw [workers.1] at hd; cases hd
        · have := h.undone _ hd; omega
      · rw [h.f10] at hf; cases hf
      · rw [h.f11] at hf; cases hf
        rcases hd with hd | hd
        · rw [workers.2] at hd; cases hd
        · have := h.undone _ hd; omega
    obtain ⟨k0, k1⟩ := h.chainOf hc hx a.2.1 a.2.2.2
    have hk := ho k k0 k1
    rw [hc] at hk
    have b := hk x List.mem_cons_self
    have wc := fun v (hv : v ≠ k) => (congrFun h3 v).trans (upd_ne _ _ hv)
    refine ⟨hi.2, hi.1, by simp only [h1]; exact h.alive, (wc 0 k0.symm).trans h.c0, (wc 1 k1.symm).trans h.c1,
      (h4 0 a.1.symm).trans h.f0, (h4 10 a.2.2.1.symm).trans h.f10,
      (h4 1 a.2.1.symm).trans h.f1, (h4 11 a.2.2.2.symm).trans h.f11,
      (h5 0 a.1.symm b.2.1.symm).trans h.t0, (h5 10 a.2.2.1.symm b.2.2.2.1.symm).trans h.t10,
      (h5 1 a.2.1.symm b.2.2.1.symm).trans h.t1, (h5 11 a.2.2.2.symm b.2.2.2.2.symm).trans h.t11,
      by simp only [h2]; exact hn, fun j j0 j1 y hy => ?_, h.jobs, h.held, h.undone⟩
    simp only [h3, upd] at hy
    grind
  | take p u i hl hj hp hw hf hd hbl =>
    obtain ⟨b0, b1⟩ := h.busy
    have p0 : p ≠ 0 := fun e => by subst e; rw [b0] at hl; cases hl
    have p1 : p ≠ 1 := fun e => by subst e; rw [b1] at hl; cases hl
    refine { h with jobs := fun p' i' hp' hj' => ?_ }
    simp only [upd] at hj'
    split at hj'
    · cases hj'
      cases hfu : s.base.frames u with
      | nil => rw [hfu] at hf; cases hf
      | cons f fs =>
        rw [hfu] at hf
        cases hf
        obtain ⟨_, k, x, l, hc, hx, rfl⟩ := h.inv.active (h.alive u) hfu
        have e1 : u ≠ 1 := fun e => by subst e; exact p0 hp.symm
        have e11 : u ≠ 11 := fun e => by subst e; exact p1 hp.symm
        obtain ⟨k0, k1⟩ := h.chainOf hc hx e1 e11
        exact (ho k k0 k1 x (by rw [hc]; exact List.mem_cons_self)).1
    · exact h.jobs p' i' hp' hj'
  | finish p i hj hl =>
    obtain ⟨b0, b1⟩ := h.busy
    have p1 : p ≠ 1 := fun e => by subst e; rw [b1] at hl; cases hl
    have hi2 := h.jobs p i p1 hj
    refine { h with jobs := fun p' i' hp' hj' => ?_, undone := fun j hj' => ?_ }
    · simp only [upd] at hj'
      split at hj'
      · cases hj'
      · exact h.jobs p' i' hp' hj'
    · rcases List.mem_cons.1 hj' with rfl | hj'
      · exact hi2
      · exact h.undone j hj'
  | block p i hj hl =>
    obtain ⟨b0, b1⟩ := h.busy
    have p1 : p ≠ 1 := fun e => by subst e; rw [b1] at hl; cases hl
    have hi2 := h.jobs p i p1 hj
    refine { h with jobs := fun p' i' hp' hj' => ?_, held := fun j hj' => ?_ }
    · simp only [upd] at hj'
      split at hj'
      · cases hj'
      · exact h.jobs p' i' hp' hj'
    · rcases List.mem_cons.1 hj' with rfl | hj'
      · exact hi2
      · exact h.held j hj'
  | complete i hb =>
    refine { h with held := fun j hj' => h.held j (List.mem_filter.1 hj').1, undone := fun j hj' => ?_ }
    rcases List.mem_cons.1 hj' with rfl | hj'
    · exact h.held j hb
    · exact h.undone j hj'

/-- The state after that. -/
def stuck : State :=
  match exec (step (demo fun _ => true)) {} eachOther with
  | .ok s => s
  | _ => {}

theorem stuck_ok : exec (step (demo fun _ => true)) {} eachOther = .ok stuck := rfl

theorem stuck_dead : Dead stuck := by
  have hr := base_reach ⟨eachOther, stuck_ok⟩
  refine ⟨Nested.Told.reach hr, Nested.Inv.reach hr, fun _ => rfl, rfl, rfl, rfl, rfl, rfl, rfl, rfl, rfl, rfl, rfl, by decide,
    fun h h0 h1 x hx => ?_, fun p i hp hj => ?_, fun i hi => ?_, fun i hi => ?_⟩
  · have : stuck.base.chain h = [] := by
      show upd _ 1 _ h = []
      rw [upd_ne _ _ h1]
      show upd _ 1 _ h = []
      rw [upd_ne _ _ h1]
      show upd _ 0 _ h = []
      rw [upd_ne _ _ h0]
      show upd _ 0 _ h = []
      rw [upd_ne _ _ h0]
    rw [this] at hx
    cases hx
  · have : stuck.job p = none := by
      show upd _ 1 _ p = none
      rw [upd_ne _ _ hp]
    rw [this] at hj
    cases hj
  · exact absurd hi (by show i ∉ ([] : List Nat); simp)
  · exact absurd hi (by show i ∉ ([] : List Nat); simp)

/-- C91 fails: two processes which use libgbinder, and one call of each other. Whatever happens next (there may be any other calls by
other threads), neither of the two calls ever returns. -/
theorem C91_fails_mutual : ∃ ls s, exec (step (demo fun _ => true)) {} ls = .ok s ∧ ∀ ls' s',
    exec (step (demo fun _ => true)) s ls' = .ok s' →
      s'.base.frames 0 = [.call 0] ∧ s'.base.frames 10 = [.call 1] ∧ Nested.ends 0 s'.base.log = 0 ∧ Nested.ends 1 s'.base.log = 0 := by
  refine ⟨eachOther, stuck, stuck_ok, fun ls' s' h => ?_⟩
  have hd : Dead s' := exec_invariant (fun _ _ _ hi hs => hi.step hs) stuck_dead h
  refine ⟨hd.f0, hd.f10, ?_, ?_⟩
  · rcases hd.told.once 0 with h | ⟨_, h⟩
    · exact h
    · exact absurd (by rw [hd.f0]; exact List.mem_cons_self) (h 0)
  · rcases hd.told.once 1 with h | ⟨_, h⟩
    · exact h
    · exact absurd (by rw [hd.f10]; exact List.mem_cons_self) (h 10)

/-- Of those who call each other, the process with the larger number is called. -/
def above (q : Nat) : Nat := min q 5

/-- The main thread of the process 0 calls the process 1, its handler calls the process 2, and nobody has received that yet. -/
example : ∃ s, ReachIf (step (demo fun _ => true)) (Ok (demo fun _ => true) above) {} s ∧ CanReceive (demo fun _ => true) s ∧
    s.base.chain 1 ≠ [] ∧ ∀ q, above q ≤ 5 := by
  refine ⟨_, .step (.call 10 1 2) (.step (.take 1 11 0) (.step (.read 11) (.step (.pick 11 0) (.step (.call 0 0 1) .init ?_ rfl)
    trivial rfl) trivial rfl) trivial rfl) ?_ rfl, fun h x hx hn => ?_, ?_, fun q => Nat.min_le_right q 5⟩
  · unfold Ok; decide
  · unfold Ok; decide
  · by_cases h1 : h = 1
    · subst h1
      cases hx
      exact ⟨21, rfl, rfl, .inl ⟨rfl, rfl⟩⟩
    · have e : (upd (upd (upd (fun _ => ([] : List Nested.Tx)) 0 [⟨0, 0, none⟩]) 0 [⟨0, 0, some 11⟩]) 1 [⟨1, 10, none⟩] h).head?
          = some x := hx
      rw [upd_ne _ _ h1] at e
      by_cases h0 : h = 0
      · subst h0
        cases e
        cases hn
      · rw [upd_ne _ _ h0, upd_ne _ _ h0] at e
        cases e
  · intro e
    cases e

/-- The process 0 is the only one which uses libgbinder. Its main thread calls the process 1, which calls it back. -/
example : ∃ s, ReachIf (step (demo (· == 0))) (fun _ => NotSelf (demo (· == 0))) {} s ∧ CanReceive (demo (· == 0)) s ∧
    (s.base.chain 0).length = 2 ∧ s.base.frames 0 = [.handle 1, .call 0] := by
  refine ⟨_, .step (.read 0) (.step (.read 0) (.step (.callTo 11 0 0) (.step (.read 11) (.step (.pick 11 0) (.step (.call 0 0 1) .init
    (by unfold NotSelf; decide) rfl) trivial rfl) trivial rfl) trivial rfl) trivial rfl) trivial rfl, fun h x hx hn => ?_, rfl, rfl⟩
  have e : (upd (upd (upd (fun _ => ([] : List Nested.Tx)) 0 [⟨0, 0, none⟩]) 0 [⟨0, 0, some 11⟩]) 0
      [⟨1, 11, some 0⟩, ⟨0, 0, some 11⟩] h).head? = some x := hx
  by_cases h0 : h = 0
  · subst h0
    cases e
    cases hn
  · rw [upd_ne _ _ h0, upd_ne _ _ h0, upd_ne _ _ h0] at e
    cases e

/-- The same calls as in `eachOther`, by a worker thread: all of them return. -/
example : (exec (step (demo fun _ => true)) {} [.call 5 0 1, .pick 11 0, .read 11, .take 1 11 0, .call 10 1 0, .pick 1 1, .read 1,
    .read 5, .read 10, .take 0 1 1, .finish 0, .reply 1 1, .read 1, .read 10, .finish 1, .reply 11 0, .read 11, .read 5]).holds
    (fun s => decide (s.base.log = [.made 5 0, .made 10 1, .answered 1, .result 10 1 1, .answered 0, .result 5 0 0] ∧
      s.base.frames 5 = [] ∧ s.done = [0, 1])) = true := by decide +kernel

/-- The handler blocks the request, the application calls another process and completes the request afterwards. -/
example : (exec (step (demo fun _ => true)) {} [.call 0 0 1, .pick 11 0, .read 11, .take 1 11 0, .block 1, .call 10 1 2, .pick 21 1, .read 21,
    .take 2 21 1, .finish 2, .reply 21 1, .read 10, .read 10, .complete 0, .reply 11 0, .read 0, .read 0]).holds
    (fun s => decide (s.base.log = [.made 0 0, .made 10 1, .answered 1, .result 10 1 1, .answered 0, .result 0 0 0] ∧
      s.base.frames 0 = [] ∧ s.blocked = [])) = true := by decide +kernel

/-- The only looper is handling something else: it can receive the call afterwards. -/
example : ∃ s, ReachIf (step (demo fun _ => true)) (Ok (demo fun _ => true) above) {} s ∧ CanReceive (demo fun _ => true) s ∧
    s.base.frames 11 = [.handle 0] ∧ s.base.chain 1 = [⟨1, 6, none⟩] := by
  refine ⟨_, .step (.call 6 1 1) (.step (.read 11) (.step (.pick 11 0) (.step (.call 5 0 1) .init ?_ rfl)
    trivial rfl) trivial rfl) ?_ rfl, fun h x hx hn => ?_, rfl, rfl⟩
  · unfold Ok; decide
  · unfold Ok; decide
  · by_cases h1 : h = 1
    · subst h1
      cases hx
      refine ⟨11, rfl, rfl, .inr ⟨rfl, fun i hm => ?_⟩⟩
      have : Nested.Frame.call i ∈ [Nested.Frame.handle 0] := hm
      simp at this
    · have e : (upd (upd (upd (fun _ => ([] : List Nested.Tx)) 0 [⟨0, 5, none⟩]) 0 [⟨0, 5, some 11⟩]) 1 [⟨1, 6, none⟩] h).head?
          = some x := hx
      rw [upd_ne _ _ h1] at e
      by_cases h0 : h = 0
      · subst h0
        cases e
        cases hn
      · rw [upd_ne _ _ h0, upd_ne _ _ h0] at e
        cases e

/-- Threads of the pools of two processes call each other. -/
example : ∃ s, ReachIf (step (demo fun _ => true)) (fun _ => Async (demo fun _ => true)) {} s ∧ s.base.frames 11 = [.handle 0] ∧
    s.base.frames 1 = [.handle 1] ∧ s.base.frames 5 = [.call 0] ∧ s.base.frames 15 = [.call 1] :=
  ⟨_, .step (.read 1) (.step (.read 11) (.step (.pick 1 1) (.step (.pick 11 0) (.step (.call 15 1 0) (.step (.call 5 0 1) .init
    rfl rfl) rfl rfl) trivial rfl) trivial rfl) trivial rfl) trivial rfl, rfl, rfl, rfl, rfl⟩

/-- The process 1 doesn't use libgbinder, and its call back is handled by the thread which waits for it. -/
example : (exec (step (demo (· == 0))) {} [.call 0 0 1, .pick 11 0, .read 11, .callTo 11 0 0, .read 0, .read 0, .reply 0 0, .read 11,
    .read 11, .reply 11 0, .read 0, .read 0, .read 11]).holds
    (fun s => decide (s.base.log = [.made 0 0, .made 11 1, .answered 1, .result 11 1 1, .answered 0, .result 0 0 0] ∧
      s.base.frames 0 = [] ∧ s.base.frames 11 = [])) = true := by decide +kernel

end Gb.C91
