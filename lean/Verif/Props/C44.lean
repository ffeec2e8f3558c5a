import Verif.Lemmas.ServiceNamePhase
/-
C44: while a GBinderServiceName exists and the service manager is there, the name is either registered, or
there's exactly one of a pending call and a retry timer. If the service manager isn't there, or after the
last reference has been dropped, there's neither.
-/
set_option autoImplicit false

namespace Gb.C44

open ServiceName

theorem filter_one {l : List Nat} {f : Nat → Bool} {p : Nat} (hn : l.Nodup) (hp : p ∈ l)
    (hf : ∀ q, q ∈ l → (f q = true ↔ q = p)) : l.filter f = [p] := by
  induction l with
  | nil => cases hp
  | cons a l ih =>
    rw [List.nodup_cons] at hn
    have hrest : ∀ q, q ∈ l → (f q = true ↔ q = p) := fun q hq => hf q (List.mem_cons_of_mem _ hq)
    by_cases ha : a = p
    · subst ha
      rw [List.filter_cons_of_pos ((hf a (List.mem_cons_self ..)).mpr rfl)]
      have : l.filter f = [] := by
        rw [List.filter_eq_nil_iff]
        intro q hq hh
        rw [(hrest q hq).mp hh] at hq
        exact hn.1 hq
      rw [this]
    · rw [List.filter_cons_of_neg (fun hh => ha ((hf a (List.mem_cons_self ..)).mp hh))]
      rcases List.mem_cons.mp hp with h1 | h1
      · exact absurd h1.symm ha
      · exact ih hn.2 h1 hrest

theorem pend_iff {s : State} {n p : Nat} : reports s n p = true ↔ Pend s.ipc s.owner n p := by
  unfold Pend reports
  cases ho : s.owner p with
  | none => simp
  | some v =>
    obtain ⟨k, m⟩ := v
    cases ht : s.ipc.txs p with
    | none => simp
    | some tx => simp [and_assoc]

theorem pending_none {s : State} (g : G s) {n : Nat} (h : callOf s n = 0) : pendingCalls s n = [] := by
  unfold pendingCalls
  rw [List.filter_eq_nil_iff]
  intro p _ hp
  have := (g.ipc.pend n p).mp (pend_iff.mp hp)
  exact this.1 h

theorem pending_one {s : State} (g : G s) {n : Nat} (h : callOf s n ≠ 0) : ∃ p, pendingCalls s n = [p] := by
  obtain ⟨p, hp⟩ := g.ipc.call n h
  have ht := (Async.inv_reach g.ipc.reach).1
  refine ⟨p, ?_⟩
  unfold pendingCalls
  refine filter_one List.nodup_range ?_ ?_
  · rw [List.mem_range]
    obtain ⟨⟨m, o⟩, _⟩ := (g.ipc.pend n p).mpr ⟨h, hp⟩
    exact g.ipc.own p (by rw [o]; simp)
  · intro q _
    rw [pend_iff, g.ipc.pend]
    constructor
    · rintro ⟨_, h2⟩; exact Async.unique ht h2 hp
    · rintro rfl; exact ⟨h, hp⟩

theorem armed_none {s : State} (g : G s) {n : Nat} (h : timerOf s n = none) : armed s n = [] := by
  unfold armed
  rw [List.filter_eq_nil_iff]
  intro t ht hn
  have := (g.tim.own t ht).1
  simp only [beq_iff_eq] at hn
  rw [hn, h] at this
  cases this

theorem armed_one {s : State} (g : G s) {n c : Nat} (h : timerOf s n = some c) : armed s n = [⟨c, n, 500⟩] := by
  unfold armed
  have hm := g.tim.mem n c h
  have hown := g.tim.own
  have hu := g.tim.uniq
  have hall : ∀ t ∈ s.timers, t.name = n → t.id = c := by
    intro t ht hn
    have := (hown t ht).1
    rw [hn, h] at this
    cases this
    rfl
  generalize s.timers = l at hm hu hall
  induction l with
  | nil => cases hm
  | cons a l ih =>
    simp only [List.map_cons, List.nodup_cons, List.mem_map, not_exists, not_and] at hu
    have hrest : ∀ t ∈ l, t.name = n → t.id = c := fun t ht => hall t (List.mem_cons_of_mem _ ht)
    rcases List.mem_cons.mp hm with h1 | h1
    · subst h1
      rw [List.filter_cons_of_pos (by simp)]
      have : l.filter (fun t => t.name == n) = [] := by
        rw [List.filter_eq_nil_iff]
        intro q hq hh
        simp only [beq_iff_eq] at hh
        exact hu.1 q hq (hrest q hq hh)
      rw [this]
    · have : a.name ≠ n := by
        intro ha
        have := hall a (List.mem_cons_self ..) ha
        exact hu.1 _ h1 this.symm
      rw [List.filter_cons_of_neg (by simpa using this)]
      exact ih h1 hu.2 hrest

/-- C44: no matter what else there is, there's never more than one call and more than one timer. -/
theorem C44_once {s : State} (h : ReachIf step (fun _ l => Running l) {} s) (n : Nat) :
    (pendingCalls s n).length ≤ 1 ∧ (armed s n).length ≤ 1 ∧ ∀ t ∈ armed s n, t.interval = 500 := by
  have g := G.reach h
  refine ⟨?_, ?_, ?_⟩
  · by_cases hc : callOf s n = 0
    · rw [pending_none g hc]; simp
    · obtain ⟨p, hp⟩ := pending_one g hc; rw [hp]; simp
  · cases ht : timerOf s n with
    | none => rw [armed_none g ht]; simp
    | some c => rw [armed_one g ht]; simp
  · intro t ht
    exact (g.tim.own t (List.mem_filter.mp ht).1).2

/-- C44: and after the last reference has been dropped there's none. -/
theorem C44_gone {s : State} (h : ReachIf step (fun _ l => Running l) {} s) {n : Nat} (hn : s.names n = none) :
    pendingCalls s n = [] ∧ armed s n = [] := by
  have g := G.reach h
  exact ⟨pending_none g (by unfold callOf; rw [hn]), armed_none g (by unfold timerOf; rw [hn])⟩

/-- C44: neither completions, timers and signals nor the application make anything access a name which has been
freed. -/
theorem C44_safe {s : State} (h : ReachIf step (fun _ l => Running l) {} s) {l : Label} (hl : ∀ k, l ≠ .mgr k) :
    step s l ≠ .ub :=
  (G.reach h).safe hl

/-- C44: the service manager is there, see `Usual` for what is missing. -/
theorem C44_present_partial {s : State} (h : ReachIf step Usual {} s) (hi : s.calls = []) (hp : s.mgr.pending = [])
    {n : Nat} {x : Name} (hx : s.names n = some x) (hd : s.mgr.dead = false) :
    (lastResult n s.log = some 0 ∧ pendingCalls s n = [] ∧ armed s n = []) ∨
    (lastResult n s.log ≠ some 0 ∧ (pendingCalls s n).length = 1 ∧ armed s n = []) ∨
    (lastResult n s.log ≠ some 0 ∧ pendingCalls s n = [] ∧ (armed s n).length = 1) := by
  obtain ⟨g, f⟩ := usual_reach h
  cases f with
  | zero hz hn hc => rw [hn] at hx; cases hx
  | one m y ph ho hc hdd hn =>
    have hph : ph = .up := by
      have := ho.dead
      rw [hd] at this
      simpa using this.symm
    subst hph
    have hb := (hn n x hx).2.2 (by rw [hi]; simp)
    rcases hb with ⟨b1, b2, b3⟩ | ⟨b1, b2, b3⟩ | ⟨b1, b2, b3⟩
    · exact .inl ⟨b1, pending_none g (by rw [callOf_some hx]; exact b2), armed_none g (by rw [timerOf_some hx]; exact b3)⟩
    · obtain ⟨p, hp⟩ := pending_one (n := n) g (by rw [callOf_some hx]; exact b2)
      exact .inr (.inl ⟨b1, by rw [hp]; rfl, armed_none g (by rw [timerOf_some hx]; exact b3)⟩)
    · cases ht : x.timer with
      | none => exact absurd ht b3
      | some c =>
        refine .inr (.inr ⟨b1, pending_none g (by rw [callOf_some hx]; exact b2), ?_⟩)
        rw [armed_one (c := c) g (by rw [timerOf_some hx]; exact ht)]
        rfl

/-- C44: the service manager isn't there. -/
theorem C44_absent_partial {s : State} (h : ReachIf step Usual {} s) (hi : s.calls = []) (hp : s.mgr.pending = [])
    (n : Nat) (hd : s.mgr.dead = true) : pendingCalls s n = [] ∧ armed s n = [] := by
  obtain ⟨g, f⟩ := usual_reach h
  suffices hs : callOf s n = 0 ∧ timerOf s n = none from ⟨pending_none g hs.1, armed_none g hs.2⟩
  cases hx : s.names n with
  | none => exact ⟨by unfold callOf; rw [hx], by unfold timerOf; rw [hx]⟩
  | some x =>
    rw [callOf_some hx, timerOf_some hx]
    cases f with
    | zero hz hn hc => rw [hn] at hx; cases hx
    | one m y ph ho hc hdd hn =>
      have hph : ph = .down := by
        have h1 := ho.dead
        have h2 := ho.pending
        rw [hd] at h1
        rw [hp] at h2
        cases ph with
        | up => simp at h1
        | dying => simp at h2
        | down => rfl
      subst hph
      rcases (hn n x hx).2 with h3 | h3
      · rw [hi] at h3; cases h3
      · exact h3

/-- C44: the application isn't left with a name which isn't registered: the timer starts another attempt. -/
theorem C44_retry {s s' : State} (h : ReachIf step (fun _ l => Running l) {} s) {t : Timer}
    (hs : step s (.retry t) = .ok s') :
    (∃ p, s'.log = s.log ++ [.added t.name p]) ∧ (pendingCalls s' t.name).length = 1 ∧ armed s' t.name = [] := by
  obtain ⟨g, e⟩ := eff_step (l := .retry t) (G.reach h) trivial hs
  cases e with
  | quiet hl => exact absurd rfl (hl t)
  | refs x hl => exact absurd rfl (hl t)
  | retry x id p hi hx ht hid h1 h2 h3 h4 =>
    refine ⟨⟨p, h4⟩, ?_, ?_⟩
    · obtain ⟨q, hq⟩ := pending_one (n := t.name) g (by unfold callOf; rw [h1, upd_same]; exact hid)
      rw [hq]; rfl
    · exact armed_none g (by unfold timerOf; rw [h1, upd_same])

/-! ### What goes wrong -/

/-- The transaction number `p` is executed. -/
def run (p : Nat) (status : Int) : List Label :=
  [.ipc (.check p), .ipc (.exec p), .executed p status, .ipc (.post p), .done p (100 + p), .ipc (.free p)]

/-- There are two objects (of different types) for the same device. The service manager appears, the first one
notices that. The name is created for the other one, registration fails, and then the other one notices that
too. -/
def twoManagers : List Label :=
  [.mgr (.create 0 .aidl false 10), .mgr (.create 1 .hidl false 11),
   .mgr (.fire ⟨10, 0, 100⟩ true 12 (fun _ => true)), .create 5 1] ++ run 0 (-22) ++
  [.mgr (.fire ⟨11, 1, 100⟩ true 13 (fun _ => true)), .signal]

/-- C44 fails if there are two GBinderServiceManager objects for the device: both a call and a timer. -/
theorem C44_fails_two : (exec step {} twoManagers).holds fun s =>
    s.calls.isEmpty && s.mgr.pending.isEmpty && !s.mgr.dead &&
      pendingCalls s 5 == [1] && armed s 5 == [⟨100, 5, 500⟩] := by
  decide +kernel

/-- The application waits for the service manager in the handler of the presence signal which is called before
that of the name. -/
def waiting : List Label :=
  [.mgr (.create 0 .aidl true 10), .create 5 0] ++ run 0 (-22) ++
  [.mgr .die, .mgr (.died 11), .mgr (.wait 0 true (fun _ => true)), .signal, .signal]

/-- C44 fails in this case too. -/
theorem C44_fails_wait : (exec step {} waiting).holds fun s =>
    s.calls.isEmpty && s.mgr.pending.isEmpty && !s.mgr.dead &&
      pendingCalls s 5 == [2] && armed s 5 == [⟨100, 5, 500⟩] := by
  decide +kernel

/-! ### Examples -/

/-- Whether the steps are those of `Usual`. -/
def usual (s : State) : Label → Bool
  | .ipc (.flush _) => false
  | .mgr (.create ..) => s.mgr.order.isEmpty
  | .mgr (.wait ..) => s.calls.isEmpty
  | _ => true

def runIf (s : State) : List Label → Option State
  | [] => some s
  | l :: ls =>
    if usual s l then
      match step s l with
      | .ok s' => runIf s' ls
      | _ => none
    else none

theorem usual_sound {s : State} (h : F s) {l : Label} (hu : usual s l = true) : Usual s l := by
  refine ⟨?_, ?_, ?_⟩
  · cases l with
    | ipc k => cases k <;> first | trivial | cases hu
    | _ => trivial
  · rintro m kind ok tid rfl k
    simp only [usual, List.isEmpty_iff] at hu
    cases h with
    | zero hz hn hc => rw [hz.mgrs]
    | one m y ph ho => rw [ho.order] at hu; cases hu
  · rintro m ok w rfl
    simpa [usual, List.isEmpty_iff] using hu

theorem runIf_sound {s s' : State} {ls : List Label} (h : ReachIf step Usual {} s) (hr : runIf s ls = some s') :
    ReachIf step Usual {} s' := by
  induction ls generalizing s with
  | nil => cases hr; exact h
  | cons l ls ih =>
    simp only [runIf] at hr
    split at hr
    · rename_i hu
      split at hr
      · rename_i s1 hs
        exact ih (.step l h (usual_sound (usual_reach h).2 hu) hs) hr
      · cases hr
    · cases hr

theorem runIf_get {ls : List Label} (h : (runIf {} ls).isSome = true) :
    ∃ s, runIf {} ls = some s ∧ ReachIf step Usual {} s := by
  cases hs : runIf {} ls with
  | none => rw [hs] at h; cases h
  | some s => exact ⟨s, rfl, runIf_sound .init hs⟩

theorem runIf_running {s : State} (h : ReachIf step Usual {} s) : ReachIf step (fun _ l => Running l) {} s := by
  induction h with
  | init => exact .init
  | step l _ hu hs ih => exact .step l ih hu.1 hs

/-- The first attempt fails, the second one doesn't, the service manager is restarted, the name is being
registered again. -/
def demo : List Label :=
  [.mgr (.create 0 .aidl true 10), .create 5 0, .create 6 0] ++ run 0 (-22) ++ [.ref 5, .retry ⟨100, 5, 500⟩] ++
  run 2 0 ++ [.mgr .die, .mgr (.died 11), .signal, .signal, .mgr (.fire ⟨11, 0, 100⟩ true 12 (fun _ => true)),
   .signal, .signal, .unref 6]

/-- Initially there's a call, then a timer, then another call, then the name is registered, then there's nothing,
and then there's a call again. -/
example : (List.range 28).map (fun k => ((runIf {} (demo.take k)).map fun s =>
      (lastResult 5 s.log, (pendingCalls s 5).length, (armed s 5).length))) =
    [some (none, 0, 0), some (none, 0, 0)] ++ List.replicate 6 (some (none, 1, 0)) ++
    List.replicate 3 (some (some (-22), 0, 1)) ++ List.replicate 5 (some (none, 1, 0)) ++
    List.replicate 4 (some (some 0, 0, 0)) ++ List.replicate 3 (some (none, 0, 0)) ++
    List.replicate 5 (some (none, 1, 0)) := by
  decide +kernel

/-- The hypotheses of the theorems are met at the end. -/
example : ∃ s, ReachIf step Usual {} s ∧ s.calls = [] ∧ s.mgr.pending = [] ∧ s.mgr.dead = false ∧
    s.names 5 = some { mgr := 0, refs := 2, call := 4 } ∧ s.names 6 = none := by
  obtain ⟨s, h1, h2⟩ := runIf_get (ls := demo) (by decide +kernel)
  have h3 : ((runIf {} demo).any fun s => s.calls == [] && s.mgr.pending == [] && !s.mgr.dead &&
    s.names 5 == some { mgr := 0, refs := 2, call := 4 } && s.names 6 == none) = true := by decide +kernel
  rw [h1] at h3
  simp only [Option.any_some, Bool.and_eq_true, beq_iff_eq, Bool.not_eq_true'] at h3
  exact ⟨s, h2, h3.1.1.1.1, h3.1.1.1.2, h3.1.1.2, h3.1.2, h3.2⟩

/-- And while the service manager isn't there. -/
example : ∃ s, ReachIf step Usual {} s ∧ s.calls = [] ∧ s.mgr.pending = [] ∧ s.mgr.dead = true ∧
    s.names 5 = some { mgr := 0, refs := 2 } := by
  obtain ⟨s, h1, h2⟩ := runIf_get (ls := demo.take 21) (by decide +kernel)
  have h3 : ((runIf {} (demo.take 21)).any fun s => s.calls == [] && s.mgr.pending == [] && s.mgr.dead &&
    s.names 5 == some { mgr := 0, refs := 2 }) = true := by decide +kernel
  rw [h1] at h3
  simp only [Option.any_some, Bool.and_eq_true, beq_iff_eq] at h3
  exact ⟨s, h2, h3.1.1.1, h3.1.1.2, h3.1.2, h3.2⟩

/-- The timer is running and may fire. -/
example : ∃ s s', ReachIf step (fun _ l => Running l) {} s ∧ step s (.retry ⟨100, 5, 500⟩) = .ok s' := by
  obtain ⟨s, h1, h2⟩ := runIf_get (ls := demo.take 10) (by decide +kernel)
  have h3 : ((runIf {} (demo.take 10)).any fun s => (step s (.retry ⟨100, 5, 500⟩)).holds fun _ => true) = true := by
    decide +kernel
  rw [h1] at h3
  simp only [Option.any_some] at h3
  cases hs : step s (.retry ⟨100, 5, 500⟩) with
  | ok s' => exact ⟨s, s', runIf_running h2, hs⟩
  | no => rw [hs] at h3; cases h3
  | ub => rw [hs] at h3; cases h3

end Gb.C44
