import Verif.Lemmas.Manager
/-
C40: as long as there's no service manager, it's looked for every now and then, and the application is
told when it appears or disappears.
-/
set_option autoImplicit false

namespace Gb.C40

open Manager Names

/-! ### The only object for the device -/

/-- What has been proved about the log. -/
structure Inv (m : Nat) (ph : Phase) (x : Mgr) (log : List Ev) : Prop where
  told : told m log = some (decide (ph ≠ .down))
  armed : lastArmed m log = if ph = .down then some x.delay else none
  signals : SignalsFine log
  intervals : IntervalsFine log

theorem told_append (m : Nat) (a b : List Ev) : Manager.told m (a ++ b) = b.foldl (told1 m) (Manager.told m a) := by
  simp [Manager.told, List.foldl_append]

theorem armed_append (m : Nat) (a b : List Ev) :
    lastArmed m (a ++ b) = b.foldl (lastArmed1 m) (lastArmed m a) := by
  simp [lastArmed, List.foldl_append]

/-- Events which have nothing to do with the presence. -/
def Other : Ev → Bool
  | .ping .. | .watch .. | .unwatch .. | .registered .. => true
  | _ => false

theorem other_told {m : Nat} {es : List Ev} (h : es.all Other = true) (a : Option Bool) :
    es.foldl (told1 m) a = a := by
  induction es generalizing a with
  | nil => rfl
  | cons e es ih =>
    simp only [List.all_cons, Bool.and_eq_true] at h
    simp only [List.foldl_cons]
    rw [show told1 m a e = a by cases e <;> first | rfl | cases h.1]
    exact ih h.2 a

theorem other_armed {m : Nat} {es : List Ev} (h : es.all Other = true) (a : Option Nat) :
    es.foldl (lastArmed1 m) a = a := by
  induction es generalizing a with
  | nil => rfl
  | cons e es ih =>
    simp only [List.all_cons, Bool.and_eq_true] at h
    simp only [List.foldl_cons]
    rw [show lastArmed1 m a e = a by cases e <;> first | rfl | cases h.1]
    exact ih h.2 a

theorem signals_append {log : List Ev} {es : List Ev} (h : SignalsFine log)
    (he : ∀ a m p post, es = a ++ Ev.presence m p :: post → Manager.told m (log ++ a) = some (!p)) :
    SignalsFine (log ++ es) := by
  intro pre post m p hh
  rcases split_append hh with ⟨q, h1⟩ | ⟨a, h1, h2⟩
  · exact h pre q m p h1
  · rw [h1]; exact he a m p post h2

theorem intervals_append {log : List Ev} {es : List Ev} (h : IntervalsFine log)
    (he : ∀ a m k post, es = a ++ Ev.armed m k :: post →
      k = match lastArmed m (log ++ a) with
        | none => 100
        | some j => min (j + 100) 1000) :
    IntervalsFine (log ++ es) := by
  intro pre post m p hh
  rcases split_append hh with ⟨q, h1⟩ | ⟨a, h1, h2⟩
  · exact h pre q m p h1
  · rw [h1]; exact he a m p post h2

theorem mem_of_split {es a post : List Ev} {e : Ev} (h : es = a ++ e :: post) : e ∈ es := by
  rw [h]; simp

theorem Inv.other {m : Nat} {ph ph' : Phase} {x y : Mgr} {log es : List Ev} (h : Inv m ph x log)
    (he : es.all Other = true) (hp : (ph = .down) ↔ (ph' = .down)) (hd : y.delay = x.delay) : Inv m ph' y (log ++ es) := by
  have hno : ∀ {a post e}, es = a ++ e :: post → Other e = true := by
    intro a post e hh
    exact List.all_eq_true.mp he _ (mem_of_split hh)
  refine ⟨?_, ?_, ?_, ?_⟩
  · rw [told_append, other_told he, h.told]
    simp [hp]
  · rw [armed_append, other_armed he, h.armed, hd]
    simp only [hp]
  · exact signals_append h.signals fun a m p post hh => by have := hno hh; cases this
  · exact intervals_append h.intervals fun a m p post hh => by have := hno hh; cases this

theorem inv_trans {m : Nat} {ph ph' : Phase} {x x' : Mgr} {log es : List Ev} (hi : Inv m ph x log)
    (ht : Trans m ph x es ph' x') : Inv m ph' x' (log ++ es) := by
  cases ht with
  | stay => exact hi.other rfl Iff.rfl rfl
  | die => exact hi.other rfl (by decide) rfl
  | died c =>
    have ho : (((x.watches.filter (·.watched)).map fun w => Ev.unwatch m w.name).all Other) = true := by
      simp [Other]
    generalize (x.watches.filter (·.watched)).map (fun w => Ev.unwatch m w.name) = us at ho
    have ht := hi.told
    have ha := hi.armed
    simp only [reduceCtorEq, if_false] at ha
    refine ⟨?_, ?_, ?_, ?_⟩
    · rw [told_append]
      simp [other_told ho, told1]
    · rw [armed_append]
      simp [other_armed ho, lastArmed1]
    · refine signals_append hi.signals ?_
      intro a m' p post hh
      have : ∃ b, a = .armed m 100 :: b ∧ us ++ [.presence m false] = b ++ Ev.presence m' p :: post := by
        cases a with
        | nil => cases hh
        | cons e b => simp only [List.cons_append, List.cons.injEq] at hh; exact ⟨b, by rw [hh.1], hh.2⟩
      obtain ⟨b, rfl, hb⟩ := this
      rcases split_append hb with ⟨q, h1⟩ | ⟨c, h1, h2⟩
      · have := List.all_eq_true.mp ho _ (mem_of_split h1)
        cases this
      · cases c with
        | nil =>
          cases h2
          subst h1
          rw [told_append]
          simp [told1, other_told ho, ht]
        | cons _ c => simp at h2
    · refine intervals_append hi.intervals ?_
      intro a m' k post hh
      cases a with
      | nil =>
        cases hh
        rw [List.append_nil, ha]
      | cons e b =>
        simp only [List.cons_append, List.cons.injEq] at hh
        have hmem := mem_of_split hh.2
        rcases List.mem_append.mp hmem with hm | hm
        · have := List.all_eq_true.mp ho _ hm
          cases this
        · simp at hm
  | retry c =>
    have ht := hi.told
    have ha := hi.armed
    refine ⟨?_, ?_, ?_, ?_⟩
    · rw [told_append, ht]; rfl
    · rw [armed_append]; simp [lastArmed1]
    · refine signals_append hi.signals ?_
      intro a m' p post hh
      have := mem_of_split hh
      simp at this
    · refine intervals_append hi.intervals ?_
      intro a m' k post hh
      cases a with
      | nil => cases hh
      | cons e b =>
        simp only [List.cons_append, List.cons.injEq] at hh
        obtain ⟨rfl, hh⟩ := hh
        cases b with
        | nil =>
          cases hh
          rw [armed_append]
          simp [lastArmed1, ha]
        | cons e b => simp at hh
  | timeout => exact hi.other rfl Iff.rfl rfl
  | back watch =>
    have ho : ((x.watches.map fun w => Ev.watch m w.name (watch w.name)).all Other) = true := by
      simp [Other]
    generalize (x.watches.map fun w => Ev.watch m w.name (watch w.name)) = us at ho
    have ht := hi.told
    refine ⟨?_, ?_, ?_, ?_⟩
    · rw [told_append]
      simp [other_told ho, told1]
    · rw [armed_append]
      simp [other_armed ho, lastArmed1]
    · refine signals_append hi.signals ?_
      intro a m' p post hh
      have : ∃ b, a = .ping m true :: b ∧ us ++ [.presence m true] = b ++ Ev.presence m' p :: post := by
        cases a with
        | nil => cases hh
        | cons e b => simp only [List.cons_append, List.cons.injEq] at hh; exact ⟨b, by rw [hh.1], hh.2⟩
      obtain ⟨b, rfl, hb⟩ := this
      rcases split_append hb with ⟨q, h1⟩ | ⟨c, h1, h2⟩
      · have := List.all_eq_true.mp ho _ (mem_of_split h1)
        cases this
      · cases c with
        | nil =>
          cases h2
          subst h1
          rw [told_append]
          simp [told1, other_told ho, ht]
        | cons _ c => simp at h2
    · refine intervals_append hi.intervals ?_
      intro a m' k post hh
      have hmem := mem_of_split hh
      simp only [List.mem_cons, List.mem_append, List.not_mem_nil, or_false, reduceCtorEq, false_or] at hmem
      have := List.all_eq_true.mp ho _ hmem
      cases this
  | add hn hw hid hfresh hph hc => exact hi.other rfl Iff.rfl rfl
  | addWatch ok hn hw hid hfresh hc => exact hi.other rfl Iff.rfl rfl
  | addPresence id => exact hi.other rfl Iff.rfl rfl
  | remove ids hph h0 => exact hi.other (by simp [Other]) Iff.rfl rfl
  | registered name ids hids => exact hi.other rfl Iff.rfl rfl
  | rehash h => exact hi.other rfl Iff.rfl rfl

theorem inv_born {m : Nat} {kind : Kind} {ph : Phase} {x : Mgr} {log es : List Ev}
    (hs : SignalsFine log) (hiv : IntervalsFine log) (hb : Born m kind es ph x) : Inv m ph x (log ++ es) := by
  cases hb with
  | up es he =>
    have ho : es.all Other = true := by rcases he with rfl | rfl <;> rfl
    refine ⟨?_, ?_, ?_, ?_⟩
    · rw [told_append]; simp [told1]
    · rw [armed_append]; simp [lastArmed1]
    · refine signals_append hs ?_
      intro a m' p post hh
      have hmem := mem_of_split hh
      simp only [List.mem_append, List.mem_cons, List.not_mem_nil, or_false, reduceCtorEq] at hmem
      have := List.all_eq_true.mp ho _ hmem
      cases this
    · refine intervals_append hiv ?_
      intro a m' p post hh
      have hmem := mem_of_split hh
      simp only [List.mem_append, List.mem_cons, List.not_mem_nil, or_false, reduceCtorEq] at hmem
      have := List.all_eq_true.mp ho _ hmem
      cases this
  | down c =>
    refine ⟨?_, ?_, ?_, ?_⟩
    · rw [told_append]; simp [told1]
    · rw [armed_append]; simp [lastArmed1]
    · refine signals_append hs ?_
      intro a m' p post hh
      have hmem := mem_of_split hh
      simp at hmem
    · refine intervals_append hiv ?_
      intro a m' p post hh
      cases a with
      | nil => cases hh
      | cons e b =>
        cases b with
        | nil => cases hh
        | cons f c =>
          cases c with
          | nil =>
            cases hh
            rw [armed_append]
            simp [lastArmed1]
          | cons g c => simp at hh

theorem alone_inv {s : State} (h : ReachIf step Alone {} s) :
    (Zero s ∧ SignalsFine s.log ∧ IntervalsFine s.log) ∨ ∃ m x ph, One s m x ph ∧ Inv m ph x s.log := by
  refine alone_induction (fun _ _ h => h) (I := Inv) (Z := fun l => SignalsFine l ∧ IntervalsFine l) ?_ ?_ ?_ ?_ h
  · exact ⟨fun pre _ _ _ h => (by cases pre <;> cases h), fun pre _ _ _ h => (by cases pre <;> cases h)⟩
  · intro m ph x log hi; exact ⟨hi.signals, hi.intervals⟩
  · intro m kind ph x es log hz hb; exact inv_born hz.1 hz.2 hb
  · intro s l s' m ph x es ph' x' _ _ _ _ hi ht _; exact inv_trans hi ht

/-- C40: if there's one GBinderServiceManager for the device, then as long as the service manager isn't
there exactly one timer is running, with an interval of at most a second, and there are none if it is.
(`pending` isn't empty while the object is being told about the death of the service manager.)
Missing: several GBinderServiceManager objects of different types for the same device, see
`C40_fails_twice`. -/
theorem C40_timer_partial {s : State} (h : ReachIf step Alone {} s) {m : Nat} {x : Mgr}
    (hm : s.mgrs m = some x) (hp : s.pending = []) :
    (s.dead = true → ∃ t, s.timers = [t] ∧ t.mgr = m ∧ 100 ≤ t.interval ∧ t.interval ≤ 1000) ∧
    (s.dead = false → s.timers = []) := by
  rcases alone_inv h with ⟨hz, _⟩ | ⟨k, y, ph, ho, hi⟩
  · rw [hz.mgrs] at hm; cases hm
  · obtain ⟨rfl, rfl⟩ := ho.get hm
    constructor
    · intro hd
      have hph : ph = .down := by
        have h1 := ho.pending
        have h2 := ho.dead
        rw [hp] at h1
        rw [hd] at h2
        cases ph
        · simp at h2
        · simp at h1
        · rfl
      obtain ⟨c, h1, h2, h3, h4, h5⟩ := ho.timers hph
      exact ⟨_, h2, rfl, h3, h4⟩
    · intro hd
      have : ph ≠ .down := by
        have h2 := ho.dead
        rw [hd] at h2
        intro hc
        subst hc
        simp at h2
      exact (ho.notimers this).2

/-- C40: and no timers are left behind when it's gone. -/
theorem C40_gone_partial {s : State} (h : ReachIf step Alone {} s) (hm : ∀ m, s.mgrs m = none) :
    s.timers = [] := by
  rcases alone_inv h with ⟨hz, _⟩ | ⟨k, y, ph, ho, hi⟩
  · exact hz.timers
  · have := ho.self
    rw [hm] at this
    cases this

/-- C40: nor is anything accessed after it has been freed. -/
theorem C40_safe_partial {s : State} (h : ReachIf step Alone {} s) (l : Label) : step s l ≠ .ub := by
  rcases alone_inv h with ⟨hz, _⟩ | ⟨k, y, ph, ho, hi⟩
  · exact zero_safe hz l
  · exact one_safe ho l

/-- C40: the application is told once when the service manager disappears, and once when it appears. -/
theorem C40_signals_partial {s : State} (h : ReachIf step Alone {} s) : SignalsFine s.log := by
  rcases alone_inv h with ⟨_, h1, _⟩ | ⟨_, _, _, _, hi⟩
  · exact h1
  · exact hi.signals

/-- C40: and knows whether it's there. -/
theorem C40_told_partial {s : State} (h : ReachIf step Alone {} s) {m : Nat} {x : Mgr}
    (hm : s.mgrs m = some x) (hp : s.pending = []) : told m s.log = some (!s.dead) := by
  rcases alone_inv h with ⟨hz, _⟩ | ⟨k, y, ph, ho, hi⟩
  · rw [hz.mgrs] at hm; cases hm
  · obtain ⟨rfl, rfl⟩ := ho.get hm
    have h1 := ho.pending
    have h2 := ho.dead
    rw [hp] at h1
    rw [hi.told, h2]
    cases ph
    · rfl
    · simp at h1
    · rfl

/-- C40: the intervals are 100, 200, ..., 1000, 1000, ... ms. -/
theorem C40_intervals_partial {s : State} (h : ReachIf step Alone {} s) : IntervalsFine s.log := by
  rcases alone_inv h with ⟨_, _, h1⟩ | ⟨_, _, _, _, hi⟩
  · exact h1
  · exact hi.intervals

/-! ### Any number of objects -/

structure Gen (s : State) : Prop where
  unique : ∀ t ∈ s.timers, ∀ t' ∈ s.timers, t.id = t'.id → t = t'
  check : ∀ m x c, s.mgrs m = some x → x.check = some c → ∃ t ∈ s.timers, t.id = c ∧ t.mgr = m
  polls : s.dead = true → ∀ m x, s.mgrs m = some x → m ∉ s.pending → ∃ t ∈ s.timers, t.mgr = m
  delay : ∀ m x, s.mgrs m = some x → x.delay ≤ 1000 ∧ x.delay % 100 = 0
  bound : ∀ t ∈ s.timers, 100 ≤ t.interval ∧ t.interval ≤ 1000
  order : ∀ m x, s.mgrs m = some x → m ∈ s.order
  pend : ∀ m, m ∈ s.pending → s.mgrs m ≠ none
  alive : ∀ m, m ∈ s.order → s.mgrs m ≠ none

theorem upd_some {f : Nat → Option Mgr} {m k : Nat} {y x : Mgr} (h : upd f m (some y) k = some x) :
    (k = m ∧ x = y) ∨ (k ≠ m ∧ f k = some x) := by
  unfold upd at h
  split at h
  · rename_i hk; cases h; exact .inl ⟨hk, rfl⟩
  · rename_i hk; exact .inr ⟨hk, h⟩

theorem upd_ne_none {f : Nat → Option Mgr} {m k : Nat} {y : Mgr} (h : f k ≠ none) : upd f m (some y) k ≠ none := by
  unfold upd
  split
  · simp
  · exact h

/-- A change of an object which has nothing to do with timers. -/
theorem Gen.change {s s' : State} {m : Nat} {x y : Mgr} (h : Gen s) (hx : s.mgrs m = some x)
    (hm : s'.mgrs = upd s.mgrs m (some y)) (hc : y.check = x.check) (hd : y.delay = x.delay)
    (ht : s'.timers = s.timers) (hdead : s'.dead = s.dead) (hp : s'.pending = s.pending)
    (ho : s'.order = s.order) : Gen s' := by
  have hget : ∀ {k z}, s'.mgrs k = some z → ∃ z', s.mgrs k = some z' ∧ z.check = z'.check ∧ z.delay = z'.delay := by
    intro k z hz
    rw [hm] at hz
    rcases upd_some hz with ⟨rfl, rfl⟩ | ⟨_, hz⟩
    · exact ⟨x, hx, hc, hd⟩
    · exact ⟨z, hz, rfl, rfl⟩
  refine ⟨?_, ?_, ?_, ?_, ?_, ?_, ?_, ?_⟩
  · rw [ht]; exact h.unique
  · intro k z c hz hzc
    obtain ⟨z', h1, h2, _⟩ := hget hz
    rw [ht]
    exact h.check k z' c h1 (h2 ▸ hzc)
  · intro hh k z hz hk
    obtain ⟨z', h1, h2, _⟩ := hget hz
    rw [ht]
    exact h.polls (hdead ▸ hh) k z' h1 (hp ▸ hk)
  · intro k z hz
    obtain ⟨z', h1, h2, h3⟩ := hget hz
    rw [h3]
    exact h.delay k z' h1
  · rw [ht]; exact h.bound
  · intro k z hz
    obtain ⟨z', h1, _⟩ := hget hz
    rw [ho]
    exact h.order k z' h1
  · intro k hk
    rw [hm]
    exact upd_ne_none (h.pend k (hp ▸ hk))
  · intro k hk
    rw [hm]
    exact upd_ne_none (h.alive k (ho ▸ hk))

theorem fresh_ne {s : State} {tid : Nat} (h : s.fresh tid = true) : ∀ t ∈ s.timers, t.id ≠ tid := by
  intro t ht
  simpa using List.all_eq_true.mp h t ht

theorem mem_drop {s : State} {c : Nat} {t : Timer} : t ∈ (s.dropTimer c).timers ↔ t ∈ s.timers ∧ t.id ≠ c := by
  simp [State.dropTimer]

/-- Another timer is started for an object. -/
theorem Gen.start {s s' : State} {m tid k : Nat} {y : Mgr} (h : Gen s)
    (hm : s'.mgrs = upd s.mgrs m (some y)) (hc : y.check = some tid) (hd : y.delay ≤ 1000 ∧ y.delay % 100 = 0)
    (hk : 100 ≤ k ∧ k ≤ 1000) (hf : s.fresh tid = true)
    (hmem : ∀ t, t ∈ s'.timers ↔ t ∈ s.timers ∨ t = ⟨tid, m, k⟩) (hdead : s'.dead = s.dead)
    (hp : ∀ i, i ∈ s'.pending → i ∈ s.pending) (hp' : ∀ i, i ∈ s.pending → i ≠ m → i ∈ s'.pending)
    (ho : ∀ i, i ∈ s'.order ↔ i ∈ s.order ∨ i = m) : Gen s' := by
  have hnm : ∀ {i}, i ≠ m → s'.mgrs i = s.mgrs i := by intro i hi; rw [hm, upd_ne _ _ hi]
  have hself : s'.mgrs m = some y := by rw [hm, upd_same]
  refine ⟨?_, ?_, ?_, ?_, ?_, ?_, ?_, ?_⟩
  · intro t ht t' ht' hid
    rcases (hmem t).mp ht with ht | rfl <;> rcases (hmem t').mp ht' with ht' | rfl
    · exact h.unique t ht t' ht' hid
    · exact absurd hid (fresh_ne hf t ht)
    · exact absurd hid.symm (fresh_ne hf t' ht')
    · rfl
  · intro i z c hz hzc
    by_cases hi : i = m
    · subst hi
      rw [hself] at hz
      cases hz
      rw [hc] at hzc
      cases hzc
      exact ⟨⟨tid, i, k⟩, (hmem _).mpr (.inr rfl), rfl, rfl⟩
    · rw [hnm hi] at hz
      obtain ⟨t, h1, h2⟩ := h.check i z c hz hzc
      exact ⟨t, (hmem t).mpr (.inl h1), h2⟩
  · intro hh i z hz hip
    by_cases hi : i = m
    · subst hi
      exact ⟨_, (hmem _).mpr (.inr rfl), rfl⟩
    · rw [hnm hi] at hz
      obtain ⟨t, h1, h2⟩ := h.polls (hdead ▸ hh) i z hz (fun hc => hip (hp' i hc hi))
      exact ⟨t, (hmem t).mpr (.inl h1), h2⟩
  · intro i z hz
    by_cases hi : i = m
    · subst hi
      rw [hself] at hz
      cases hz
      exact hd
    · rw [hnm hi] at hz
      exact h.delay i z hz
  · intro t ht
    rcases (hmem t).mp ht with ht | rfl
    · exact h.bound t ht
    · exact hk
  · intro i z hz
    by_cases hi : i = m
    · exact (ho i).mpr (.inr hi)
    · rw [hnm hi] at hz
      exact (ho i).mpr (.inl (h.order i z hz))
  · intro i hi
    rw [hm]
    by_cases hh : i = m
    · rw [hh, upd_same]; simp
    · rw [upd_ne _ _ hh]; exact h.pend i (hp i hi)
  · intro i hi
    rw [hm]
    by_cases hh : i = m
    · rw [hh, upd_same]; simp
    · rw [upd_ne _ _ hh]
      rcases (ho i).mp hi with hi | hi
      · exact h.alive i hi
      · exact absurd hi hh

/-- The service manager is there, a timer may have been removed. -/
theorem Gen.back {s s' : State} {m : Nat} {x y : Mgr} (h : Gen s) (hx : s.mgrs m = some x)
    (hm : s'.mgrs = upd s.mgrs m (some y)) (hc : y.check = none) (hd : y.delay = x.delay)
    (hsub : ∀ t, t ∈ s'.timers → t ∈ s.timers)
    (hkeep : ∀ t, t ∈ s.timers → t.mgr ≠ m → t ∈ s'.timers)
    (hdead : s'.dead = false) (hp : s'.pending = s.pending) (ho : s'.order = s.order) : Gen s' := by
  have hnm : ∀ {i}, i ≠ m → s'.mgrs i = s.mgrs i := by intro i hi; rw [hm, upd_ne _ _ hi]
  have hself : s'.mgrs m = some y := by rw [hm, upd_same]
  refine ⟨?_, ?_, ?_, ?_, ?_, ?_, ?_, ?_⟩
  · intro t ht t' ht'; exact h.unique t (hsub t ht) t' (hsub t' ht')
  · intro i z c hz hzc
    by_cases hi : i = m
    · subst hi
      rw [hself] at hz
      cases hz
      rw [hc] at hzc
      cases hzc
    · rw [hnm hi] at hz
      obtain ⟨t, h1, h2, h3⟩ := h.check i z c hz hzc
      exact ⟨t, hkeep t h1 (by rw [h3]; exact hi), h2, h3⟩
  · intro hh; rw [hdead] at hh; cases hh
  · intro i z hz
    by_cases hi : i = m
    · subst hi
      rw [hself] at hz
      cases hz
      rw [hd]
      exact h.delay i x hx
    · rw [hnm hi] at hz
      exact h.delay i z hz
  · intro t ht; exact h.bound t (hsub t ht)
  · intro i z hz
    rw [ho]
    by_cases hi : i = m
    · subst hi; exact h.order i x hx
    · rw [hnm hi] at hz; exact h.order i z hz
  · intro i hi
    rw [hm]
    exact upd_ne_none (h.pend i (hp ▸ hi))
  · intro i hi
    rw [hm]
    exact upd_ne_none (h.alive i (ho ▸ hi))

/-- A different value of `dead`, and more events. -/
theorem Gen.ping {s : State} (h : Gen s) (m : Nat) (ok : Bool) : Gen (s.reanimate m ok) := by
  unfold State.reanimate
  split
  · rename_i hd
    refine ⟨h.unique, h.check, ?_, h.delay, h.bound, h.order, h.pend, h.alive⟩
    intro hh
    exact h.polls hd
  · exact h

theorem reanimate_same (s : State) (m : Nat) (ok : Bool) :
    (s.reanimate m ok).mgrs = s.mgrs ∧ (s.reanimate m ok).timers = s.timers ∧
    (s.reanimate m ok).pending = s.pending ∧ (s.reanimate m ok).order = s.order := by
  unfold State.reanimate
  split <;> exact ⟨rfl, rfl, rfl, rfl⟩

/-- gbinder_timeout_remove(priv->presence_check) -/
theorem Gen.removed {s s' : State} {m : Nat} {x : Mgr} (h : Gen s) (hx : s.mgrs m = some x)
    (hr : s.removeTimer x.check = .ok s') :
    s'.mgrs = s.mgrs ∧ s'.pending = s.pending ∧ s'.order = s.order ∧ s'.dead = s.dead ∧
    (∀ t, t ∈ s'.timers → t ∈ s.timers) ∧ (∀ t, t ∈ s.timers → t.mgr ≠ m → t ∈ s'.timers) := by
  cases hc : x.check with
  | none =>
    rw [hc] at hr
    cases hr
    exact ⟨rfl, rfl, rfl, rfl, fun _ => id, fun _ h _ => h⟩
  | some c =>
    rw [hc] at hr
    simp only [State.removeTimer] at hr
    split at hr
    · cases hr
      refine ⟨rfl, rfl, rfl, rfl, fun t ht => (mem_drop.mp ht).1, fun t ht hne => mem_drop.mpr ⟨ht, ?_⟩⟩
      intro hid
      obtain ⟨t', h1, h2, h3⟩ := h.check m x c hx hc
      have := h.unique t ht t' h1 (hid.trans h2.symm)
      rw [this] at hne
      exact hne h3
    · cases hr

theorem gen_step {s s' : State} (h : Gen s) {l : Label} (hs : step s l = .ok s') : Gen s' := by
  cases l with
  | create m kind ok tid =>
    simp only [step] at hs
    split at hs
    · cases hs
    · rename_i hc
      have hnone : s.mgrs m = none := Classical.byContradiction fun hh => hc (.inl hh)
      have hfresh : s.fresh tid = true := by
        cases hh : s.fresh tid
        · exact absurd (.inr (.inr (by simp [hh]))) hc
        · rfl
      have hord : ∀ i, i ∈ s.order ++ [m] ↔ i ∈ s.order ∨ i = m := by intro i; simp
      obtain ⟨e1, e2, e3, e4⟩ := reanimate_same ((({ s with order := s.order ++ [m] } : State)).set m { kind := kind }) m ok
      generalize hr : ((({ s with order := s.order ++ [m] } : State)).set m { kind := kind }).reanimate m ok = s1 at hs e1 e2 e3 e4
      have hd1 : s1.dead = true → s.dead = true := by
        intro hh
        rw [← hr] at hh
        unfold State.reanimate at hh
        split at hh
        · assumption
        · exact hh
      have hnp : m ∉ s.pending := fun hh => h.pend m hh hnone
      cases hs
      split
      · rename_i hd
        have hs0 : Gen { s with dead := true } := by
          refine ⟨h.unique, h.check, fun _ => h.polls (hd1 hd), h.delay, h.bound, h.order, h.pend, h.alive⟩
        refine hs0.start (m := m) (tid := tid) (k := 100) (y := { kind := kind, check := some tid, delay := 100 })
          ?_ rfl ⟨by simp only []; omega, by simp only []⟩ (by omega) hfresh ?_ ?_ ?_ ?_ ?_
        · simp only [State.checkStart, State.add, State.set] at *
          rw [e1, upd_upd]
          rfl
        · intro t
          simp only [State.checkStart, State.add, State.set, List.mem_append, List.mem_singleton] at *
          rw [e2]
          rfl
        · simp only [State.checkStart, State.add, State.set] at *
          exact hd
        · intro i hi
          simp only [State.checkStart, State.add, State.set] at *
          rw [e3] at hi
          exact hi
        · intro i hi _
          simp only [State.checkStart, State.add, State.set] at *
          rw [e3]
          exact hi
        · intro i
          simp only [State.checkStart, State.add, State.set] at *
          rw [e4]
          exact hord i
      · rename_i hd
        simp only [State.add, State.set] at *
        have hd : s1.dead = false := by simpa using hd
        refine ⟨?_, ?_, ?_, ?_, ?_, ?_, ?_, ?_⟩
        · simp only [e2]; exact h.unique
        · intro k z c hz hzc
          simp only [e1] at hz
          simp only [e2]
          rcases upd_some hz with ⟨rfl, rfl⟩ | ⟨_, hz⟩
          · cases hzc
          · exact h.check k z c hz hzc
        · intro hh; rw [hd] at hh; cases hh
        · intro k z hz
          simp only [e1] at hz
          rcases upd_some hz with ⟨rfl, rfl⟩ | ⟨_, hz⟩
          · exact ⟨by simp only []; omega, rfl⟩
          · exact h.delay k z hz
        · simp only [e2]; exact h.bound
        · intro k z hz
          simp only [e1] at hz
          simp only [e4]
          rcases upd_some hz with ⟨rfl, rfl⟩ | ⟨_, hz⟩
          · simp
          · exact List.mem_append_left _ (h.order k z hz)
        · intro k hk
          simp only [e3] at hk
          simp only [e1]
          exact upd_ne_none (h.pend k hk)
        · intro k hk
          simp only [e4] at hk
          simp only [e1]
          rcases (hord k).mp hk with hk | rfl
          · exact upd_ne_none (h.alive k hk)
          · rw [upd_same]; simp
  | die =>
    simp only [step] at hs
    split at hs
    · cases hs
    · cases hs
      refine ⟨h.unique, h.check, ?_, h.delay, h.bound, h.order, h.alive, h.alive⟩
      intro _ m x hm hp
      exact absurd (h.order m x hm) hp
  | died tid =>
    simp only [step] at hs
    split at hs
    · cases hs
    · rename_i hc
      have hfresh : s.fresh tid = true := Classical.not_not.mp hc
      split at hs
      · cases hs
      · rename_i m rest hp
        split at hs
        · cases hs
        · rename_i x hx
          cases hs
          refine h.start (m := m) (tid := tid) (k := 100)
            (y := { x with watches := unwatchAll x.watches, check := some tid, delay := 100 })
            rfl rfl ⟨by simp only []; omega, by simp only []⟩ (by omega) hfresh ?_ rfl ?_ ?_ ?_
          · intro t
            simp [State.checkStart, State.add, State.set, waitMin]
          · intro i hi
            rw [hp]
            exact List.mem_cons_of_mem _ hi
          · intro i hi hne
            rw [hp] at hi
            rcases List.mem_cons.mp hi with hi | hi
            · exact absurd hi hne
            · exact hi
          · intro i
            constructor
            · exact .inl
            · rintro (hi | rfl)
              · exact hi
              · exact h.order i x hx
  | fire t ok tid watch =>
    simp only [step] at hs
    split at hs
    · cases hs
    · rename_i hc
      have hmem : t ∈ s.timers := Classical.byContradiction fun hh => hc (.inl hh)
      have hfresh : s.fresh tid = true := by
        cases hh : s.fresh tid
        · exact absurd (.inr (.inr (by simp [hh]))) hc
        · rfl
      split at hs
      · cases hs
      · rename_i x hx
        obtain ⟨e1, e2, e3, e4⟩ := reanimate_same s t.mgr ok
        have hg := h.ping t.mgr ok
        generalize s.reanimate t.mgr ok = s1 at hs e1 e2 e3 e4 hg
        rw [← e1] at hx
        rw [← e2] at hmem
        have hfresh : s1.fresh tid = true := by unfold State.fresh at hfresh ⊢; rw [e2]; exact hfresh
        split at hs
        · rename_i hd
          have hd : s1.dead = false := by simpa using hd
          simp only [State.reanimated, State.removeTimer, State.add, State.set] at hs
          cases hs
          refine hg.back hx (y := { x with check := none, watches := rearm watch x.watches }) rfl rfl rfl
            (fun t' ht' => (mem_drop.mp ht').1) ?_ hd rfl rfl
          intro t' ht' hne
          refine mem_drop.mpr ⟨ht', ?_⟩
          intro hid
          rw [hg.unique t' ht' t hmem hid] at hne
          exact hne rfl
        · rename_i hd
          split at hs
          · rename_i hlt
            cases hs
            unfold waitMax at hlt
            have hdl := hg.delay _ x hx
            have hfr : (s1.dropTimer t.id).fresh tid = true := by
              unfold State.fresh
              rw [List.all_eq_true]
              intro t' ht'
              have := fresh_ne hfresh t' (mem_drop.mp ht').1
              simpa using this
            have hother : ∀ t', t' ∈ s1.timers → t'.mgr ≠ t.mgr → t' ∈ (s1.dropTimer t.id).timers := by
              intro t' ht' hne
              refine mem_drop.mpr ⟨ht', ?_⟩
              intro hid
              rw [hg.unique t' ht' t hmem hid] at hne
              exact hne rfl
            have hdt : ∀ i, i ∈ s1.pending → s1.mgrs i ≠ none := hg.pend
            -- everything but the object itself is as it was
            refine ⟨?_, ?_, ?_, ?_, ?_, ?_, ?_, ?_⟩
            · intro a ha b hb hid
              simp only [State.set, State.add, List.mem_append, List.mem_singleton] at ha hb
              rcases ha with ha | rfl <;> rcases hb with hb | rfl
              · exact hg.unique a (mem_drop.mp ha).1 b (mem_drop.mp hb).1 hid
              · exact absurd hid (fresh_ne hfr a ha)
              · exact absurd hid.symm (fresh_ne hfr b hb)
              · rfl
            · intro i z c hz hzc
              simp only [State.set, State.add, State.dropTimer] at hz
              rcases upd_some hz with ⟨rfl, rfl⟩ | ⟨hne, hz⟩
              · cases hzc
                refine ⟨⟨tid, t.mgr, x.delay + waitStep⟩, ?_, rfl, rfl⟩
                simp [State.set, State.add]
              · obtain ⟨t', h1, h2, h3⟩ := hg.check i z c hz hzc
                refine ⟨t', ?_, h2, h3⟩
                simp only [State.set, State.add, List.mem_append]
                exact .inl (hother t' h1 (by rw [h3]; exact hne))
            · intro _ i z hz hip
              simp only [State.set, State.add, State.dropTimer] at hz hip
              rcases upd_some hz with ⟨rfl, rfl⟩ | ⟨hne, hz⟩
              · refine ⟨⟨tid, t.mgr, x.delay + waitStep⟩, ?_, rfl⟩
                simp [State.set, State.add]
              · obtain ⟨t', h1, h3⟩ := hg.polls (by simpa using hd) i z hz hip
                refine ⟨t', ?_, h3⟩
                simp only [State.set, State.add, List.mem_append]
                exact .inl (hother t' h1 (by rw [h3]; exact hne))
            · intro i z hz
              simp only [State.set, State.add, State.dropTimer] at hz
              rcases upd_some hz with ⟨rfl, rfl⟩ | ⟨hne, hz⟩
              · simp only [waitStep]; omega
              · exact hg.delay i z hz
            · intro a ha
              simp only [State.set, State.add, List.mem_append, List.mem_singleton] at ha
              rcases ha with ha | rfl
              · exact hg.bound a (mem_drop.mp ha).1
              · simp only [waitStep]; omega
            · intro i z hz
              simp only [State.set, State.add, State.dropTimer] at hz
              rcases upd_some hz with ⟨rfl, rfl⟩ | ⟨hne, hz⟩
              · exact hg.order _ x hx
              · exact hg.order i z hz
            · intro i hi
              exact upd_ne_none (hg.pend i hi)
            · intro i hi
              exact upd_ne_none (hg.alive i hi)
          · cases hs
            exact ⟨hg.unique, hg.check, hg.polls, hg.delay, hg.bound, hg.order, hg.pend, hg.alive⟩
  | wait m ok watch =>
    simp only [step] at hs
    split at hs
    · cases hs
    · split at hs
      · cases hs
      · rename_i x hx
        split at hs
        · cases hs; exact h
        · obtain ⟨e1, e2, e3, e4⟩ := reanimate_same s m ok
          have hg := h.ping m ok
          generalize s.reanimate m ok = s1 at hs e1 e2 e3 e4 hg
          rw [← e1] at hx
          split at hs
          · rename_i hd
            have hd : s1.dead = false := by simpa using hd
            unfold State.reanimated at hs
            split at hs
            · rename_i s2 hr
              cases hs
              obtain ⟨f1, f2, f3, f4, f5, f6⟩ := hg.removed hx hr
              refine hg.back hx (y := { x with check := none, watches := rearm watch x.watches }) ?_ rfl rfl
                f5 f6 ?_ f2 f3
              · simp [State.set, State.add, f1]
              · simp only [State.set, State.add, f4, hd]
            · cases hs
            · cases hs
          · cases hs; exact hg
  | addHandler m raw id ok =>
    simp only [step] at hs
    split at hs
    · cases hs
    · split at hs
      · cases hs
      · rename_i x hx
        split at hs
        · cases hs
        · split at hs
          · cases hs; exact h
          · split at hs
            · cases hs
              refine h.change hx rfl ?_ ?_ rfl rfl rfl rfl <;> rfl
            · cases hs
              refine h.change hx rfl ?_ ?_ rfl rfl rfl rfl <;> rfl
  | addPresence m id =>
    simp only [step] at hs
    split at hs
    · cases hs
    · split at hs
      · cases hs
      · rename_i x hx
        split at hs
        · cases hs
        · cases hs
          refine h.change hx rfl ?_ ?_ rfl rfl rfl rfl <;> rfl
  | removeHandlers m ids =>
    simp only [step] at hs
    split at hs
    · cases hs
    · split at hs
      · cases hs
      · rename_i x hx
        cases hs
        refine h.change hx rfl ?_ ?_ rfl rfl rfl rfl <;> rfl
  | registered m name =>
    have hlog : ∀ es, Gen (s.add es) := fun es =>
      ⟨h.unique, h.check, h.polls, h.delay, h.bound, h.order, h.pend, h.alive⟩
    simp only [step] at hs
    split at hs
    · cases hs
    · split at hs
      · cases hs
      · split at hs <;> (cases hs; exact hlog _)
  | rehash m ws =>
    simp only [step] at hs
    split at hs
    · cases hs
    · rename_i x hx
      split at hs
      · cases hs
        refine h.change hx rfl ?_ ?_ rfl rfl rfl rfl <;> rfl
      · cases hs
  | free m =>
    simp only [step] at hs
    split at hs
    · cases hs
    · split at hs
      · cases hs
      · rename_i x hx
        split at hs
        · rename_i s2 hr
          cases hs
          obtain ⟨f1, f2, f3, f4, f5, f6⟩ := h.removed hx hr
          have hget : ∀ {i z}, upd s2.mgrs m none i = some z → i ≠ m ∧ s.mgrs i = some z := by
            intro i z hz
            unfold upd at hz
            split at hz
            · cases hz
            · rename_i hne; exact ⟨hne, by rw [← f1]; exact hz⟩
          refine ⟨fun a ha b hb => h.unique a (f5 a ha) b (f5 b hb), ?_, ?_, ?_, fun a ha => h.bound a (f5 a ha), ?_, ?_, ?_⟩
          · intro i z c hz hzc
            obtain ⟨h1, h2⟩ := hget hz
            obtain ⟨t, h3, h4, h5⟩ := h.check i z c h2 hzc
            exact ⟨t, f6 t h3 (by rw [h5]; exact h1), h4, h5⟩
          · intro hd i z hz hip
            obtain ⟨h1, h2⟩ := hget hz
            simp only [f4] at hd
            obtain ⟨t, h3, h5⟩ := h.polls hd i z h2 (by
              intro hc
              apply hip
              simp only [f2, List.mem_filter, decide_eq_true_eq]
              exact ⟨hc, by simpa using h1⟩)
            exact ⟨t, f6 t h3 (by rw [h5]; exact h1), h5⟩
          · intro i z hz; exact h.delay i z (hget hz).2
          · intro i z hz
            obtain ⟨h1, h2⟩ := hget hz
            simp only [f3, List.mem_filter]
            exact ⟨h.order i z h2, by simpa using h1⟩
          · intro i hi
            simp only [f2, List.mem_filter] at hi
            have hne : i ≠ m := by simpa using hi.2
            simp only [upd_ne _ _ hne, f1]
            exact h.pend i hi.1
          · intro i hi
            simp only [f3, List.mem_filter] at hi
            have hne : i ≠ m := by simpa using hi.2
            simp only [upd_ne _ _ hne, f1]
            exact h.alive i hi.1
        · cases hs
        · cases hs

/-- C40: no matter how many objects there are, each of them has a timer running until the service
manager appears, with an interval of at most a second. -/
theorem C40_polls {s : State} (h : Reach step {} s) {m : Nat} {x : Mgr} (hm : s.mgrs m = some x)
    (hd : s.dead = true) (hp : m ∉ s.pending) :
    ∃ t ∈ s.timers, t.mgr = m ∧ 100 ≤ t.interval ∧ t.interval ≤ 1000 := by
  have hg : Gen s := by
    refine Reach.invariant (P := Gen) ?_ (fun s l s' hg hs => gen_step hg hs) h
    refine ⟨?_, ?_, ?_, ?_, ?_, ?_, ?_, ?_⟩ <;> intro <;> simp_all
  obtain ⟨t, h1, h2⟩ := hg.polls hd m x hm hp
  exact ⟨t, h1, h2, hg.bound t h1⟩

/-! ### Where it goes wrong -/

/-- Two objects, the service manager appears and is noticed by one of them, and disappears before the
other one has noticed. -/
def twice : List Label :=
  [.create 0 .aidl false 10, .create 1 .hidl false 11, .fire ⟨10, 0, 100⟩ true 12 (fun _ => true),
   .die, .died 13, .died 14]

/-- C40 fails if there are two objects of different types for the same device: two timers may be running
for one of them. -/
theorem C40_fails_twice : (exec step {} twice).holds fun s =>
    (s.timers.filter fun t => t.mgr == 1) == [⟨11, 1, 100⟩, ⟨14, 1, 100⟩] && s.dead && s.pending.isEmpty := by
  decide

/-- And only one of those is removed, when the object is freed. -/
theorem C40_fails_freed : exec step {} (twice ++ [.free 1, .fire ⟨11, 1, 100⟩ false 15 (fun _ => true)]) = .ub := by
  have : (exec step {} (twice ++ [.free 1, .fire ⟨11, 1, 100⟩ false 15 (fun _ => true)])).isUb = true := by decide
  exact Out.isUb_iff.mp this

/-- Also the application is told about the death of something that it hasn't been told about. -/
theorem C40_fails_signals : (exec step {} twice).holds fun s =>
    s.log.filter (fun e => match e with | .presence 1 _ => true | .created 1 _ => true | _ => false) ==
      [.created 1 false, .presence 1 false] := by
  decide

/-! ### Examples -/

def runIf (s : State) : List Label → Option State
  | [] => some s
  | l :: ls => match step s l with
    | .ok s' => runIf s' ls
    | _ => none

theorem runIf_reach {s0 s : State} {ls : List Label} (h0 : ReachIf step Alone {} s0)
    (hc : ∀ m kind ok tid, Label.create m kind ok tid ∉ ls) (h : runIf s0 ls = some s) :
    ReachIf step Alone {} s := by
  induction ls generalizing s0 with
  | nil => cases h; exact h0
  | cons l ls ih =>
    simp only [runIf] at h
    split at h
    · rename_i s1 hs
      refine ih (.step l h0 ?_ hs) (fun m k o t hm => hc m k o t (List.mem_cons_of_mem _ hm)) h
      intro m kind ok tid hl
      exact absurd (hl ▸ List.mem_cons_self) (hc m kind ok tid)
    · cases h

/-- The service manager isn't there, appears after a while, dies and is found again by
gbinder_servicemanager_wait. -/
def story : List Label :=
  [.fire ⟨10, 0, 100⟩ false 11 (fun _ => true), .fire ⟨11, 0, 200⟩ false 12 (fun _ => true),
   .fire ⟨12, 0, 300⟩ true 13 (fun _ => true), .die, .died 14,
   .fire ⟨14, 0, 100⟩ false 15 (fun _ => true), .wait 0 true (fun _ => true)]

example : ∃ s, ReachIf step Alone {} s ∧ (∃ x, s.mgrs 0 = some x) ∧ s.dead = false ∧
    s.log = [.ping 0 false, .created 0 false, .armed 0 100, .ping 0 false, .armed 0 200, .ping 0 false,
      .armed 0 300, .ping 0 true, .presence 0 true, .armed 0 100, .presence 0 false, .ping 0 false,
      .armed 0 200, .ping 0 true, .presence 0 true] := by
  refine ⟨_, runIf_reach (.step (.create 0 .aidl false 10) .init (fun _ _ _ _ _ _ => rfl) rfl)
    (by simp [story]) (ls := story) rfl, ⟨_, rfl⟩, rfl, rfl⟩

end Gb.C40
