import Verif.Spec.Manager
/-
One service manager object per remote object: what each step amounts to.
-/
set_option autoImplicit false

namespace Gb.Manager

open Names

inductive Phase | up | dying | down
  deriving DecidableEq, Repr

/-- There's exactly one object, in this phase. -/
structure One (s : State) (m : Nat) (x : Mgr) (ph : Phase) : Prop where
  order : s.order = [m]
  mgrs : s.mgrs = upd (fun _ => none) m (some x)
  dead : s.dead = decide (ph ≠ .up)
  pending : s.pending = if ph = .dying then [m] else []
  told : ph = .dying → s.told = false
  timers : ph = .down → ∃ c, x.check = some c ∧ s.timers = [⟨c, m, x.delay⟩] ∧
    100 ≤ x.delay ∧ x.delay ≤ 1000 ∧ x.delay % 100 = 0
  notimers : ph ≠ .down → x.check = none ∧ s.timers = []

/-- There's none. -/
structure Zero (s : State) : Prop where
  order : s.order = []
  mgrs : s.mgrs = fun _ => none
  pending : s.pending = []
  timers : s.timers = []

theorem upd_upd {α : Type} (f : Nat → α) (k : Nat) (a b : α) : upd (upd f k a) k b = upd f k b := by
  funext i
  unfold upd
  split <;> rfl

theorem upd_none {α : Type} (k : Nat) (a : Option α) :
    upd (upd (fun _ => none) k a) k none = fun _ => none := by
  funext i
  unfold upd
  split <;> rfl

/-- What happens to the only object: the events and the changes. -/
inductive Trans (m : Nat) : Phase → Mgr → List Ev → Phase → Mgr → Prop
  | stay {ph : Phase} {x : Mgr} : Trans m ph x [] ph x
  | die {x : Mgr} : Trans m .up x [] .dying x
  | died {x : Mgr} (c : Nat) : Trans m .dying x
      (.armed m 100 :: (((x.watches.filter (·.watched)).map fun w => Ev.unwatch m w.name) ++ [.presence m false]))
      .down { x with watches := unwatchAll x.watches, check := some c, delay := 100 }
  | retry {x : Mgr} (c : Nat) : Trans m .down x [.ping m false, .armed m (min (x.delay + 100) 1000)] .down
      { x with check := some c, delay := min (x.delay + 100) 1000 }
  | timeout {x : Mgr} : Trans m .down x [.ping m false] .down x
  | back {x : Mgr} (watch : Bytes → Bool) : Trans m .down x
      (.ping m true :: (x.watches.map (fun w => Ev.watch m w.name (watch w.name)) ++ [.presence m true])) .up
      { x with check := none, watches := rearm watch x.watches }
  | add {ph : Phase} {x : Mgr} {raw name : Bytes} {id : Nat} {ws : List Watch} (hn : norm x.kind raw = some name)
      (hw : ws = ensure x.watches name)
      (hid : id ≠ 0) (hfresh : x.handlers.any (fun h => h.id == id) = false) (hph : ph ≠ .dying)
      (hc : (ws.any fun w => w.name == name && w.watched) = true ∨ ph = .down) :
      Trans m ph x [] ph { x with watches := ws, handlers := x.handlers ++ [⟨id, raw, name⟩] }
  | addWatch {x : Mgr} {raw name : Bytes} {id : Nat} {ws : List Watch} (ok : Bool)
      (hn : norm x.kind raw = some name)
      (hw : ws = ensure x.watches name)
      (hid : id ≠ 0) (hfresh : x.handlers.any (fun h => h.id == id) = false)
      (hc : (ws.any fun w => w.name == name && w.watched) = false) :
      Trans m .up x [.watch m name ok] .up
        { x with
          watches := ws.map fun w => if w.name = name then { w with watched := ok } else w
          handlers := x.handlers ++ [⟨id, raw, name⟩] }
  | addPresence {ph : Phase} {x : Mgr} (id : Nat) :
      Trans m ph x [] ph { x with presence := x.presence ++ [id] }
  | remove {ph : Phase} {x : Mgr} (ids : List Nat) (hph : ph ≠ .dying) (h0 : 0 ∉ ids) :
      Trans m ph x
        ((unwatchUnused (x.handlers.filter fun h => !ids.contains h.id) ids.length x.watches).1.map
          fun n => Ev.unwatch m n) ph
        { x with
          handlers := x.handlers.filter fun h => !ids.contains h.id
          watches := (unwatchUnused (x.handlers.filter fun h => !ids.contains h.id) ids.length x.watches).2
          presence := x.presence.filter fun i => !ids.contains i }
  | registered {ph : Phase} {x : Mgr} (name : Bytes) (ids : List Nat)
      (hi : ids = match (norm x.kind name).bind fun n => x.watches.find? fun w => w.name == n with
        | some w => (x.handlers.filter fun h => h.detail == w.name).map (·.id)
        | none => []) :
      Trans m ph x [.registered m name ids] ph x
  | rehash {ph : Phase} {x : Mgr} {ws : List Watch} (h : ws.isPerm x.watches = true) :
      Trans m ph x [] ph { x with watches := ws }

theorem One.get {s : State} {m k : Nat} {x y : Mgr} {ph : Phase} (h : One s m x ph) (hg : s.mgrs k = some y) :
    k = m ∧ y = x := by
  rw [h.mgrs] at hg
  unfold upd at hg
  split at hg
  · rename_i hk; cases hg; exact ⟨hk, rfl⟩
  · cases hg

theorem One.self {s : State} {m : Nat} {x : Mgr} {ph : Phase} (h : One s m x ph) : s.mgrs m = some x := by
  rw [h.mgrs, upd_same]

theorem One.free_iff {s : State} {m : Nat} {x : Mgr} {ph : Phase} (h : One s m x ph) :
    s.free = true ↔ ph ≠ .dying := by
  unfold State.free
  rw [h.pending]
  cases ph
  · simp
  · simp [h.told rfl]
  · simp

/-- A change which doesn't have anything to do with the timers. -/
theorem One.change {s s' : State} {m : Nat} {x y : Mgr} {ph : Phase} (h : One s m x ph)
    (ho : s'.order = s.order) (hm : s'.mgrs = upd s.mgrs m (some y)) (hd : s'.dead = s.dead)
    (hp : s'.pending = s.pending) (ht : s'.told = s.told) (hi : s'.timers = s.timers)
    (hc : y.check = x.check) (hdl : y.delay = x.delay) : One s' m y ph := by
  refine ⟨ho.trans h.order, ?_, hd.trans h.dead, hp.trans h.pending, fun hh => ht.trans (h.told hh), ?_, ?_⟩
  · rw [hm, h.mgrs, upd_upd]
  · intro hh
    rw [hi, hc, hdl]
    exact h.timers hh
  · intro hh
    rw [hi, hc]
    exact h.notimers hh

theorem one_step {s s' : State} {m : Nat} {x : Mgr} {ph : Phase} (h : One s m x ph) {l : Label}
    (hl : ∀ m kind ok tid, l ≠ .create m kind ok tid) (hs : step s l = .ok s') :
    (∃ es ph' x', One s' m x' ph' ∧ Trans m ph x es ph' x' ∧ s'.log = s.log ++ es) ∨
    (l = .free m ∧ Zero s' ∧ s'.log = s.log) := by
  cases l with
  | create m kind ok tid => exact absurd rfl (hl m kind ok tid)
  | die =>
    left
    simp only [step] at hs
    split at hs
    · cases hs
    · rename_i hc
      cases hs
      have hph : ph = .up := by
        have : s.dead = false := by
          cases hd : s.dead
          · rfl
          · exact absurd (.inl hd) hc
        rw [h.dead] at this
        simpa using this
      subst hph
      refine ⟨[], .dying, x, ⟨h.order, h.mgrs, rfl, h.order, fun _ => rfl, (by intro hh; cases hh), ?_⟩,
        .die, by simp⟩
      intro _
      exact h.notimers (by decide)
  | died tid =>
    left
    simp only [step] at hs
    split at hs
    · cases hs
    · have hph : ph = .dying := by
        by_cases hc : ph = .dying
        · exact hc
        · rw [h.pending, if_neg hc] at hs
          cases hs
      subst hph
      have hp := h.pending
      rw [if_pos rfl] at hp
      rw [hp] at hs
      simp only [h.self] at hs
      cases hs
      obtain ⟨h1, h2⟩ := h.notimers (by decide)
      have hd := h.dead
      refine ⟨_, .down, _, ⟨h.order, ?_, hd, rfl, (by intro hh; cases hh), ?_, (by intro hh; exact absurd rfl hh)⟩,
        .died tid, ?_⟩
      · simp only [State.checkStart, State.add, State.set]
        rw [h.mgrs, upd_upd]
        rfl
      · intro _
        refine ⟨tid, rfl, ?_, Nat.le_refl 100, by simp only []; omega, by simp only []⟩
        simp only [State.checkStart, State.add, State.set, h2]
        rfl
      · simp only [State.checkStart, State.add, State.set, hd]
        simp [waitMin]
  | fire t ok tid watch =>
    left
    simp only [step] at hs
    split at hs
    · cases hs
    · rename_i hc
      have hmem : t ∈ s.timers := Classical.byContradiction fun hh => hc (.inl hh)
      have hph : ph = .down := by
        by_cases hh : ph = .down
        · exact hh
        · rw [(h.notimers hh).2] at hmem
          cases hmem
      subst hph
      obtain ⟨c, h1, h2, h3, h4, h5⟩ := h.timers rfl
      rw [h2] at hmem
      simp only [List.mem_singleton] at hmem
      subst hmem
      simp only [h.self] at hs
      have hd : s.dead = true := h.dead
      simp only [State.reanimate, hd, if_true] at hs
      cases ok with
      | true =>
        simp only [State.add, Bool.not_true, Bool.not_false, if_true, State.reanimated, State.removeTimer,
          State.dropTimer, State.set] at hs
        cases hs
        refine ⟨_, .up, _, ⟨h.order, ?_, rfl, h.pending, (by intro hh; cases hh), (by intro hh; cases hh), ?_⟩,
          .back watch, ?_⟩
        · simp only []
          rw [h.mgrs, upd_upd]
        · intro _
          refine ⟨rfl, ?_⟩
          simp [h2]
        · simp
      | false =>
        simp only [State.add, Bool.not_false, Bool.not_true, Bool.false_eq_true, if_false] at hs
        split at hs
        · rename_i hlt
          cases hs
          have hmin : min (x.delay + 100) 1000 = x.delay + waitStep := by
            unfold waitStep
            unfold waitMax at hlt
            omega
          refine ⟨[.ping m false, .armed m (min (x.delay + 100) 1000)], .down, _, ⟨h.order, ?_, ?_, h.pending, (by intro hh; cases hh), ?_,
            (by intro hh; exact absurd rfl hh)⟩, .retry tid, ?_⟩
          · simp only [State.set, State.dropTimer]
            rw [h.mgrs, upd_upd, hmin]
          · rfl
          · intro _
            refine ⟨tid, rfl, ?_, ?_, ?_, ?_⟩
            · simp only [State.set, State.dropTimer, h2, hmin]
              simp
            · simp only []; omega
            · simp only []; omega
            · simp only [hmin]; unfold waitStep; omega
          · simp only [State.set, State.dropTimer, hmin]
            simp
        · rename_i hlt
          cases hs
          unfold waitMax at hlt
          have hdl : x.delay = 1000 := by omega
          have hx : x = { x with check := some c, delay := min (x.delay + 100) 1000 } := by
            cases x
            simp only at h1 hdl
            subst h1 hdl
            rfl
          refine ⟨[.ping m false, .armed m (min (x.delay + 100) 1000)], .down,
            { x with check := some c, delay := min (x.delay + 100) 1000 }, ?_, .retry c, ?_⟩
          · rw [← hx]
            exact ⟨h.order, h.mgrs, rfl, h.pending, (by intro hh; cases hh), h.timers,
              (by intro hh; exact absurd rfl hh)⟩
          · simp [hdl]
  | wait k ok watch =>
    left
    simp only [step] at hs
    split at hs
    · cases hs
    · rename_i hf
      split at hs
      · cases hs
      · rename_i y hy
        obtain ⟨rfl, rfl⟩ := h.get hy
        split at hs
        · cases hs
          exact ⟨[], ph, y, h, .stay, by simp⟩
        · rename_i hd
          have hd : s.dead = true := by simpa using hd
          have hph : ph = .down := by
            have h1 := h.free_iff.mp (Classical.not_not.mp hf)
            have h2 := h.dead
            rw [hd] at h2
            cases ph
            · simp at h2
            · exact absurd rfl h1
            · rfl
          subst hph
          obtain ⟨c, h1, h2, h3, h4, h5⟩ := h.timers rfl
          simp only [State.reanimate, hd, if_true] at hs
          cases ok with
          | true =>
            simp only [State.add, Bool.not_true, Bool.not_false, if_true, State.reanimated, State.removeTimer,
              State.dropTimer, State.set, h1, h2] at hs
            simp only [List.any_cons, beq_self_eq_true, Bool.true_or, if_true] at hs
            cases hs
            refine ⟨_, .up, _, ⟨h.order, ?_, rfl, h.pending, (by intro hh; cases hh), (by intro hh; cases hh), ?_⟩,
              .back watch, ?_⟩
            · simp only []
              rw [h.mgrs, upd_upd]
            · intro _
              exact ⟨rfl, by simp⟩
            · simp
          | false =>
            simp only [State.add, Bool.not_false, Bool.not_true, Bool.false_eq_true, if_false] at hs
            cases hs
            exact ⟨_, .down, y, ⟨h.order, h.mgrs, rfl, h.pending, (by intro hh; cases hh), h.timers,
              (by intro hh; exact absurd rfl hh)⟩, .timeout, rfl⟩
  | addHandler k raw id ok =>
    left
    simp only [step] at hs
    split at hs
    · cases hs
    · rename_i hf
      have hph := h.free_iff.mp (Classical.not_not.mp hf)
      split at hs
      · cases hs
      · rename_i y hy
        obtain ⟨rfl, rfl⟩ := h.get hy
        split at hs
        · cases hs
        · rename_i hid
          have hid0 : id ≠ 0 := fun hh => hid (.inl hh)
          have hfr : y.handlers.any (fun h => h.id == id) = false := by
            cases hh : y.handlers.any (fun h => h.id == id)
            · rfl
            · exact absurd (.inr (.inl hh)) hid
          split at hs
          · cases hs
            exact ⟨[], ph, y, h, .stay, by simp⟩
          · rename_i name hn
            split at hs
            · rename_i hw
              cases hs
              refine ⟨[], ph, _, h.change rfl rfl rfl rfl rfl rfl ?_ ?_, .add hn rfl hid0 hfr hph ?_, by simp [State.set]⟩
              · rfl
              · rfl
              · rw [Bool.or_eq_true] at hw
                rcases hw with hw | hw
                · exact .inl hw
                · right
                  rw [h.dead] at hw
                  cases ph
                  · simp at hw
                  · exact absurd rfl hph
                  · rfl
            · rename_i hw
              cases hs
              have hw1 := (Bool.or_eq_false_iff.mp (Bool.eq_false_iff.mpr hw))
              have hph : ph = .up := by
                have := hw1.2
                rw [h.dead] at this
                simpa using this
              subst hph
              refine ⟨[.watch k name ok], .up, _, h.change rfl rfl rfl rfl rfl rfl ?_ ?_,
                .addWatch ok hn rfl hid0 hfr hw1.1, by simp [State.set, State.add]⟩
              · rfl
              · rfl
  | addPresence k id =>
    left
    simp only [step] at hs
    split at hs
    · cases hs
    · split at hs
      · cases hs
      · rename_i y hy
        obtain ⟨rfl, rfl⟩ := h.get hy
        split at hs
        · cases hs
        · cases hs
          refine ⟨[], ph, _, h.change rfl rfl rfl rfl rfl rfl ?_ ?_, .addPresence id, by simp [State.set]⟩
          · rfl
          · rfl
  | removeHandlers k ids =>
    left
    simp only [step] at hs
    split at hs
    · cases hs
    · rename_i hf
      have hph := h.free_iff.mp (Classical.not_not.mp hf)
      split at hs
      · cases hs
      · rename_i y hy
        obtain ⟨rfl, rfl⟩ := h.get hy
        cases hs
        refine ⟨_, ph, _, h.change rfl rfl rfl rfl rfl rfl ?_ ?_, .remove (ids.filter (· ≠ 0)) hph (by simp), ?_⟩
        · rfl
        · rfl
        · rfl
  | registered k name =>
    left
    simp only [step] at hs
    split at hs
    · cases hs
    · split at hs
      · cases hs
      · rename_i y hy
        obtain ⟨rfl, rfl⟩ := h.get hy
        have hsame : ∀ es, One (s.add es) k y ph := by
          intro es
          exact ⟨h.order, h.mgrs, h.dead, h.pending, h.told, h.timers, h.notimers⟩
        split at hs
        · rename_i w hw
          cases hs
          exact ⟨_, ph, y, hsame _, .registered name _ (by rw [hw]), rfl⟩
        · rename_i hw
          cases hs
          exact ⟨_, ph, y, hsame _, .registered name _ (by rw [hw]), rfl⟩
  | rehash k ws =>
    left
    simp only [step] at hs
    split at hs
    · cases hs
    · rename_i y hy
      obtain ⟨rfl, rfl⟩ := h.get hy
      split at hs
      · rename_i hp
        cases hs
        refine ⟨[], ph, _, h.change rfl rfl rfl rfl rfl rfl ?_ ?_, .rehash hp, by simp [State.set]⟩
        · rfl
        · rfl
      · cases hs
  | free k =>
    right
    simp only [step] at hs
    split at hs
    · cases hs
    · rename_i hf
      have hph := h.free_iff.mp (Classical.not_not.mp hf)
      split at hs
      · cases hs
      · rename_i y hy
        obtain ⟨rfl, rfl⟩ := h.get hy
        have hpd := h.pending
        rw [if_neg hph] at hpd
        by_cases hd : ph = .down
        · obtain ⟨c, h1, h2, _⟩ := h.timers hd
          simp only [State.removeTimer, h1, h2] at hs
          simp only [List.any_cons, beq_self_eq_true, Bool.true_or, if_true] at hs
          cases hs
          refine ⟨rfl, ⟨?_, ?_, ?_, ?_⟩, rfl⟩
          · simp [State.dropTimer, h.order]
          · simp only [State.dropTimer, h.mgrs]
            exact upd_none _ _
          · simp [State.dropTimer, hpd]
          · simp [State.dropTimer, h2]
        · obtain ⟨h1, h2⟩ := h.notimers hd
          simp only [State.removeTimer, h1] at hs
          cases hs
          refine ⟨rfl, ⟨?_, ?_, ?_, ?_⟩, rfl⟩
          · simp [h.order]
          · simp only [h.mgrs]
            exact upd_none _ _
          · simp [hpd]
          · exact h2

/-- Nothing goes wrong. -/
theorem one_safe {s : State} {m : Nat} {x : Mgr} {ph : Phase} (h : One s m x ph) (l : Label) :
    step s l ≠ .ub := by
  intro hs
  have hrem : ∀ s1 : State, s1.timers = s.timers → s1.removeTimer x.check ≠ .ub := by
    intro s1 h1 hc
    by_cases hd : ph = .down
    · obtain ⟨c, h2, h3, _⟩ := h.timers hd
      rw [h2] at hc
      simp [State.removeTimer, h1, h3] at hc
    · rw [(h.notimers hd).1] at hc
      simp [State.removeTimer] at hc
  cases l with
  | create m kind ok tid => simp only [step] at hs; split at hs <;> cases hs
  | die => simp only [step] at hs; split at hs <;> cases hs
  | died tid =>
    simp only [step] at hs
    split at hs
    · cases hs
    · rw [h.pending] at hs
      split at hs
      · cases hs
      · rename_i k rest hk
        split at hk
        · cases hk
          rw [h.self] at hs
          cases hs
        · cases hk
  | fire t ok tid watch =>
    simp only [step] at hs
    split at hs
    · cases hs
    · rename_i hc
      have hmem : t ∈ s.timers := Classical.byContradiction fun hh => hc (.inl hh)
      have hph : ph = .down := by
        by_cases hh : ph = .down
        · exact hh
        · rw [(h.notimers hh).2] at hmem
          cases hmem
      subst hph
      obtain ⟨c, h1, h2, h3, h4, h5⟩ := h.timers rfl
      rw [h2] at hmem
      simp only [List.mem_singleton] at hmem
      subst hmem
      simp only [h.self] at hs
      split at hs
      · simp [State.reanimated, State.removeTimer] at hs
      · split at hs <;> cases hs
  | wait k ok watch =>
    simp only [step] at hs
    split at hs
    · cases hs
    · split at hs
      · cases hs
      · rename_i y hy
        obtain ⟨rfl, rfl⟩ := h.get hy
        split at hs
        · cases hs
        · split at hs
          · unfold State.reanimated at hs
            split at hs
            · cases hs
            · cases hs
            · rename_i hr
              refine hrem _ ?_ hr
              unfold State.reanimate
              split <;> rfl
          · cases hs
  | addHandler k raw id ok => simp only [step] at hs; (repeat' split at hs) <;> cases hs
  | addPresence k id => simp only [step] at hs; (repeat' split at hs) <;> cases hs
  | removeHandlers k ids => simp only [step] at hs; (repeat' split at hs) <;> cases hs
  | registered k name => simp only [step] at hs; (repeat' split at hs) <;> cases hs
  | rehash k ws => simp only [step] at hs; (repeat' split at hs) <;> cases hs
  | free k =>
    simp only [step] at hs
    split at hs
    · cases hs
    · split at hs
      · cases hs
      · rename_i y hy
        obtain ⟨rfl, rfl⟩ := h.get hy
        split at hs
        · cases hs
        · cases hs
        · rename_i hr
          exact hrem _ rfl hr

/-- The object has been created. -/
inductive Born (m : Nat) (kind : Kind) : List Ev → Phase → Mgr → Prop
  | up (es : List Ev) (h : es = [] ∨ es = [.ping m true]) :
      Born m kind (es ++ [.created m true]) .up { kind := kind }
  | down (c : Nat) : Born m kind [.ping m false, .created m false, .armed m 100] .down
      { kind := kind, check := some c, delay := 100 }

theorem zero_step {s s' : State} (h : Zero s) {l : Label} (hs : step s l = .ok s') :
    (Zero s' ∧ s'.log = s.log) ∨
    ∃ m kind ph x es, One s' m x ph ∧ Born m kind es ph x ∧ s'.log = s.log ++ es := by
  have hn : ∀ k, s.mgrs k = none := fun k => by rw [h.mgrs]
  cases l with
  | create m kind ok tid =>
    right
    simp only [step] at hs
    split at hs
    · cases hs
    · cases hd : s.dead with
      | false =>
        simp only [State.reanimate, State.set, State.add, hd, Bool.false_eq_true, if_false, Bool.not_false] at hs
        cases hs
        refine ⟨m, kind, .up, _, _, ⟨?_, ?_, rfl, h.pending, (by intro hh; cases hh), (by intro hh; cases hh),
          fun _ => ⟨rfl, h.timers⟩⟩, .up [] (.inl rfl), by simp⟩
        · simp [h.order]
        · simp only [h.mgrs]
      | true =>
        cases ok with
        | true =>
          simp only [State.reanimate, State.set, State.add, hd, Bool.false_eq_true, if_false, Bool.not_false, if_true,
            Bool.not_true] at hs
          cases hs
          refine ⟨m, kind, .up, _, _, ⟨?_, ?_, rfl, h.pending, (by intro hh; cases hh), (by intro hh; cases hh),
            fun _ => ⟨rfl, h.timers⟩⟩, .up _ (.inr rfl), by simp⟩
          · simp [h.order]
          · simp only [h.mgrs]
        | false =>
          simp only [State.reanimate, State.set, State.add, hd, Bool.not_false, if_true,
            Bool.not_true, State.checkStart] at hs
          cases hs
          refine ⟨m, kind, .down, _, _, ⟨?_, ?_, rfl, h.pending, (by intro hh; cases hh), ?_,
            (by intro hh; exact absurd rfl hh)⟩, .down tid, by simp [waitMin]⟩
          · simp [h.order]
          · simp only [h.mgrs, upd_upd]
            rfl
          · intro _
            exact ⟨tid, rfl, by simp [h.timers, waitMin], Nat.le_refl 100, by simp only []; omega, by simp only []⟩
  | die =>
    left
    simp only [step] at hs
    split at hs
    · cases hs
    · cases hs
      exact ⟨⟨h.order, h.mgrs, h.order, h.timers⟩, rfl⟩
  | died tid =>
    simp only [step, h.pending] at hs
    split at hs <;> cases hs
  | fire t ok tid watch =>
    simp only [step, h.timers] at hs
    split at hs
    · cases hs
    · rename_i hc
      exact absurd (.inl (by simp)) hc
  | wait k ok watch => simp only [step, hn] at hs; (repeat' split at hs) <;> cases hs
  | addHandler k raw id ok => simp only [step, hn] at hs; (repeat' split at hs) <;> cases hs
  | addPresence k id => simp only [step, hn] at hs; (repeat' split at hs) <;> cases hs
  | removeHandlers k ids => simp only [step, hn] at hs; (repeat' split at hs) <;> cases hs
  | registered k name => simp only [step, hn] at hs; (repeat' split at hs) <;> cases hs
  | rehash k ws => simp only [step, hn] at hs; (repeat' split at hs) <;> cases hs
  | free k => simp only [step, hn] at hs; (repeat' split at hs) <;> cases hs

theorem zero_safe {s : State} (h : Zero s) (l : Label) : step s l ≠ .ub := by
  intro hs
  have hn : ∀ k, s.mgrs k = none := fun k => by rw [h.mgrs]
  cases l with
  | create m kind ok tid => simp only [step] at hs; split at hs <;> cases hs
  | die => simp only [step] at hs; split at hs <;> cases hs
  | died tid =>
    simp only [step, h.pending] at hs
    split at hs <;> cases hs
  | fire t ok tid watch =>
    simp only [step, h.timers] at hs
    split at hs
    · cases hs
    · rename_i hc
      exact absurd (.inl (by simp)) hc
  | wait k ok watch => simp only [step, hn] at hs; (repeat' split at hs) <;> cases hs
  | addHandler k raw id ok => simp only [step, hn] at hs; (repeat' split at hs) <;> cases hs
  | addPresence k id => simp only [step, hn] at hs; (repeat' split at hs) <;> cases hs
  | removeHandlers k ids => simp only [step, hn] at hs; (repeat' split at hs) <;> cases hs
  | registered k name => simp only [step, hn] at hs; (repeat' split at hs) <;> cases hs
  | rehash k ws => simp only [step, hn] at hs; (repeat' split at hs) <;> cases hs
  | free k => simp only [step, hn] at hs; (repeat' split at hs) <;> cases hs

/-- No other object is created as long as there is one for the device. -/
def Alone (s : State) (l : Label) : Prop :=
  ∀ m kind ok tid, l = .create m kind ok tid → ∀ k, s.mgrs k = none

theorem one_not_create {s : State} {m : Nat} {x : Mgr} {ph : Phase} (h : One s m x ph) {l : Label} (ha : Alone s l) :
    ∀ m kind ok tid, l ≠ .create m kind ok tid := by
  intro m' kind ok tid hl
  have := ha m' kind ok tid hl m
  rw [h.self] at this
  cases this

/-- To show that something always holds for the only object. -/
theorem alone_induction {ok : State → Label → Prop} (hok : ∀ s l, ok s l → Alone s l)
    {I : Nat → Phase → Mgr → List Ev → Prop} {Z : List Ev → Prop}
    (h0 : Z []) (hfree : ∀ m ph x log, I m ph x log → Z log)
    (hborn : ∀ m kind ph x es log, Z log → Born m kind es ph x → I m ph x (log ++ es))
    (htrans : ∀ s l s' m ph x es ph' x', ok s l → step s l = .ok s' → One s m x ph → One s' m x' ph' →
      I m ph x s.log → Trans m ph x es ph' x' → s'.log = s.log ++ es → I m ph' x' (s.log ++ es))
    {s : State} (h : ReachIf step ok {} s) :
    (Zero s ∧ Z s.log) ∨ ∃ m x ph, One s m x ph ∧ I m ph x s.log := by
  induction h with
  | init => exact .inl ⟨⟨rfl, rfl, rfl, rfl⟩, h0⟩
  | @step s0 s1 l _ ha hs ih =>
    rcases ih with ⟨hz, hi⟩ | ⟨m, x, ph, ho, hi⟩
    · rcases zero_step hz hs with ⟨h1, h2⟩ | ⟨m, kind, ph, x, es, h1, h2, h3⟩
      · exact .inl ⟨h1, by rw [h2]; exact hi⟩
      · exact .inr ⟨m, x, ph, h1, by rw [h3]; exact hborn _ _ _ _ _ _ hi h2⟩
    · rcases one_step ho (one_not_create ho (hok _ _ ha)) hs with ⟨es, ph', x', h1, h2, h3⟩ | ⟨_, h1, h2⟩
      · exact .inr ⟨m, x', ph', h1, by rw [h3]; exact htrans _ _ _ _ _ _ _ _ _ ha hs ho h1 hi h2 h3⟩
      · exact .inl ⟨h1, by rw [h2]; exact hfree _ _ _ _ hi⟩

end Gb.Manager
