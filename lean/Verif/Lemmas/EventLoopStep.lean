import Verif.Lemmas.EventLoop
/-
C62: the invariant.
-/
set_option autoImplicit false

namespace Gb.EventLoop

def timerOf (y : Option Tmo) : Timer :=
  match y with
  | none => .gone
  | some x => if x.running then (if x.destroyed then .stopping else .firing) else .armed

structure TWF (x : Tmo) : Prop where
  cbrefs : x.cbrefs = (!x.destroyed).toNat + x.running.toNat
  removed : x.removed = x.destroyed
  some : x.cbrefs ≠ 0

/-- It's about this timeout. -/
def Ev.aboutTmo (t k : Nat) : Ev → Bool
  | .askedTimeout k' op d => d == t && k' == k && op == .remove
  | .fire d | .fired d _ | .gone d => d == t
  | _ => false

theorem next_aboutTmo {t k : Nat} {e : Ev} (he : e.aboutTmo t k = true) (c : Nat) (x : Option Life) : next c x e = x := by
  cases x with
  | none => rfl
  | some l => cases e <;> simp only [Ev.aboutTmo] at he <;> first | (cases he; done) | simp [next]

theorem timer_aboutTmo {t k d : Nat} (h : d ≠ t) {e : Ev} (he : e.aboutTmo t k = true) (x : Option Timer) :
    nextTimer d x e = x := by
  cases x with
  | none => rfl
  | some l =>
    cases e <;> simp only [Ev.aboutTmo, beq_iff_eq, Bool.and_eq_true] at he <;>
      first
      | (cases he; done)
      | (subst he; simp [nextTimer, h.symm]; done)
      | (obtain ⟨⟨rfl, -⟩, -⟩ := he; simp [nextTimer, h.symm])

theorem route_aboutTmo {t k : Nat} {e : Ev} (he : e.aboutTmo t k = true) {r : Routes} (ho : r.owed = none)
    (hm : r.makerTimeout t = some k) : route (some r) e = some r := by
  obtain ⟨loop, owed, maker, makerTimeout⟩ := r
  simp only at ho hm
  subst ho
  cases e <;> simp only [Ev.aboutTmo, beq_iff_eq, Bool.and_eq_true] at he <;>
    first
    | (cases he; done)
    | (subst he; simp [route]; done)
    | (obtain ⟨⟨rfl, rfl⟩, rfl⟩ := he; simp [route, hm])

/-- A timeout which has been freed. -/
def lost (s : State) (t : Nat) : Nat := if t < s.tmos then (s.tmo t).elim 1 (fun _ => 0) else 0

structure Inv (s : State) : Prop where
  life : ∀ c, life c s.log = some (if c < s.srcs then lifeOf (s.src c) else .none)
  wf : ∀ c x, s.src c = some x → WF x ∧ c < s.srcs
  timer : ∀ t, timer t s.log = some (if t < s.tmos then timerOf (s.tmo t) else .none)
  twf : ∀ t x, s.tmo t = some x → TWF x ∧ t < s.tmos
  freeings : ∀ t, freeings t s.log = lost s t
  routes : ∃ r, routes s.log = some r ∧ r.loop = s.loop ∧ r.owed = none ∧
    (∀ c x, s.src c = some x → r.maker c = some x.loop) ∧ (∀ c, s.srcs ≤ c → r.maker c = none) ∧
    (∀ t x, s.tmo t = some x → r.makerTimeout t = some x.loop) ∧ (∀ t, s.tmos ≤ t → r.makerTimeout t = none)

theorem Inv.init : Inv {} where
  life _ := rfl
  wf _ _ h := by cases h
  timer _ := rfl
  twf _ _ h := by cases h
  freeings _ := by simp [EventLoop.freeings, lost]
  routes := ⟨{}, rfl, rfl, rfl, by simp, by simp, by simp, by simp⟩

theorem all_iff {α : Type} {p : α → Bool} {l : List α} (h : l.all p = true) : ∀ a ∈ l, p a = true := List.all_eq_true.1 h

theorem freeings_about {c k : Nat} {es : List Ev} (h : es.all (Ev.about c k) = true) (t : Nat) (log : List Ev) :
    freeings t (log ++ es) = freeings t log := by
  unfold freeings
  rw [List.countP_append]
  have : es.countP (· = .gone t) = 0 := by
    rw [List.countP_eq_zero]
    intro e he
    have := all_iff h e he
    cases e <;> first | (cases this; done) | simp
  omega

theorem Inv.put {s : State} (h : Inv s) {c : Nat} {x : Src} (hx : s.src c = some x) {o : Done}
    (ho : Okay c x.loop (.live (viewOf x)) o) : ∃ s', s.put c o = .ok s' ∧ Inv s' := by
  obtain ⟨y, es, rfl, h1, h2, h3⟩ := ho
  have hlt := (h.wf c x hx).2
  refine ⟨_, rfl, ?_, ?_, ?_, h.twf, ?_, ?_⟩
  · intro d
    simp only [State.see, EventLoop.life, List.foldl_append]
    have := h.life d
    unfold EventLoop.life at this
    rw [this]
    by_cases hd : d = c
    · subst hd
      rw [if_pos hlt, hx]
      simp only [hlt, if_true, upd_same]
      exact h1
    · rw [upd_ne _ _ hd]
      exact foldl_id (fun e he b => next_about hd (all_iff h3 e he) b) _
  · intro d z hz
    simp only [State.see] at hz ⊢
    by_cases hd : d = c
    · subst hd; rw [upd_same] at hz; exact ⟨(h2 z hz).1, hlt⟩
    · rw [upd_ne _ _ hd] at hz; exact h.wf d z hz
  · intro t
    simp only [State.see, EventLoop.timer, List.foldl_append]
    rw [foldl_id (fun e he b => timer_about (all_iff h3 e he) t b)]
    exact h.timer t
  · intro t
    simp only [State.see]
    rw [freeings_about h3]
    exact h.freeings t
  · obtain ⟨r, r1, r2, r3, r4, r5, r6, r7⟩ := h.routes
    refine ⟨r, ?_, r2, r3, ?_, r5, r6, r7⟩
    · simp only [State.see, EventLoop.routes, List.foldl_append]
      unfold EventLoop.routes at r1
      rw [r1]
      clear h1
      induction es with
      | nil => rfl
      | cons e es ih =>
        rw [List.foldl_cons, route_about (all_iff h3 e List.mem_cons_self) r3 (r4 c x hx)]
        rw [List.all_cons, Bool.and_eq_true] at h3
        exact ih h3.2
    · intro d z hz
      simp only [State.see] at hz
      by_cases hd : d = c
      · subst hd; rw [upd_same] at hz; rw [(h2 z hz).2]; exact r4 d x hx
      · rw [upd_ne _ _ hd] at hz; exact r4 d z hz

theorem Inv.addNew {s : State} (h : Inv s) {o : Done} (ho : OkayNew s.srcs s.loop o) : ∃ s', s.add o = .ok s' ∧ Inv s' := by
  obtain ⟨y, es, rfl, h1, h2, h4, h3⟩ := ho
  refine ⟨_, rfl, ?_, ?_, ?_, h.twf, ?_, ?_⟩
  · intro d
    simp only [State.see, EventLoop.life, List.foldl_append, List.foldl_cons]
    have := h.life d
    unfold EventLoop.life at this
    rw [this]
    by_cases hd : d = s.srcs
    · subst hd
      rw [if_neg (Nat.lt_irrefl _)]
      simp only [Nat.lt_succ_self, if_true, upd_same]
      simpa [next] using h1
    · rw [upd_ne _ _ hd]
      have e1 : ∀ l, next d (some l) (.asked s.loop .new s.srcs) = some l := by
        intro l; simp [next, Ne.symm hd]
      rw [e1, foldl_id (fun e he b => next_about hd (all_iff h3 e he) b)]
      have : d < s.srcs + 1 ↔ d < s.srcs := by omega
      simp [this]
  · intro d z hz
    simp only [State.see] at hz ⊢
    by_cases hd : d = s.srcs
    · subst hd; rw [upd_same] at hz; exact ⟨(h2 z hz).1, by omega⟩
    · rw [upd_ne _ _ hd] at hz; have := h.wf d z hz; exact ⟨this.1, by omega⟩
  · intro t
    simp only [State.see, EventLoop.timer, List.foldl_append, List.foldl_cons]
    rw [foldl_id (fun e he b => timer_about (all_iff h3 e he) t b)]
    have := h.timer t
    unfold EventLoop.timer at this
    rw [this]
    rfl
  · intro t
    simp only [State.see]
    have := freeings_about h3 t (s.log ++ [.asked s.loop .new s.srcs])
    rw [List.append_assoc] at this
    rw [List.singleton_append] at this
    rw [this]
    have := h.freeings t
    simp [EventLoop.freeings, List.countP_append] at this ⊢
    exact this
  · obtain ⟨r, r1, r2, r3, r4, r5, r6, r7⟩ := h.routes
    refine ⟨{ r with maker := upd r.maker s.srcs (some s.loop) }, ?_, r2, r3, ?_, ?_, r6, r7⟩
    · simp only [State.see, EventLoop.routes, List.foldl_append, List.foldl_cons]
      unfold EventLoop.routes at r1
      rw [r1]
      have e1 : route (some r) (.asked s.loop .new s.srcs) = some { r with maker := upd r.maker s.srcs (some s.loop) } := by
        obtain ⟨loop, owed, maker, makerTimeout⟩ := r
        simp only at r2 r3 r5
        subst r2 r3
        simp [route, r5 s.srcs (Nat.le_refl _)]
      rw [e1]
      clear h1
      induction es with
      | nil => rfl
      | cons e es ih =>
        rw [List.foldl_cons, route_about (all_iff h3 e List.mem_cons_self) (r := { r with maker := upd r.maker s.srcs (some s.loop) }) r3
          (upd_same ..)]
        rw [List.all_cons, Bool.and_eq_true] at h3
        exact ih h3.2
    · intro d z hz
      simp only [State.see] at hz
      by_cases hd : d = s.srcs
      · subst hd; rw [upd_same] at hz; rw [(h2 z hz).2]; exact upd_same ..
      · rw [upd_ne _ _ hd] at hz; show upd _ _ _ _ = _; rw [upd_ne _ _ hd]; exact r4 d z hz
    · intro d hd
      simp only [State.see] at hd
      show upd _ _ _ _ = _
      rw [upd_ne _ _ (by omega)]
      exact r5 d (by omega)

/-- A step about one timeout. -/
theorem Inv.onTmo {s : State} (h : Inv s) {t : Nat} {x : Tmo} (hx : s.tmo t = some x) {y : Option Tmo} {es : List Ev}
    (h1 : es.foldl (nextTimer t) (some (timerOf (some x))) = some (timerOf y))
    (h2 : ∀ z, y = some z → TWF z ∧ z.loop = x.loop) (h3 : es.all (Ev.aboutTmo t x.loop) = true)
    (h4 : es.countP (· = .gone t) = y.elim 1 (fun _ => 0)) :
    Inv ((s.setTmo t y).see es) := by
  have hlt := (h.twf t x hx).2
  refine ⟨?_, h.wf, ?_, ?_, ?_, ?_⟩
  · intro c
    simp only [State.see, State.setTmo, EventLoop.life, List.foldl_append]
    rw [foldl_id (fun e he b => next_aboutTmo (all_iff h3 e he) c b)]
    exact h.life c
  · intro d
    simp only [State.see, State.setTmo, EventLoop.timer, List.foldl_append]
    have := h.timer d
    unfold EventLoop.timer at this
    rw [this]
    by_cases hd : d = t
    · subst hd
      rw [if_pos hlt, hx]
      simp only [hlt, if_true, upd_same]
      exact h1
    · rw [upd_ne _ _ hd]
      exact foldl_id (fun e he b => timer_aboutTmo hd (all_iff h3 e he) b) _
  · intro d z hz
    simp only [State.see, State.setTmo] at hz ⊢
    by_cases hd : d = t
    · subst hd; rw [upd_same] at hz; exact ⟨(h2 z hz).1, hlt⟩
    · rw [upd_ne _ _ hd] at hz; exact h.twf d z hz
  · intro d
    have hf := h.freeings d
    simp only [State.see, State.setTmo, EventLoop.freeings, List.countP_append, lost] at hf ⊢
    by_cases hd : d = t
    · subst hd
      rw [hf, h4, hx, upd_same]
      simp [hlt]
    · rw [hf, upd_ne _ _ hd]
      have h0 : es.countP (· = .gone d) = 0 := by
        rw [List.countP_eq_zero]
        intro e he
        have := all_iff h3 e he
        cases e <;> first | (cases this; done) | (simp; done) |
          (simp only [Ev.aboutTmo, beq_iff_eq] at this; subst this; simp [Ne.symm hd])
      rw [h0]
      rfl
  · obtain ⟨r, r1, r2, r3, r4, r5, r6, r7⟩ := h.routes
    refine ⟨r, ?_, r2, r3, r4, r5, ?_, r7⟩
    · simp only [State.see, State.setTmo, EventLoop.routes, List.foldl_append]
      unfold EventLoop.routes at r1
      rw [r1]
      clear h1 h4
      induction es with
      | nil => rfl
      | cons e es ih =>
        rw [List.foldl_cons, route_aboutTmo (all_iff h3 e List.mem_cons_self) r3 (r6 t x hx)]
        rw [List.all_cons, Bool.and_eq_true] at h3
        exact ih h3.2
    · intro d z hz
      simp only [State.see, State.setTmo] at hz
      by_cases hd : d = t
      · subst hd; rw [upd_same] at hz; rw [(h2 z hz).2]; exact r6 d x hx
      · rw [upd_ne _ _ hd] at hz; exact r6 d z hz

theorem Inv.addTmo {s : State} (h : Inv s) (n : Nat) :
    Inv ((({ s with tmos := s.tmos + 1 } : State).setTmo s.tmos (some { loop := s.loop })).see
      [.askedTimeout s.loop (.add n) s.tmos]) := by
  refine ⟨?_, h.wf, ?_, ?_, ?_, ?_⟩
  · intro c
    have := h.life c
    simp only [State.see, State.setTmo, EventLoop.life, List.foldl_append] at this ⊢
    rw [this]
    simp only [List.foldl_cons, List.foldl_nil, next]
    rfl
  · intro d
    simp only [State.see, State.setTmo, EventLoop.timer, List.foldl_append]
    have := h.timer d
    unfold EventLoop.timer at this
    rw [this]
    by_cases hd : d = s.tmos
    · subst hd
      rw [if_neg (Nat.lt_irrefl _)]
      simp only [Nat.lt_succ_self, if_true, upd_same]
      simp [nextTimer, timerOf]
    · rw [upd_ne _ _ hd]
      have : d < s.tmos + 1 ↔ d < s.tmos := by omega
      simp [nextTimer, Ne.symm hd, this]
  · intro d z hz
    simp only [State.see, State.setTmo] at hz ⊢
    by_cases hd : d = s.tmos
    · subst hd; rw [upd_same] at hz; cases hz; exact ⟨⟨rfl, rfl, by simp⟩, by omega⟩
    · rw [upd_ne _ _ hd] at hz; have := h.twf d z hz; exact ⟨this.1, by omega⟩
  · intro d
    have hf := h.freeings d
    simp only [State.see, State.setTmo, EventLoop.freeings, List.countP_append, lost] at hf ⊢
    rw [hf]
    by_cases hd : d = s.tmos
    · subst hd; simp [upd_same]
    · rw [upd_ne _ _ hd]
      have : d < s.tmos + 1 ↔ d < s.tmos := by omega
      simp [this]
  · obtain ⟨r, r1, r2, r3, r4, r5, r6, r7⟩ := h.routes
    refine ⟨{ r with makerTimeout := upd r.makerTimeout s.tmos (some s.loop) }, ?_, r2, r3, r4, r5, ?_, ?_⟩
    · simp only [State.see, State.setTmo, EventLoop.routes, List.foldl_append, List.foldl_cons]
      unfold EventLoop.routes at r1
      rw [r1]
      obtain ⟨loop, owed, maker, makerTimeout⟩ := r
      simp only at r2 r3 r7
      subst r2 r3
      simp [route, r7 s.tmos (Nat.le_refl _)]
    · intro d z hz
      simp only [State.see, State.setTmo] at hz
      by_cases hd : d = s.tmos
      · subst hd; rw [upd_same] at hz; cases hz; exact upd_same ..
      · rw [upd_ne _ _ hd] at hz; show upd _ _ _ _ = _; rw [upd_ne _ _ hd]; exact r6 d z hz
    · intro d hd
      simp only [State.see, State.setTmo] at hd
      show upd _ _ _ _ = _
      rw [upd_ne _ _ (by omega)]
      exact r7 d (by omega)

theorem Inv.setLoop {s : State} (h : Inv s) (k : Nat) : ∃ s', step s (.set k) = .ok s' ∧ Inv s' := by
  obtain ⟨r, r1, r2, r3, r4, r5, r6, r7⟩ := h.routes
  have key : ∀ es : List Ev, (∀ e ∈ es, (∃ k, e = .set k) ∨ ∃ k, e = .cleanup k) → ∀ r' : Routes,
      es.foldl route (some r) = some r' → r'.loop = k → r'.owed = none → r'.maker = r.maker →
      r'.makerTimeout = r.makerTimeout → Inv (({ s with loop := k } : State).see es) := by
    intro es he r' q1 q2 q3 q4 q5
    refine ⟨?_, h.wf, ?_, h.twf, ?_, r', ?_, q2, q3, ?_, ?_, ?_, ?_⟩
    · intro c
      simp only [State.see, EventLoop.life, List.foldl_append]
      rw [foldl_id]
      · exact h.life c
      · intro e hm b
        cases b with
        | none => rfl
        | some b => rcases he e hm with ⟨k, rfl⟩ | ⟨k, rfl⟩ <;> simp [next]
    · intro c
      simp only [State.see, EventLoop.timer, List.foldl_append]
      rw [foldl_id]
      · exact h.timer c
      · intro e hm b
        cases b with
        | none => rfl
        | some b => rcases he e hm with ⟨k, rfl⟩ | ⟨k, rfl⟩ <;> simp [nextTimer]
    · intro t
      have := h.freeings t
      simp only [State.see, EventLoop.freeings, List.countP_append] at this ⊢
      have h0 : es.countP (· = .gone t) = 0 := by
        rw [List.countP_eq_zero]
        intro e hm
        rcases he e hm with ⟨k, rfl⟩ | ⟨k, rfl⟩ <;> simp
      simp only [lost] at this ⊢
      omega
    · simp only [State.see, EventLoop.routes, List.foldl_append]
      unfold EventLoop.routes at r1
      rw [r1, q1]
    · rw [q4]; exact r4
    · rw [q4]; exact r5
    · rw [q5]; exact r6
    · rw [q5]; exact r7
  obtain ⟨loop, owed, maker, makerTimeout⟩ := r
  simp only at r2 r3
  subst r2 r3
  simp only [step]
  split
  · rename_i hk
    refine ⟨_, rfl, ?_⟩
    have := key [.set k] (by simp) { loop := s.loop, owed := none, maker, makerTimeout } (by simp [route, hk.symm]) hk rfl rfl rfl
    subst hk
    exact this
  · rename_i hk
    refine ⟨_, rfl, ?_⟩
    exact key [.set k, .cleanup s.loop] (by simp) { loop := k, owed := none, maker, makerTimeout }
      (by simp [route, Ne.symm hk]) rfl rfl rfl rfl

/-- It's either done or it can't be done at this point. -/
def Fits (o : Out State) : Prop := o = .no ∨ ∃ s', o = .ok s' ∧ Inv s'

theorem Inv.tmoStep {s : State} (h : Inv s) (t : Nat) (l : Label) (hl : l = .remove t ∨ l = .fire t ∨ ∃ a, l = .fired t a) :
    Fits (step s l) := by
  cases hx : s.tmo t with
  | none =>
    left
    rcases hl with rfl | rfl | ⟨a, rfl⟩ <;> simp [step, hx]
  | some x =>
    obtain ⟨w1, w2, w3⟩ := (h.twf t x hx).1
    obtain ⟨loop, des, run, cbrefs, rem⟩ := x
    simp only at w1 w2 w3
    replace w2 := w2.symm
    subst w1
    subst w2
    have upd2 : ∀ (f : Nat → Option Tmo) a b, upd (upd f t a) t b = upd f t b := by
      intro f a b; funext d; unfold upd; split <;> rfl
    have key : ∀ (y : Option Tmo) (es : List Ev),
        step s l = .ok ((s.setTmo t y).see es) →
        es.foldl (nextTimer t) (some (timerOf (some { loop, destroyed := des, running := run
                                                      cbrefs := (!des).toNat + run.toNat, removed := des }))) =
          some (timerOf y) →
        (∀ z, y = some z → TWF z ∧ z.loop = loop) → es.all (Ev.aboutTmo t loop) = true →
        es.countP (· = .gone t) = y.elim 1 (fun _ => 0) → Fits (step s l) :=
      fun y es e h1 h2 h3 h4 => .inr ⟨_, e, h.onTmo hx h1 h2 h3 h4⟩
    rcases hl with rfl | rfl | ⟨a, rfl⟩
    · cases des
      · cases run
        · refine key none [.askedTimeout loop .remove t, .gone t] ?_ ?_ ?_ ?_ ?_
          · simp [step, hx, State.tmoUnref, State.setTmo, State.see, upd_same, upd2]
          · simp [nextTimer, timerOf]
          · simp
          · simp [Ev.aboutTmo]
          · simp
        · refine key (some { loop, destroyed := true, running := true, cbrefs := 1, removed := true })
            [.askedTimeout loop .remove t] ?_ ?_ ?_ ?_ ?_
          · simp [step, hx, State.tmoUnref, State.setTmo, State.see, upd_same, upd2]
          · simp [nextTimer, timerOf]
          · intro z hz; cases hz; exact ⟨⟨rfl, rfl, by simp⟩, rfl⟩
          · simp [Ev.aboutTmo]
          · simp
      · left; simp [step, hx]
    · cases des
      · cases run
        · refine key (some { loop, destroyed := false, running := true, cbrefs := 2, removed := false }) [.fire t] ?_ ?_ ?_ ?_ ?_
          · simp [step, hx, State.setTmo, State.see]
          · simp [nextTimer, timerOf]
          · intro z hz; cases hz; exact ⟨⟨rfl, rfl, by simp⟩, rfl⟩
          · simp [Ev.aboutTmo]
          · simp
        · left; simp [step, hx]
      · left; simp [step, hx]
    · cases run
      · left; simp [step, hx]
      · cases des
        · cases a
          · refine key none [.fired t false, .gone t] ?_ ?_ ?_ ?_ ?_
            · simp [step, hx, State.tmoUnref, State.setTmo, State.see, upd_same, upd2, Out.andThen]
            · simp [nextTimer, timerOf]
            · simp
            · simp [Ev.aboutTmo]
            · simp
          · refine key (some { loop, destroyed := false, running := false, cbrefs := 1, removed := false }) [.fired t true]
              ?_ ?_ ?_ ?_ ?_
            · simp [step, hx, State.tmoUnref, State.setTmo, State.see, upd_same, upd2, Out.andThen]
            · simp [nextTimer, timerOf]
            · intro z hz; cases hz; exact ⟨⟨rfl, rfl, by simp⟩, rfl⟩
            · simp [Ev.aboutTmo]
            · simp
        · refine key none [.fired t a, .gone t] ?_ ?_ ?_ ?_ ?_
          · cases a <;> simp [step, hx, State.tmoUnref, State.setTmo, State.see, upd_same, upd2, Out.andThen]
          · simp [nextTimer, timerOf]
          · simp
          · simp [Ev.aboutTmo]
          · simp

theorem Inv.step {s : State} (h : Inv s) (l : Label) : Fits (step s l) := by
  have known : ∀ c (f : Src → Done), (∀ x, WF x → x.users ≠ 0 → x.later = false → Okay c x.loop (.live (viewOf x)) (f x)) →
      Fits (match s.known c with
        | none => .no
        | some x => s.put c (f x)) := by
    intro c f hf
    cases hk : s.known c with
    | none => exact .inl rfl
    | some x =>
      obtain ⟨h1, h2, h3⟩ := State.known_some hk
      exact .inr (h.put h1 (hf x (h.wf c x h1).1 h2 h3))
  cases l with
  | set k => exact .inr (h.setLoop k)
  | new fin => exact .inr (h.addNew ok_new)
  | scheduleNew fin => exact .inr (h.addNew ok_scheduleNew)
  | later func fin => exact .inr (h.addNew ok_later)
  | ref c => exact known c _ fun x h1 h2 h3 => ok_ref h1 h2 h3
  | unref c => exact known c (fun x => userUnref c (some x)) fun x h1 h2 h3 => ok_unref h1 h2 h3
  | schedule c => exact known c _ fun x h1 h2 h3 => ok_schedule h1 h2 h3
  | cancel c => exact known c _ fun x h1 h2 h3 => ok_cancel h1 h2 h3
  | destroy c => exact known c _ fun x h1 h2 h3 => ok_destroy h1 h2 h3
  | start c =>
    simp only [EventLoop.step]
    cases hx : s.src c with
    | none => exact .inl rfl
    | some x =>
      simp only []
      split
      · exact .inl rfl
      · rename_i hn
        simp only [Bool.or_eq_true, Bool.not_eq_true', not_or, Bool.not_eq_true, Bool.not_eq_false] at hn
        exact .inr (h.put hx (ok_start (h.wf c x hx).1 hn.1.1 hn.1.2 hn.2))
  | stop c =>
    simp only [EventLoop.step]
    cases hx : s.src c with
    | none => exact .inl rfl
    | some x =>
      simp only []
      split
      · exact .inl rfl
      · rename_i hn
        simp only [Bool.not_eq_true', Bool.not_eq_false] at hn
        exact .inr (h.put hx (ok_stop (h.wf c x hx).1 hn))
  | add n => exact .inr ⟨_, rfl, h.addTmo n⟩
  | idle => exact .inr ⟨_, rfl, h.addTmo 0⟩
  | remove t => exact h.tmoStep t _ (.inl rfl)
  | fire t => exact h.tmoStep t _ (.inr (.inl rfl))
  | fired t a => exact h.tmoStep t _ (.inr (.inr ⟨a, rfl⟩))

end Gb.EventLoop
