import Verif.Lemmas.Proxy
/-
What becomes of the requests. The states are mapped to those of a smaller machine.
-/
set_option autoImplicit false

namespace Gb.Proxy

/-- Requests and transactions. -/
structure View where
  reqs : Nat
  txs : Nat
  flag : Nat → Option Bool
  opened : Nat → Option (Nat × Bool)
  log : List Ev

def view (s : State) : View where
  reqs := s.reqs
  txs := s.txs
  flag r := (s.req r).map (·.tx)
  opened t := (s.tx t).map fun x => (x.req, x.replied)
  log := s.log

/-- The event is about proxies and remote objects. -/
def quiet : Ev → Bool
  | .received .. | .forwarded .. | .replied .. | .answered .. => false
  | _ => true

/-- Steps of the smaller machine. -/
inductive Move (v : View) : View → Prop
  | quiet (l : List Ev) : l.all quiet = true → Move v { v with log := v.log ++ l }
  | forward (looper : Bool) (p ipc handle c f : Nat) :
      Move v {
        reqs := v.reqs + 1, txs := v.txs + 1
        flag := upd v.flag v.reqs (some looper), opened := upd v.opened v.txs (some (v.reqs, false))
        log := v.log ++ ([.received v.reqs p looper c f, .forwarded v.reqs v.txs ipc handle c f] ++
          if looper then [] else [.answered v.reqs none 0]) }
  | refuse (looper : Bool) (p c f : Nat) :
      Move v { v with
        reqs := v.reqs + 1, flag := upd v.flag v.reqs (some false)
        log := v.log ++ [.received v.reqs p looper c f, .answered v.reqs none ebadmsg] }
  | result (t r : Nat) (b : Bool) (rep : Option Nat) (st : Int) (l : List Ev) : v.opened t = some (r, false) →
      v.flag r = some b → l.all Proxy.quiet = true →
      Move v { v with
        flag := upd v.flag r (some false), opened := upd v.opened t (some (r, true))
        log := v.log ++ ([.replied t rep st] ++ l ++
          if b then [.answered r rep (if st > 0 then efault else st)] else []) }
  | close (t : Nat) : Move v { v with opened := upd v.opened t none }
  | free (r : Nat) (b : Bool) : v.flag r = some b →
      Move v { v with
        flag := upd v.flag r none
        log := v.log ++ if b then [.answered r none ecanceled] else [] }

/-! ### The smaller machine -/

theorem life_append (r : Nat) (a b : List Ev) :
    life r (a ++ b) = b.foldl (fun ph e => ph.bind fun ph => next r ph e) (life r a) := by
  simp [life, List.foldl_append]

theorem life_quiet (r : Nat) (a : List Ev) {l : List Ev} (h : l.all quiet = true) : life r (a ++ l) = life r a := by
  rw [life_append]
  induction l generalizing a with
  | nil => rfl
  | cons e l ih =>
    rw [List.all_cons, Bool.and_eq_true] at h
    have : ((life r a).bind fun ph => next r ph e) = life r a := by
      cases life r a with
      | none => rfl
      | some ph => cases e <;> simp_all [quiet, next]
    rw [List.foldl_cons, this]
    exact ih a h.2

/-- Only what is about the request matters. -/
theorem life_other (r : Nat) (a : List Ev) (e : Ev) (h1 : ∀ p l c f, e ≠ .received r p l c f)
    (h2 : ∀ t i h c f, e ≠ .forwarded r t i h c f) (h3 : ∀ rep st, e ≠ .answered r rep st)
    (h4 : ∀ t rep st, e = .replied t rep st → life r a ≠ some (.sent t)) : life r (a ++ [e]) = life r a := by
  rw [life_append, List.foldl_cons, List.foldl_nil]
  cases hl : life r a with
  | none => rfl
  | some ph =>
    cases e with
    | received r' p l c f => simp only [Option.bind_some, next]; rw [if_neg]; intro hh; subst hh; exact h1 p l c f rfl
    | forwarded r' t i h c f => simp only [Option.bind_some, next]; rw [if_neg]; intro hh; subst hh; exact h2 t i h c f rfl
    | answered r' rep st => simp only [Option.bind_some, next]; rw [if_neg]; intro hh; subst hh; exact h3 rep st rfl
    | replied t rep st =>
      simp only [Option.bind_some, next]; rw [if_neg]
      intro h; exact h4 t rep st rfl (by rw [hl, h])
    | _ => rfl

/-- Requests which have been received aren't new. -/
theorem not_new {r p c f : Nat} {lo : Bool} {log : List Ev} (h : .received r p lo c f ∈ log) :
    life r log ≠ some .new := by
  obtain ⟨a, b, rfl⟩ := List.append_of_mem h
  rw [life_append, List.foldl_cons]
  have hstep : ∀ ph e, ph ≠ Phase.new → next r ph e ≠ some .new := by
    intro ph e hph
    cases e <;> simp only [next] <;> (repeat' split) <;> simp_all
  have hfold : ∀ (l : List Ev) (ph : Option Phase), ph ≠ some .new →
      l.foldl (fun ph e => ph.bind fun ph => next r ph e) ph ≠ some .new := by
    intro l
    induction l with
    | nil => intro ph h; exact h
    | cons e l ih =>
      intro ph h
      rw [List.foldl_cons]
      apply ih
      cases ph with
      | none => simp
      | some ph => exact hstep ph e (fun he => h (he ▸ rfl))
  apply hfold
  cases life r a with
  | none => simp
  | some ph => simp only [Option.bind_some, next, if_true]; split <;> simp

/-- No looper has received it. -/
def Nested (r : Nat) (log : List Ev) : Prop := ∀ p c f, .received r p true c f ∉ log

theorem Nested.append {r : Nat} {log l : List Ev} (h : Nested r log) (hl : ∀ p c f, .received r p true c f ∉ l) :
    Nested r (log ++ l) := fun p c f hm => by
  rcases List.mem_append.1 hm with hm | hm
  · exact h p c f hm
  · exact hl p c f hm

/-- Where a request may be. -/
def Cur (v : View) (r : Nat) : Prop :=
  (Nested r v.log ∧ v.flag r ≠ some true) ∨
  (life r v.log = some .done ∧ v.flag r ≠ some true) ∨
  (∃ t, t < v.txs ∧ life r v.log = some (.sent t) ∧ v.flag r = some true ∧
    ∀ x, v.opened t = some x → x = (r, false))

structure Good (v : View) : Prop where
  fresh : ∀ r, v.reqs ≤ r → life r v.log = some .new ∧ v.flag r = none
  cur : ∀ r, r < v.reqs → Cur v r
  uniq : ∀ t r b, v.opened t = some (r, b) → t < v.txs ∧ r < v.reqs ∧
    (v.flag r = some true → life r v.log = some (.sent t))
  once : ∀ r, answers r v.log = if r < v.reqs ∧ v.flag r ≠ some true then 1 else 0

theorem Good.init : Good (view {}) where
  fresh _ _ := ⟨rfl, rfl⟩
  cur _ h := by simp [view] at h
  uniq _ _ _ h := by simp [view] at h
  once _ := by simp [view, answers]

theorem answers_append (r : Nat) (a b : List Ev) : answers r (a ++ b) = answers r a + answers r b :=
  List.countP_append

theorem answers_quiet (r : Nat) {l : List Ev} (h : l.all quiet = true) : answers r l = 0 := by
  rw [answers, List.countP_eq_zero]
  intro e he
  have := List.all_eq_true.1 h e he
  cases e <;> simp_all [quiet]

theorem Good.move {v v' : View} (h : Good v) (hm : Move v v') : Good v' := by
  obtain ⟨fresh, cur, uniq, once⟩ := h
  cases hm with
  | quiet l hl =>
    refine ⟨fun r hr => ?_, fun r hr => ?_, fun t r b ho => ?_, fun r => ?_⟩
    · simp only [life_quiet r v.log hl]; exact fresh r hr
    · rcases cur r hr with ⟨hi, h⟩ | ⟨h1, h2⟩ | ⟨t, h1, h2, h3⟩
      · exact .inl ⟨hi.append fun p c f hm => (by simpa [Proxy.quiet] using List.all_eq_true.1 hl _ hm), h⟩
      · exact .inr (.inl ⟨by rw [life_quiet r v.log hl]; exact h1, h2⟩)
      · exact .inr (.inr ⟨t, h1, by rw [life_quiet r v.log hl]; exact h2, h3⟩)
    · simp only [life_quiet r v.log hl]; exact uniq t r b ho
    · simp only [answers_append, answers_quiet r hl]; exact once r
  | forward looper p ipc handle c f =>
    have hnew := (fresh v.reqs (Nat.le_refl _)).1
    have hother : ∀ r, r ≠ v.reqs → life r (v.log ++ ([.received v.reqs p looper c f,
        .forwarded v.reqs v.txs ipc handle c f] ++ if looper then [] else [.answered v.reqs none 0])) = life r v.log := by
      intro r hr
      have hr' : ¬ v.reqs = r := Ne.symm hr
      rw [life_append]
      cases life r v.log <;> cases looper <;> simp [next, hr']
    have hans : ∀ r, answers r ([.received v.reqs p looper c f,
        .forwarded v.reqs v.txs ipc handle c f] ++ if looper then [] else [.answered v.reqs none 0]) =
          if r = v.reqs ∧ looper = false then 1 else 0 := by
      intro r
      cases looper
      · by_cases hr : r = v.reqs
        · subst hr; simp [answers]
        · simp [answers, hr, Ne.symm hr]
      · simp [answers]
    refine ⟨fun r hr => ?_, fun r hr => ?_, fun t r b ho => ?_, fun r => ?_⟩
    · have hne : r ≠ v.reqs := fun he => by simp only [he] at hr; omega
      simp only [upd_ne _ _ hne, hother r hne]
      exact fresh r (by simp only [] at hr; omega)
    · by_cases hr' : r = v.reqs
      · subst hr'
        cases looper
        · refine .inl ⟨Nested.append (fun p c f hm => not_new hm hnew) ?_, by simp [upd_same]⟩
          intro p c f; simp
        · refine .inr (.inr ⟨v.txs, by simp, ?_, upd_same _ _ _, ?_⟩)
          · simp only [life_append, hnew]; simp [next]
          · intro x hx; simp only [upd_same] at hx; cases hx; rfl
      · simp only [Cur, upd_ne _ _ hr', hother r hr']
        rcases cur r (by simp only [] at hr; omega) with ⟨hi, h⟩ | ⟨h1, h2⟩ | ⟨t, h1, h2, h3, h4⟩
        · exact .inl ⟨hi.append (fun p c f => by cases looper <;> simp [hr']), h⟩
        · exact .inr (.inl ⟨h1, h2⟩)
        · refine .inr (.inr ⟨t, by omega, h2, h3, fun x hx => ?_⟩)
          rw [upd_ne _ _ (by omega)] at hx
          exact h4 x hx
    · simp only [] at ho ⊢
      by_cases ht : t = v.txs
      · subst ht; rw [upd_same] at ho; cases ho
        refine ⟨by omega, by omega, fun hf => ?_⟩
        rw [upd_same] at hf; cases hf
        rw [life_append, hnew]; simp [next]
      · rw [upd_ne _ _ ht] at ho
        obtain ⟨u1, u2, u3⟩ := uniq t r b ho
        have hne : r ≠ v.reqs := by omega
        rw [hother r hne, upd_ne _ _ hne]
        exact ⟨by omega, by omega, u3⟩
    · show answers r (v.log ++ _) = _
      rw [answers_append, hans, once]
      by_cases hr : r = v.reqs
      · subst hr; simp only [upd_same]; cases looper <;> simp
      · simp only [upd_ne _ _ hr, hr, false_and, if_false, Nat.add_zero]
        have : r < v.reqs + 1 ↔ r < v.reqs := by omega
        simp only [this]
  | refuse looper p c f =>
    have hnew := (fresh v.reqs (Nat.le_refl _)).1
    have hother : ∀ r, r ≠ v.reqs → life r (v.log ++ [.received v.reqs p looper c f, .answered v.reqs none ebadmsg]) =
        life r v.log := by
      intro r hr
      have hr' : ¬ v.reqs = r := Ne.symm hr
      rw [life_append]
      cases life r v.log <;> simp [next, hr']
    refine ⟨fun r hr => ?_, fun r hr => ?_, fun t r b ho => ?_, fun r => ?_⟩
    · have hne : r ≠ v.reqs := fun he => by simp only [he] at hr; omega
      simp only [upd_ne _ _ hne, hother r hne]
      exact fresh r (by simp only [] at hr; omega)
    · by_cases hr' : r = v.reqs
      · subst hr'
        refine .inr (.inl ⟨?_, by simp [upd_same]⟩)
        simp only [life_append, hnew]; simp [next, ebadmsg]
      · simp only [Cur, upd_ne _ _ hr', hother r hr']
        rcases cur r (by simp only [] at hr; omega) with ⟨hi, h⟩ | ⟨h1, h2⟩ | ⟨t, h1, h2, h3, h4⟩
        · exact .inl ⟨hi.append (fun p c f => by simp [hr']), h⟩
        · exact .inr (.inl ⟨h1, h2⟩)
        · exact .inr (.inr ⟨t, h1, h2, h3, h4⟩)
    · simp only [] at ho ⊢
      obtain ⟨u1, u2, u3⟩ := uniq t r b ho
      have hne : r ≠ v.reqs := by omega
      rw [hother r hne, upd_ne _ _ hne]
      exact ⟨by omega, by omega, u3⟩
    · simp only [answers_append, once]
      by_cases hr : r = v.reqs
      · subst hr; simp [upd_same, answers]
      · have : answers r [.received v.reqs p looper c f, .answered v.reqs none ebadmsg] = 0 := by
          simp [answers, Ne.symm hr]
        simp only [this, upd_ne _ _ hr]
        have : r < v.reqs + 1 ↔ r < v.reqs := by omega
        simp only [this, Nat.add_zero]
  | result t r b rep st l ho hf hl =>
    obtain ⟨u1, u2, u3⟩ := uniq t r _ ho
    have hnr : ∀ {r' : Nat} p c f, .received r' p true c f ∉ ([.replied t rep st] ++ l ++
        if b then [.answered r rep (if st > 0 then efault else st)] else [] : List Ev) := by
      intro r' p c f hm
      rcases List.mem_append.1 hm with hm | hm
      · rcases List.mem_append.1 hm with hm | hm
        · simp at hm
        · simpa [Proxy.quiet] using List.all_eq_true.1 hl _ hm
      · cases b <;> simp at hm
    -- the phase of other requests
    have hother : ∀ r', r' ≠ r → Cur v r' → (Nested r' v.log ∨
        life r' (v.log ++ ([.replied t rep st] ++ l ++
          if b then [.answered r rep (if st > 0 then efault else st)] else [])) = life r' v.log) := by
      intro r' hr hc
      have hr' : ¬ r = r' := Ne.symm hr
      rcases hc with ⟨h1, _⟩ | ⟨h1, _⟩ | ⟨t', h0, h1, h2, h3⟩
      · exact .inl h1
      · right
        rw [List.append_assoc, ← List.append_assoc, ← List.append_assoc]
        have e1 : life r' (v.log ++ [.replied t rep st]) = life r' v.log :=
          life_other _ _ _ (by simp) (by simp) (by simp) (fun _ _ _ _ => by rw [h1]; simp)
        have e2 := life_quiet r' (v.log ++ [.replied t rep st]) hl
        cases b
        · simp only [Bool.false_eq_true, if_false, List.append_nil]; rw [e2, e1]
        · simp only [if_true]
          rw [life_other, e2, e1] <;> simp [hr']
      · right
        have hne : t' ≠ t := fun he => by subst he; have := h3 _ ho; simp at this; exact hr' this
        rw [List.append_assoc, ← List.append_assoc, ← List.append_assoc]
        have e1 : life r' (v.log ++ [.replied t rep st]) = life r' v.log :=
          life_other _ _ _ (by simp) (by simp) (by simp) (fun _ _ _ he => by cases he; rw [h1]; simp [hne])
        have e2 := life_quiet r' (v.log ++ [.replied t rep st]) hl
        cases b
        · simp only [Bool.false_eq_true, if_false, List.append_nil]; rw [e2, e1]
        · simp only [if_true]
          rw [life_other, e2, e1] <;> simp [hr']
    have hfresh : ∀ r', v.reqs ≤ r' → life r' (v.log ++ ([.replied t rep st] ++ l ++
          if b then [.answered r rep (if st > 0 then efault else st)] else [])) = life r' v.log := by
      intro r' hr
      have h1 := (fresh r' hr).1
      have hr' : ¬ r = r' := by omega
      rw [List.append_assoc, ← List.append_assoc, ← List.append_assoc]
      have e1 : life r' (v.log ++ [.replied t rep st]) = life r' v.log :=
        life_other _ _ _ (by simp) (by simp) (by simp) (fun _ _ _ _ => by rw [h1]; simp)
      have e2 := life_quiet r' (v.log ++ [.replied t rep st]) hl
      cases b
      · simp only [Bool.false_eq_true, if_false, List.append_nil]; rw [e2, e1]
      · simp only [if_true]
        rw [life_other, e2, e1] <;> simp [hr']
    refine ⟨fun r' hr' => ?_, fun r' hr' => ?_, fun t' r' b' ho' => ?_, fun r' => ?_⟩
    · have hne : r' ≠ r := fun he => by simp only [he] at hr'; omega
      simp only [upd_ne _ _ hne, hfresh r' hr']
      exact fresh r' hr'
    · by_cases hr : r' = r
      · subst hr
        rcases cur r' u2 with ⟨hi, h⟩ | ⟨h1, h2⟩ | ⟨t', h1, h2, h3, h4⟩
        · exact .inl ⟨hi.append hnr, by simp [upd_same]⟩
        · refine .inr (.inl ⟨?_, by simp [upd_same]⟩)
          have hb : b = false := by cases b <;> simp_all
          subst hb
          simp only [Bool.false_eq_true, if_false, List.append_nil]
          rw [← List.append_assoc, life_quiet _ _ hl, life_other _ _ _ (by simp) (by simp) (by simp)
            (fun _ _ _ _ => by rw [h1]; simp)]
          exact h1
        · refine .inr (.inl ⟨?_, by simp [upd_same]⟩)
          have hb : b = true := by rw [hf] at h3; exact Option.some.inj h3
          subst hb
          have hs := u3 h3
          simp only [if_true]
          rw [← List.append_assoc, life_append, ← List.append_assoc, life_quiet _ _ hl, life_append, hs]
          simp [next, efault]
      · have hc := cur r' hr'
        simp only [Cur, upd_ne _ _ hr]
        rcases hother r' hr hc with hi | he
        · rcases hc with ⟨_, h⟩ | ⟨_, h⟩ | ⟨t', h1, h2, h3, h4⟩
          · exact .inl ⟨hi.append hnr, h⟩
          · exact .inl ⟨hi.append hnr, h⟩
          · refine .inr (.inr ⟨t', h1, ?_, h3, ?_⟩)
            · rw [← h2]
              have hne : t' ≠ t := fun he => by subst he; have := h4 _ ho; simp at this; exact hr this.symm
              rw [List.append_assoc, ← List.append_assoc, ← List.append_assoc]
              have e1 : life r' (v.log ++ [.replied t rep st]) = life r' v.log :=
                life_other _ _ _ (by simp) (by simp) (by simp) (fun _ _ _ he => by cases he; rw [h2]; simp [hne])
              have e2 := life_quiet r' (v.log ++ [.replied t rep st]) hl
              cases b
              · simp only [Bool.false_eq_true, if_false, List.append_nil]; rw [e2, e1]
              · simp only [if_true]
                rw [life_other, e2, e1] <;> simp [Ne.symm hr]
            · intro x hx
              have hne : t' ≠ t := fun he => by subst he; have := h4 _ ho; simp at this; exact hr this.symm
              rw [upd_ne _ _ hne] at hx
              exact h4 x hx
        · rw [he]
          rcases hc with ⟨hi, h⟩ | ⟨h1, h2⟩ | ⟨t', h1, h2, h3, h4⟩
          · exact .inl ⟨hi.append hnr, h⟩
          · exact .inr (.inl ⟨h1, h2⟩)
          · refine .inr (.inr ⟨t', h1, h2, h3, fun x hx => ?_⟩)
            have hne : t' ≠ t := fun he => by subst he; have := h4 _ ho; simp at this; exact hr this.symm
            rw [upd_ne _ _ hne] at hx
            exact h4 x hx
    · simp only [] at ho' ⊢
      by_cases ht : t' = t
      · subst ht; rw [upd_same] at ho'; cases ho'
        exact ⟨u1, u2, fun h => by rw [upd_same] at h; cases h⟩
      · rw [upd_ne _ _ ht] at ho'
        obtain ⟨w1, w2, w3⟩ := uniq t' r' b' ho'
        refine ⟨w1, w2, fun h => ?_⟩
        by_cases hr : r' = r
        · subst hr; rw [upd_same] at h; cases h
        · rw [upd_ne _ _ hr] at h
          have hs := w3 h
          rw [List.append_assoc, ← List.append_assoc, ← List.append_assoc]
          have e1 : life r' (v.log ++ [.replied t rep st]) = life r' v.log :=
            life_other _ _ _ (by simp) (by simp) (by simp) (fun _ _ _ he => by cases he; rw [hs]; simp [ht])
          have e2 := life_quiet r' (v.log ++ [.replied t rep st]) hl
          rw [← hs]
          cases b
          · simp only [Bool.false_eq_true, if_false, List.append_nil]; rw [e2, e1]
          · simp only [if_true]
            rw [life_other, e2, e1] <;> simp [Ne.symm hr]
    · simp only [answers_append, answers_quiet r' hl, once]
      have h0 : answers r' [.replied t rep st] = 0 := by simp [answers]
      rw [h0]
      by_cases hr : r' = r
      · subst hr
        cases b
        · simp [upd_same, hf, u2, answers]
        · simp [upd_same, hf, u2, answers]
      · simp only [upd_ne _ _ hr]
        cases b <;> simp [answers, Ne.symm hr]
  | close t =>
    refine ⟨fresh, fun r hr => ?_, fun t' r b ho => ?_, once⟩
    · rcases cur r hr with h | h | ⟨t', h1, h2, h3, h4⟩
      · exact .inl h
      · exact .inr (.inl h)
      · refine .inr (.inr ⟨t', h1, h2, h3, fun x hx => ?_⟩)
        simp only [] at hx
        by_cases ht : t' = t
        · subst ht; rw [upd_same] at hx; cases hx
        · rw [upd_ne _ _ ht] at hx; exact h4 x hx
    · simp only [] at ho
      by_cases ht : t' = t
      · subst ht; rw [upd_same] at ho; cases ho
      · rw [upd_ne _ _ ht] at ho; exact uniq t' r b ho
  | free r b hf =>
    have hlt : r < v.reqs := by
      by_cases h : r < v.reqs
      · exact h
      · rw [(fresh r (by omega)).2] at hf; cases hf
    have hother : ∀ r', r' ≠ r → life r' (v.log ++ if b then [.answered r none ecanceled] else []) = life r' v.log := by
      intro r' hr
      cases b
      · simp
      · simp only [if_true]; rw [life_other] <;> simp [Ne.symm hr]
    refine ⟨fun r' hr' => ?_, fun r' hr' => ?_, fun t' r' b' ho' => ?_, fun r' => ?_⟩
    · have hne : r' ≠ r := fun he => by simp only [he] at hr'; omega
      simp only [upd_ne _ _ hne, hother r' hne]
      exact fresh r' hr'
    · by_cases hr : r' = r
      · subst hr
        rcases cur r' hlt with ⟨hi, h⟩ | ⟨h1, h2⟩ | ⟨t', h1, h2, h3, h4⟩
        · exact .inl ⟨hi.append (fun p c f => by cases b <;> simp), by simp [upd_same]⟩
        · refine .inr (.inl ⟨?_, by simp [upd_same]⟩)
          have hb : b = false := by cases b <;> simp_all
          subst hb
          simpa using h1
        · refine .inr (.inl ⟨?_, by simp [upd_same]⟩)
          have hb : b = true := by rw [hf] at h3; exact Option.some.inj h3
          subst hb
          simp only [if_true, life_append, h2]
          simp [next, ecanceled]
      · simp only [Cur, upd_ne _ _ hr, hother r' hr]
        rcases cur r' hr' with ⟨hi, h⟩ | h | h
        · exact .inl ⟨hi.append (fun p c f => by cases b <;> simp), h⟩
        · exact .inr (.inl h)
        · exact .inr (.inr h)
    · obtain ⟨w1, w2, w3⟩ := uniq t' r' b' ho'
      refine ⟨w1, w2, fun h => ?_⟩
      simp only [] at h ⊢
      by_cases hr : r' = r
      · subst hr; rw [upd_same] at h; cases h
      · rw [upd_ne _ _ hr] at h; rw [hother r' hr]; exact w3 h
    · simp only [answers_append, once]
      by_cases hr : r' = r
      · subst hr
        cases b <;> simp [upd_same, hf, hlt, answers]
      · simp only [upd_ne _ _ hr]
        cases b <;> simp [answers, Ne.symm hr]

/-! ### Steps -/

theorem view_eq {s' : State} {v : View} (h1 : s'.reqs = v.reqs) (h2 : s'.txs = v.txs)
    (h3 : ∀ r, (s'.req r).map (·.tx) = v.flag r) (h4 : ∀ t, (s'.tx t).map (fun x => (x.req, x.replied)) = v.opened t)
    (h5 : s'.log = v.log) : view s' = v := by
  obtain ⟨a, b, c, d, e⟩ := v
  simp only [view, View.mk.injEq]
  exact ⟨h1, h2, funext h3, funext h4, h5⟩

/-- Nothing that requests have to do with. -/
theorem Good.quiet {s s' : State} (h : Good (view s)) (h1 : s'.reqs = s.reqs) (h2 : s'.txs = s.txs)
    (h3 : ∀ r, (s'.req r).map (·.tx) = (s.req r).map (·.tx))
    (h4 : ∀ t, (s'.tx t).map (fun x => (x.req, x.replied)) = (s.tx t).map fun x => (x.req, x.replied))
    (h5 : ∃ l, l.all Proxy.quiet = true ∧ s'.log = s.log ++ l) : Good (view s') := by
  obtain ⟨l, hl, h5⟩ := h5
  rw [view_eq (v := { view s with log := s.log ++ l }) h1 h2 h3 h4 h5]
  exact h.move (.quiet l hl)

theorem last_quiet (p : Nat) (o : Obj) : (last p o).all Proxy.quiet = true := by
  unfold last; split <;> rfl

theorem objUnref_quiet {s s' : State} {p : Nat} {m : Bool} (h : s.objUnref p m = .ok s') :
    Frame s s' ∧ ∃ l, l.all quiet = true ∧ s'.log = s.log ++ l := by
  obtain ⟨o, _, hf, _, ⟨_, _, hl⟩ | ⟨_, hl, _⟩⟩ := objUnref_spec h
  · exact ⟨hf, _, last_quiet p o, hl⟩
  · exact ⟨hf, [], rfl, by simp [hl]⟩

theorem dequeue_quiet {s s' : State} {t : Nat} {x : Tx} (hx : s.tx t = some x) (h : s.dequeue t = .ok s') :
    ∃ l, l.all quiet = true ∧ s'.log = s.log ++ l := by
  simp only [State.dequeue, hx] at h
  split at h
  · cases h; exact ⟨[], rfl, by simp⟩
  · split at h
    · cases h
    · split at h
      · exact (objUnref_quiet h).2
      · cases h

theorem Good.reqUnref {s s' : State} {r : Nat} {m : Bool} (h : Good (view s)) (hs : s.reqUnref r m = .ok s') :
    Good (view s') := by
  simp only [State.reqUnref] at hs
  split at hs
  · cases hs
  · rename_i x hx
    split at hs <;> cases hs
    · have hm := h.move (.free r x.tx (by simp [view, hx]))
      rw [view_eq _ _ _ _ _]
      · exact hm
      · split <;> rfl
      · split <;> rfl
      · intro r'
        by_cases hr : r' = r
        · subst hr; simp [State.setReq, upd_same]
        · cases x.tx <;> simp [State.setReq, State.see, upd_ne _ _ hr, view]
      · intro t; cases x.tx <;> rfl
      · cases x.tx <;> simp [State.setReq, State.see, view]
    · refine h.quiet rfl rfl (fun r' => ?_) (fun _ => rfl) ⟨[], rfl, by simp [State.setReq]⟩
      by_cases hr : r' = r
      · subst hr; simp [State.setReq, upd_same, hx]
      · simp [State.setReq, upd_ne _ _ hr]

theorem Good.step {s s' : State} (hg : Good (view s)) (h : Inv [] [] [] s) {l : Label} (hok : Ok s l)
    (hs : step s l = .ok s') : Good (view s') := by
  unfold Ok at hok
  cases l with
  | newRemote ipc handle => cases hs; exact hg.quiet rfl rfl (fun _ => rfl) (fun _ => rfl) ⟨_, rfl, rfl⟩
  | refRemote rm =>
    simp only [Proxy.step] at hs
    split at hs <;> cases hs
    exact hg.quiet rfl rfl (fun _ => rfl) (fun _ => rfl) ⟨[], rfl, by simp [State.setRemote]⟩
  | unrefRemote rm =>
    obtain ⟨hf, _, hl, _⟩ := remoteUnref_spec hs
    exact hg.quiet hf.reqs hf.txs (fun _ => by rw [hf.req]) (fun _ => by rw [hf.tx]) ⟨[], rfl, by simp [hl]⟩
  | die rm =>
    simp only [Proxy.step] at hs
    split at hs <;> cases hs
    exact hg.quiet rfl rfl (fun _ => rfl) (fun _ => rfl) ⟨[.dead rm], rfl, rfl⟩
  | new ipc rm =>
    simp only [Proxy.step, State.create] at hs
    split at hs <;> cases hs
    exact hg.quiet rfl rfl (fun _ => rfl) (fun _ => rfl) ⟨[.made s.no ipc rm], rfl, rfl⟩
  | find ipc rm p =>
    simp only [Proxy.step] at hs
    split at hs
    · cases hs
    · split at hs
      · split at hs
        · cases hs
        · split at hs <;> cases hs
          exact hg.quiet rfl rfl (fun _ => rfl) (fun _ => rfl) ⟨[], rfl, by simp [State.setObj]⟩
      · split at hs
        · cases hs
        · split at hs
          · cases hs; exact hg
          · simp only [State.create] at hs
            split at hs <;> cases hs
            exact hg.quiet rfl rfl (fun _ => rfl) (fun _ => rfl) ⟨[.made s.no ipc rm], rfl, rfl⟩
  | ref p =>
    simp only [Proxy.step] at hs
    split at hs <;> cases hs
    exact hg.quiet rfl rfl (fun _ => rfl) (fun _ => rfl) ⟨[], rfl, by simp [State.setObj]⟩
  | unref p =>
    obtain ⟨hf, l, hl, he⟩ := objUnref_quiet hs
    exact hg.quiet hf.reqs hf.txs (fun _ => by rw [hf.req]) (fun _ => by rw [hf.tx]) ⟨l, hl, he⟩
  | acquire p =>
    simp only [Proxy.step] at hs
    split at hs
    · cases hs
    · rename_i o ho
      split at hs
      · cases hs
      · split at hs <;> cases hs
        · exact hg.quiet rfl rfl (fun _ => rfl) (fun _ => rfl) ⟨[.acquire p o.remote], rfl, rfl⟩
        · exact hg
  | drop p =>
    simp only [Proxy.step] at hs
    split at hs
    · cases hs
    · obtain ⟨hf, l, hl, he⟩ := objUnref_quiet hs
      exact hg.quiet hf.reqs hf.txs (fun _ => by rw [hf.req]; rfl) (fun _ => by rw [hf.tx]; rfl)
        ⟨.dropped p :: l, by simp [hl, Proxy.quiet], by rw [he]; simp [State.see, State.setObj]⟩
  | handle p looper code flags =>
    simp only [Proxy.step] at hs
    split at hs
    · cases hs
    · split at hs
      · cases hs
      · rename_i o ho
        split at hs
        · cases hs
        · rename_i x hx
          split at hs <;> cases hs
          · have hm := hg.move (.forward looper p x.ipc x.handle code flags)
            rw [view_eq _ _ _ _ _]
            · exact hm
            · rfl
            · rfl
            · intro r
              by_cases hr : r = s.reqs
              · subst hr; simp [State.setReq, State.setTx, State.setObj, State.see, view, upd_same]
              · simp [State.setReq, State.setTx, State.setObj, State.see, view, upd_ne _ _ hr]
            · intro t
              by_cases hr : t = s.txs
              · subst hr; simp [State.setReq, State.setTx, State.setObj, State.see, view, upd_same]
              · simp [State.setReq, State.setTx, State.setObj, State.see, view, upd_ne _ _ hr]
            · rfl
          · have hm := hg.move (.refuse looper p code flags)
            rw [view_eq _ _ _ _ _]
            · exact hm
            · rfl
            · rfl
            · intro r
              by_cases hr : r = s.reqs
              · subst hr; simp [State.setReq, State.see, view, upd_same]
              · simp [State.setReq, State.see, view, upd_ne _ _ hr]
            · intro t; rfl
            · rfl
  | refReq r =>
    simp only [Proxy.step] at hs
    split at hs
    · cases hs
    · rename_i x hx
      cases hs
      refine hg.quiet rfl rfl (fun r' => ?_) (fun _ => rfl) ⟨[], rfl, by simp [State.setReq]⟩
      by_cases hr : r' = r
      · subst hr; simp [State.setReq, upd_same, hx]
      · simp [State.setReq, upd_ne _ _ hr]
  | unrefReq r => exact hg.reqUnref hs
  | reply t rep st =>
    obtain ⟨x, hx, hh⟩ := some_of_any hok
    have hrep : x.replied = false := by simpa using hh
    simp only [Proxy.step, hx] at hs
    split at hs
    · cases hs
    · split at hs
      · cases hs
      · split at hs
        · cases hs
        · have hx1 : ((s.setTx t (some { x with replied := true })).see [.replied t rep st]).tx t =
            some { x with replied := true } := upd_same _ _ _
          cases hd : ((s.setTx t (some { x with replied := true })).see [.replied t rep st]).dequeue t with
          | no => rw [hd] at hs; cases hs
          | ub => rw [hd] at hs; cases hs
          | ok s1 =>
            obtain ⟨ht1, hn1, _, hq1, hr1⟩ := dequeue_tx hx1 hd
            obtain ⟨l, hl, hlog⟩ := dequeue_quiet hx1 hd
            rw [hd] at hs
            simp only [Out.andThen] at hs
            obtain ⟨q, hq⟩ := h.there hx
            have hq' : s1.req x.req = some q := by rw [hq1]; exact hq
            simp only [State.complete, hq'] at hs
            have hm := hg.move (.result t x.req q.tx rep st l (by simp [view, hx, hrep]) (by simp [view, hq]) hl)
            rw [view_eq _ _ _ _ _]
            · exact hm
            · cases hs; cases q.tx <;> (split <;> exact hr1)
            · cases hs; cases q.tx <;> (split <;> exact hn1)
            · intro r
              cases hs
              have hrq : s1.req r = s.req r := by rw [hq1]; rfl
              by_cases hr : r = x.req
              · subst hr
                cases hqt : q.tx <;> (split <;> simp [State.setReq, State.see, upd_same, hq', hqt])
              · cases q.tx <;> (split <;> simp [State.setReq, State.see, upd_ne _ _ hr, hrq, view])
            · intro t'
              cases hs
              have hs1 : (s1.tx t').map (fun x => (x.req, x.replied)) =
                  upd (view s).opened t (some (x.req, true)) t' := by
                rw [ht1]
                by_cases ht : t' = t
                · subst ht; simp [upd_same]
                · simp [upd_ne _ _ ht, State.see, State.setTx, view]
              cases q.tx <;> (split <;> exact hs1)
            · cases hs
              cases q.tx <;> (split <;> simp [State.setReq, State.see, State.setTx, hlog, view])
  | suicide =>
    simp only [Proxy.step] at hs
    split at hs
    · cases hs
    · split at hs
      · cases hs
      · rename_i o ho
        split at hs <;> cases hs
        exact hg.quiet rfl rfl (fun _ => rfl) (fun _ => rfl) ⟨[.dead o.remote], rfl, rfl⟩
  | destroy t =>
    obtain ⟨x, hx⟩ := Option.isSome_iff_exists.1 hok
    simp only [Proxy.step, hx] at hs
    split at hs
    · cases hs
    · cases hd : s.dequeue t with
      | no => rw [hd] at hs; cases hs
      | ub => rw [hd] at hs; cases hs
      | ok s1 =>
        obtain ⟨ht1, hn1, _, hq1, hr1⟩ := dequeue_tx hx hd
        rw [hd] at hs
        simp only [Out.andThen] at hs
        refine Good.reqUnref ?_ hs
        have hg1 : Good (view s1) := by
          refine hg.quiet hr1 hn1 (fun r => by rw [hq1]) (fun t' => ?_) (dequeue_quiet hx hd)
          rw [ht1]
          by_cases ht : t' = t
          · subst ht; simp [upd_same, hx]
          · simp [upd_ne _ _ ht]
        have hm := hg1.move (.close t)
        rw [view_eq _ _ _ _ _]
        · exact hm
        · rfl
        · rfl
        · intro r; rfl
        · intro t'
          by_cases ht : t' = t
          · subst ht; simp [State.setTx, upd_same]
          · simp [State.setTx, upd_ne _ _ ht, view]
        · rfl

end Gb.Proxy
