import Verif.Spec.Nested
/-
Helper lemmas about nested calls.
-/
set_option autoImplicit false

namespace Gb.Nested

/-- What the thread should do about a command, if that's what it may get. -/
def reactOk : List Frame → Work → Option (List Frame)
  | .oneway :: fs, .complete => some fs
  | .replied :: fs, .complete => some fs
  | .call k :: fs, .complete => some (.call k :: fs)
  | [], .transaction i => some [.handle i]
  | .call k :: fs, .transaction i => some (.handle i :: .call k :: fs)
  | .call k :: fs, .reply i => if k = i then some fs else none
  | .call k :: fs, .error (some i) => if k = i then some fs else none
  | .oneway :: fs, .error none => some fs
  | _, _ => none

/-- What becomes of the thread when it has read everything. -/
def run : List Frame → List Work → Option (List Frame)
  | fs, [] => some fs
  | fs, w :: ws => (reactOk fs w).bind (run · ws)

theorem run_append (fs : List Frame) (ws : List Work) (w : Work) : run fs (ws ++ [w]) = (run fs ws).bind (reactOk · w) := by
  induction ws generalizing fs with
  | nil =>
    simp only [List.nil_append, run, Option.bind_some]
    cases reactOk fs w <;> rfl
  | cons v ws ih =>
    simp only [List.cons_append, run]
    cases reactOk fs v with
    | none => rfl
    | some gs => exact ih gs

/-- What's observed is fine. -/
def Good (t : Nat) : Ev → Prop
  | .result u k i => u = t ∧ k = i
  | .failed u k i => u = t ∧ i = some k
  | .lost _ _ => False
  | _ => True

theorem reactOk_react {t : Nat} {fs gs : List Frame} {w : Work} (h : reactOk fs w = some gs) :
    (react t fs w).1 = gs ∧ ∀ e ∈ (react t fs w).2, Good t e := by
  unfold reactOk at h
  split at h <;> simp_all [react, Good]

theorem run_handle {i : Nat} {fs gs : List Frame} {ws : List Work} (h : run (.handle i :: fs) ws = some gs) : ws = [] := by
  cases ws with
  | nil => rfl
  | cons w ws => cases w <;> simp [run, reactOk] at h

/-- The one who makes a call of a chain is the one who handles the call before that. -/
def Linked : List Tx → Prop
  | [] => True
  | [_] => True
  | x :: y :: c => y.to = some x.src ∧ Linked (y :: c)

theorem Linked.tail {x : Tx} {c : List Tx} (h : Linked (x :: c)) : Linked c := by
  cases c with
  | nil => trivial
  | cons y c => exact h.2

theorem top_call {t : Nat} {x : Tx} {c : List Tx} (h : Linked (x :: c)) (hx : x.to ≠ some t) :
    (expected t (x :: c) = [] ∧ t ∉ (x :: c).map (·.src)) ∨ ∃ k fs, expected t (x :: c) = .call k :: fs := by
  induction c generalizing x with
  | nil =>
    simp only [expected, if_neg hx]
    by_cases hs : x.src = t
    · exact .inr ⟨x.id, [], by simp [hs]⟩
    · exact .inl ⟨by simp [hs], by simp; exact fun h => hs h.symm⟩
  | cons y c ih =>
    by_cases hs : x.src = t
    · exact .inr ⟨x.id, _, by rw [expected, if_neg hx, if_pos hs]; rfl⟩
    · have hy : y.to ≠ some t := by
        rw [h.1]
        intro he
        cases he
        exact hs rfl
      have := ih h.2 hy
      rw [expected, if_neg hx, if_neg hs, List.nil_append, List.nil_append, List.map_cons]
      rcases this with ⟨h1, h2⟩ | h1
      · refine .inl ⟨h1, ?_⟩
        rintro (_ | ⟨_, h⟩)
        · exact hs rfl
        · exact h2 h
      · exact .inr h1

theorem unwind_spec {dead : Nat → Bool} {x : Tx} {c : List Tx} (h : Linked (x :: c)) :
    Linked (unwind dead (x :: c)).1 ∧ (∀ u i, (unwind dead (x :: c)).2 = some (u, i) → dead u = false) ∧
    ∀ t, dead t = false → x.to ≠ some t →
      expected t (x :: c) = match (unwind dead (x :: c)).2 with
        | none => expected t (unwind dead (x :: c)).1
        | some (u, i) => if u = t then .call i :: expected t (unwind dead (x :: c)).1 else expected t (unwind dead (x :: c)).1 := by
  induction c generalizing x with
  | nil =>
    simp only [unwind]
    split
    · refine ⟨trivial, (by intro u i h; cases h), fun t ht hx => ?_⟩
      have : x.src ≠ t := by rintro rfl; simp_all
      simp [expected, hx, this]
    · rename_i hd
      refine ⟨trivial, ?_, fun t ht hx => ?_⟩
      · intro u i h; cases h; simpa using hd
      · simp only [expected, if_neg hx]
        split <;> rfl
  | cons y c ih =>
    rw [unwind]
    split
    · rename_i hd
      obtain ⟨h1, h2, h3⟩ := ih h.2
      refine ⟨h1, h2, fun t ht hx => ?_⟩
      have hs : x.src ≠ t := by rintro rfl; simp_all
      have hy : y.to ≠ some t := by
        rw [h.1]; intro he; cases he; exact hs rfl
      rw [expected, if_neg hx, if_neg hs, List.nil_append, List.nil_append]
      exact h3 t ht hy
    · rename_i hd
      refine ⟨h.2, ?_, fun t ht hx => ?_⟩
      · intro u i h; cases h; simpa using hd
      · simp only
        rw [expected, if_neg hx]
        split <;> rfl

/-- What the thread is doing will be as expected when it has read everything; it takes part in just one chain. -/
def Fine (s : State) (t : Nat) : Prop :=
  ∃ h, run (s.frames t) (s.todo t) = some (expected t (s.chain h)) ∧ ∀ k, k ≠ h → expected t (s.chain k) = []

structure Inv (s : State) : Prop where
  fine : ∀ t, s.dead t = false → Fine s t
  linked : ∀ h, Linked (s.chain h)

theorem Inv.init : Inv {} := ⟨fun t _ => ⟨0, rfl, fun _ _ => rfl⟩, fun _ => trivial⟩

/-- One chain is changed. -/
theorem Inv.change {s s' : State} (h : Inv s) (h0 : Nat) (c : List Tx) (hl : Linked c) (hc : s'.chain = upd s.chain h0 c)
    (hd : ∀ t, s'.dead t = false → s.dead t = false)
    (hf : ∀ t, s'.dead t = false → ∀ fs, run (s.frames t) (s.todo t) = some fs →
      (fs = expected t (s.chain h0) ∧ run (s'.frames t) (s'.todo t) = some (expected t c)) ∨
      (expected t (s.chain h0) = [] ∧ expected t c = [] ∧ run (s'.frames t) (s'.todo t) = some fs) ∨
      (fs = [] ∧ expected t (s.chain h0) = [] ∧ run (s'.frames t) (s'.todo t) = some (expected t c))) : Inv s' := by
  constructor
  · intro t ht
    obtain ⟨h1, hr, ho⟩ := h.fine t (hd t ht)
    rw [Fine, hc]
    rcases hf t ht _ hr with ⟨ha, hb⟩ | ⟨ha, hb, hd'⟩ | ⟨ha, hb, hd'⟩
    · by_cases he : h1 = h0
      · subst he
        exact ⟨h1, by rw [upd_same]; exact hb, fun k hk => by rw [upd_ne _ _ hk]; exact ho k hk⟩
      · have hn := ho h0 (fun e => he e.symm)
        refine ⟨h0, by rw [upd_same]; exact hb, fun k hk => ?_⟩
        rw [upd_ne _ _ hk]
        by_cases hk' : k = h1
        · subst hk'; rw [ha, hn]
        · exact ho k hk'
    · by_cases he : h1 = h0
      · subst he
        refine ⟨h1, by rw [upd_same, hd', ha, hb], fun k hk => by rw [upd_ne _ _ hk]; exact ho k hk⟩
      · refine ⟨h1, by rw [upd_ne _ _ he]; exact hd', fun k hk => ?_⟩
        by_cases hk' : k = h0
        · subst hk'; rw [upd_same]; exact hb
        · rw [upd_ne _ _ hk']; exact ho k hk
    · refine ⟨h0, by rw [upd_same]; exact hd', fun k hk => ?_⟩
      rw [upd_ne _ _ hk]
      by_cases hk' : k = h1
      · subst hk'; exact ha
      · exact ho k hk'
  · intro k
    rw [hc]
    by_cases hk : k = h0
    · subst hk; rw [upd_same]; exact hl
    · rw [upd_ne _ _ hk]; exact h.linked k

/-- No chain is changed. -/
theorem Inv.keep {s s' : State} (h : Inv s) (hc : s'.chain = s.chain) (hd : ∀ t, s'.dead t = false → s.dead t = false)
    (hf : ∀ t, s'.dead t = false → ∀ fs, run (s.frames t) (s.todo t) = some fs → run (s'.frames t) (s'.todo t) = some fs) :
    Inv s' := by
  constructor
  · intro t ht
    obtain ⟨h1, hr, ho⟩ := h.fine t (hd t ht)
    rw [Fine, hc]
    exact ⟨h1, hf t ht _ hr, ho⟩
  · intro k
    rw [hc]
    exact h.linked k

/-- A thread which is handling a call is handling the last one of a chain. -/
theorem Inv.active {s : State} (h : Inv s) {t i : Nat} {fs : List Frame} (ht : s.dead t = false) (hf : s.frames t = .handle i :: fs) :
    s.todo t = [] ∧ ∃ h0 x c, s.chain h0 = x :: c ∧ x.to = some t ∧ x.id = i := by
  obtain ⟨h0, hr, _⟩ := h.fine t ht
  rw [hf] at hr
  have hw := run_handle hr
  refine ⟨hw, ?_⟩
  rw [hw] at hr
  simp only [run, Option.some.injEq] at hr
  cases hc : s.chain h0 with
  | nil => rw [hc] at hr; cases hr
  | cons x c =>
    refine ⟨h0, x, c, hc, ?_⟩
    have hl := h.linked h0
    rw [hc] at hr hl
    by_cases hx : x.to = some t
    · rw [expected, if_pos hx] at hr
      simp only [List.cons_append, List.cons.injEq, Frame.handle.injEq] at hr
      exact ⟨hx, hr.1.symm⟩
    · rcases top_call hl hx with ⟨h1, _⟩ | ⟨k, gs, h1⟩ <;> rw [h1] at hr <;> cases hr

/-- Whoever may call isn't expected to be doing anything else. -/
theorem Inv.mayCall {s : State} (h : Inv s) {t h0 : Nat} (hm : s.mayCall t h0 = true) :
    s.dead t = false ∧ s.todo t = [] ∧
      ((∃ i fs x c, s.frames t = .handle i :: fs ∧ s.chain h0 = x :: c ∧ x.to = some t ∧ x.id = i ∧
        s.frames t = expected t (s.chain h0)) ∨ (s.frames t = [] ∧ s.chain h0 = [])) := by
  simp only [State.mayCall, Bool.and_eq_true, Bool.not_eq_true'] at hm
  obtain ⟨hd, hm⟩ := hm
  refine ⟨hd, ?_⟩
  split at hm
  · rename_i i fs x c hf hc
    simp only [Bool.and_eq_true, beq_iff_eq] at hm
    have ha := (h.active hd hf).1
    refine ⟨ha, .inl ⟨i, fs, x, c, hf, hc, hm.1, hm.2, ?_⟩⟩
    obtain ⟨h1, hr, ho⟩ := h.fine t hd
    rw [ha] at hr
    simp only [run, Option.some.injEq] at hr
    by_cases he : h1 = h0
    · rw [hr, he]
    · have := ho h0 (fun e => he e.symm)
      rw [hc, expected, if_pos hm.1] at this
      cases this
  · rename_i hf hc
    exact ⟨by simpa using hm, .inr ⟨hf, hc⟩⟩
  · cases hm

theorem linked_cons {t h0 : Nat} {s : State} (h : Inv s) (hm : s.mayCall t h0 = true) (y : Tx) (hy : y.src = t) :
    Linked (y :: s.chain h0) := by
  rcases (h.mayCall hm).2.2 with ⟨i, fs, x, c, _, hc, hx, _⟩ | ⟨_, hc⟩
  · have hl := h.linked h0
    rw [hc] at hl ⊢
    exact ⟨by rw [hx, hy], hl⟩
  · rw [hc]; trivial

/-- An error is passed on. -/
theorem Inv.abort {s : State} {h0 : Nat} {x : Tx} {c : List Tx} (hl : ∀ h, Linked (s.chain h)) (hc : s.chain h0 = x :: c)
    (hx : ∀ t, s.dead t = false → x.to ≠ some t) (hf : ∀ t, s.dead t = false → Fine s t) : Inv (s.abort h0) := by
  have h : Inv s := ⟨hf, hl⟩
  have hl0 := hl h0
  rw [hc] at hl0
  obtain ⟨h1, h2, h3⟩ := @unwind_spec s.dead x c hl0
  simp only [State.abort, hc]
  generalize hu : unwind s.dead (x :: c) = r at h1 h2 h3
  obtain ⟨c', o⟩ := r
  cases o with
  | none =>
    simp only at h1 h3 ⊢
    refine h.change h0 c' h1 rfl (fun t ht => ht) (fun t ht fs hr => ?_)
    have he := h3 t ht (hx t ht)
    simp only
    rw [hc, he]
    obtain ⟨k, hk, ho⟩ := hf t ht
    rw [hr] at hk
    cases hk
    by_cases hk : k = h0
    · subst hk
      rw [hc, he] at hr
      rw [hc, he]
      exact .inl ⟨rfl, hr⟩
    · have := ho h0 (fun e => hk e.symm)
      rw [hc, he] at this
      exact .inr (.inl ⟨this, this, hr⟩)
  | some p =>
    obtain ⟨u, i⟩ := p
    simp only at h1 h2 h3 ⊢
    refine h.change h0 c' h1 rfl (fun t ht => ht) (fun t ht fs hr => ?_)
    have he := h3 t ht (hx t ht)
    simp only [State.post]
    rw [hc, he]
    obtain ⟨k, hk, ho⟩ := hf t ht
    rw [hr] at hk
    cases hk
    by_cases hut : u = t
    · subst hut
      rw [if_pos rfl] at he ⊢
      have hkh : k = h0 := by
        apply Classical.byContradiction
        intro hk
        have := ho h0 (fun e => hk e.symm)
        rw [hc, he] at this
        cases this
      subst hkh
      refine .inl ⟨by rw [hc, he], ?_⟩
      rw [upd_same, run_append, hr, hc, he]
      simp [reactOk]
    · rw [if_neg hut] at he ⊢
      rw [upd_ne _ _ (fun e => hut e.symm)]
      by_cases hk : k = h0
      · subst hk
        rw [hc, he] at hr
        rw [hc, he]
        exact .inl ⟨rfl, hr⟩
      · have := ho h0 (fun e => hk e.symm)
        rw [hc, he] at this
        exact .inr (.inl ⟨this, this, hr⟩)

theorem Inv.cases {s : State} (h : Inv s) (h0 : Nat) {t : Nat} (ht : s.dead t = false) {fs : List Frame}
    (hr : run (s.frames t) (s.todo t) = some fs) : fs = expected t (s.chain h0) ∨ expected t (s.chain h0) = [] := by
  obtain ⟨k, hk, ho⟩ := h.fine t ht
  rw [hr] at hk
  cases hk
  by_cases hk : k = h0
  · exact .inl (by rw [hk])
  · exact .inr (ho h0 fun e => hk e.symm)

theorem Inv.call {s : State} (h : Inv s) {t h0 : Nat} (hm : s.mayCall t h0 = true) (log : List Ev) :
    Inv (({ s with
        next := s.next + 1, chain := upd s.chain h0 (⟨s.next, t, none⟩ :: s.chain h0), log }.push t (.call s.next)).post t .complete) := by
  have hl := linked_cons h hm ⟨s.next, t, none⟩ rfl
  obtain ⟨hd, hw, hc⟩ := h.mayCall hm
  refine h.change h0 _ hl rfl (fun t ht => ht) (fun u hu fs hr => ?_)
  simp only [State.push, State.post]
  by_cases hut : u = t
  · subst hut
    rw [upd_same, upd_same, hw]
    rw [hw] at hr
    simp only [run, Option.some.injEq] at hr
    simp only [List.nil_append, run, reactOk, Option.bind_some, expected]
    rcases hc with ⟨i, fs', x, c, hf, hc, hx, hi, he⟩ | ⟨hf, hc⟩
    · refine .inl ⟨by rw [← hr, he], by rw [he]; simp⟩
    · refine .inr (.inr ⟨by rw [← hr, hf], by rw [hc]; rfl, by rw [hc, hf]; simp [expected]⟩)
  · rw [upd_ne _ _ hut, upd_ne _ _ hut]
    have : expected u (⟨s.next, t, none⟩ :: s.chain h0) = expected u (s.chain h0) := by
      simp [expected, Ne.symm hut]
    rw [this]
    rcases h.cases h0 hu hr with he | he
    · exact .inl ⟨he, by rw [← he]; exact hr⟩
    · exact .inr (.inl ⟨he, he, hr⟩)

theorem Inv.callTo {s : State} (h : Inv s) {t h0 v : Nat} (hm : s.mayCall t h0 = true) (hv : v ≠ t) (hdv : s.dead v = false)
    (hmem : v ∈ (s.chain h0).map (·.src)) (log : List Ev) :
    Inv ((({ s with
        next := s.next + 1, chain := upd s.chain h0 (⟨s.next, t, some v⟩ :: s.chain h0), log }.push t (.call s.next)).post t
          .complete).post v (.transaction s.next)) := by
  have hl := linked_cons h hm ⟨s.next, t, some v⟩ rfl
  obtain ⟨hd, hw, hc⟩ := h.mayCall hm
  refine h.change h0 _ hl rfl (fun t ht => ht) (fun u hu fs hr => ?_)
  simp only [State.push, State.post]
  by_cases hut : u = t
  · subst hut
    rw [upd_same, upd_ne _ _ (fun e => hv e.symm), upd_same, hw]
    rw [hw] at hr
    simp only [run, Option.some.injEq] at hr
    simp only [List.nil_append, run, reactOk, Option.bind_some, expected]
    rcases hc with ⟨i, fs', x, c, hf, hc, hx, hi, he⟩ | ⟨hf, hc⟩
    · refine .inl ⟨by rw [← hr, he], by rw [he]; simp [hv]⟩
    · rw [hc] at hmem; cases hmem
  · rw [upd_ne _ _ hut]
    by_cases huv : u = v
    · subst huv
      rw [upd_same, upd_ne _ _ hut, run_append, hr]
      rcases hc with ⟨i, fs', x, c, hf, hc, hx, hi, he⟩ | ⟨hf, hc⟩
      · have hl0 := h.linked h0
        rw [hc] at hl0 hmem
        have hxu : x.to ≠ some u := by rw [hx]; intro e; cases e; exact hut rfl
        rcases top_call hl0 hxu with ⟨_, h1⟩ | ⟨k, gs, h1⟩
        · exact absurd hmem h1
        · rcases h.cases h0 hu hr with he' | he'
          · refine .inl ⟨he', ?_⟩
            rw [he', hc, h1, expected, ← hc, if_pos rfl, if_neg (fun e : t = u => hut e.symm), hc, h1]
            rfl
          · rw [hc, h1] at he'; cases he'
      · rw [hc] at hmem; cases hmem
    · rw [upd_ne _ _ huv, upd_ne _ _ hut]
      have : expected u (⟨s.next, t, some v⟩ :: s.chain h0) = expected u (s.chain h0) := by
        simp [expected, Ne.symm hut, Ne.symm huv]
      rw [this]
      rcases h.cases h0 hu hr with he | he
      · exact .inl ⟨he, by rw [← he]; exact hr⟩
      · exact .inr (.inl ⟨he, he, hr⟩)

/-- Whoever isn't waiting has read everything. -/
theorem Inv.free {s : State} (h : Inv s) {t : Nat} (hm : s.free t = true) : s.dead t = false ∧ s.todo t = [] := by
  simp only [State.free, Bool.and_eq_true, Bool.not_eq_true'] at hm
  obtain ⟨hd, hm⟩ := hm
  refine ⟨hd, ?_⟩
  split at hm
  · rename_i i fs hf
    exact (h.active hd hf).1
  · simpa using hm
  · cases hm

/-- Something that ends at once. -/
theorem Inv.short {s s' : State} (h : Inv s) {t : Nat} {f : Frame} {w : Work} (hm : s.free t = true)
    (hw : ∀ fs, reactOk (f :: fs) w = some fs) (hc : s'.chain = s.chain) (hd : s'.dead = s.dead)
    (hf : s'.frames = upd s.frames t (f :: s.frames t)) (ht : s'.todo = upd s.todo t (s.todo t ++ [w])) : Inv s' := by
  refine h.keep hc (by rw [hd]; exact fun _ h => h) (fun u hu fs hr => ?_)
  rw [hf, ht]
  by_cases hut : u = t
  · subst hut
    rw [upd_same, upd_same, (h.free hm).2]
    rw [(h.free hm).2] at hr
    simp only [List.nil_append, run, hw, Option.bind_some]
    exact hr
  · rw [upd_ne _ _ hut, upd_ne _ _ hut]
    exact hr

theorem Inv.pick {s : State} (h : Inv s) {u h0 : Nat} {x : Tx} {c : List Tx} (hd : s.dead u = false) (hf : s.frames u = [])
    (ht : s.todo u = []) (hc : s.chain h0 = x :: c) (hx : x.to = none) :
    Inv ({ s with chain := upd s.chain h0 ({ x with to := some u } :: c) }.post u (.transaction x.id)) := by
  have hl : Linked ({ x with to := some u } :: c) := by
    have := h.linked h0
    rw [hc] at this
    cases c with
    | nil => trivial
    | cons y c => exact this
  refine h.change h0 _ hl rfl (fun t ht => ht) (fun t htd fs hr => ?_)
  simp only [State.post]
  by_cases hut : t = u
  · subst hut
    rw [upd_same, ht, hf]
    rw [ht, hf] at hr
    simp only [run, Option.some.injEq] at hr
    subst hr
    have he : expected t (s.chain h0) = [] := by
      rcases h.cases h0 htd (by rw [ht, hf]; rfl) with he | he
      · exact he.symm
      · exact he
    refine .inr (.inr ⟨rfl, he, ?_⟩)
    rw [hc, expected, if_neg (by rw [hx]; simp), List.nil_append] at he
    simp only [List.append_eq_nil_iff] at he
    simp only [List.nil_append, run, reactOk, Option.bind_some, expected, if_true, he.2]
    rw [he.1]
    rfl
  · rw [upd_ne _ _ hut]
    have : expected t ({ x with to := some u } :: c) = expected t (s.chain h0) := by
      rw [hc]
      simp [expected, hx, Ne.symm hut]
    rw [this]
    rcases h.cases h0 htd hr with he | he
    · exact .inl ⟨he, by rw [← he]; exact hr⟩
    · exact .inr (.inl ⟨he, he, hr⟩)

theorem Inv.read {s : State} (h : Inv s) {t : Nat} {w : Work} {ws : List Work} (hd : s.dead t = false) (hw : s.todo t = w :: ws)
    (log : List Ev) :
    Inv { s with todo := upd s.todo t ws, frames := upd s.frames t (react t (s.frames t) w).1, log } ∧
      ∀ e ∈ (react t (s.frames t) w).2, Good t e := by
  obtain ⟨h0, hr, ho⟩ := h.fine t hd
  rw [hw, run] at hr
  cases hk : reactOk (s.frames t) w with
  | none => rw [hk] at hr; cases hr
  | some gs =>
    obtain ⟨h1, h2⟩ := @reactOk_react t _ _ _ hk
    refine ⟨?_, h2⟩
    rw [h1]
    refine h.keep rfl (fun _ h => h) (fun u hu fs hr' => ?_)
    by_cases hut : u = t
    · subst hut
      rw [hw, run, hk] at hr'
      simp only [upd_same]
      exact hr'
    · simp only [upd_ne _ _ hut]
      exact hr'

/-- The call isn't being handled by the thread any more. -/
theorem Inv.leave {s : State} (h : Inv s) {t h0 i : Nat} {fs : List Frame} {x : Tx} {c : List Tx} (hd : s.dead t = false)
    (hf : s.frames t = .handle i :: fs) (hc : s.chain h0 = x :: c) (hx : x.to = some t) (hi : x.id = i) :
    Inv { s with
      frames := upd s.frames t (.replied :: fs), todo := upd s.todo t (s.todo t ++ [.complete])
      chain := upd s.chain h0 ({ x with to := none } :: c) } := by
  have hw := (h.active hd hf).1
  have hl : Linked ({ x with to := none } :: c) := by
    have := h.linked h0
    rw [hc] at this
    cases c with
    | nil => trivial
    | cons y c => exact this
  refine h.change h0 _ hl rfl (fun t ht => ht) (fun u htd gs hr => ?_)
  by_cases hut : u = t
  · subst hut
    simp only [upd_same, hw]
    rw [hw, hf] at hr
    simp only [run, Option.some.injEq] at hr
    rcases h.cases h0 htd (by rw [hw, hf]; rfl) with he | he
    · refine .inl ⟨by rw [← hr, he], ?_⟩
      rw [hc, expected, if_pos hx] at he
      simp only [List.cons_append, List.nil_append, List.cons.injEq] at he
      simp only [List.nil_append, run, reactOk, Option.bind_some, expected]
      rw [he.2]
      simp
    · rw [hc, expected, if_pos hx] at he
      cases he
  · simp only [upd_ne _ _ hut]
    have : expected u ({ x with to := none } :: c) = expected u (s.chain h0) := by
      rw [hc]
      simp [expected, hx, Ne.symm hut]
    rw [this]
    rcases h.cases h0 htd hr with he | he
    · exact .inl ⟨he, by rw [← he]; exact hr⟩
    · exact .inr (.inl ⟨he, he, hr⟩)

theorem unwind_to (dead : Nat → Bool) (x : Tx) (o : Option Nat) (c : List Tx) :
    unwind dead ({ x with to := o } :: c) = unwind dead (x :: c) := by simp [unwind]

theorem upd_upd {α : Type} (f : Nat → α) (k : Nat) (a b : α) : upd (upd f k a) k b = upd f k b := by
  funext j
  simp only [upd]
  split <;> rfl

theorem abort_to (s : State) (h0 : Nat) (x : Tx) (c : List Tx) (hc : s.chain h0 = x :: c) :
    ({ s with chain := upd s.chain h0 ({ x with to := none } :: c) }).abort h0 = s.abort h0 := by
  simp only [State.abort, upd_same, unwind_to, hc, upd_upd]

/-- The reply is on its way. -/
theorem Inv.answer {s : State} (h : Inv s) {h0 : Nat} {x : Tx} {c : List Tx} (hc : s.chain h0 = x :: c) (hx : x.to = none)
    (hd : s.dead x.src = false) (log : List Ev) :
    Inv ({ s with chain := upd s.chain h0 c, log }.post x.src (.reply x.id)) := by
  have hl := h.linked h0
  rw [hc] at hl
  refine h.change h0 c hl.tail rfl (fun t ht => ht) (fun t htd fs hr => ?_)
  simp only [State.post]
  by_cases hut : t = x.src
  · have he : expected t (s.chain h0) = .call x.id :: expected t c := by
      rw [hc, expected, if_neg (by rw [hx]; simp), if_pos hut.symm]; rfl
    rw [← hut, upd_same, run_append, hr]
    rcases h.cases h0 htd hr with he' | he'
    · refine .inl ⟨he', ?_⟩
      rw [he', he]
      simp [reactOk]
    · rw [he] at he'; cases he'
  · rw [upd_ne _ _ hut]
    have : expected t (s.chain h0) = expected t c := by
      rw [hc, expected, if_neg (by rw [hx]; simp), if_neg (fun e => hut e.symm)]; rfl
    rcases h.cases h0 htd hr with he | he
    · exact .inl ⟨he, by rw [← this, ← he]; exact hr⟩
    · exact .inr (.inl ⟨he, by rw [← this]; exact he, hr⟩)

theorem Inv.step {s s' : State} {l : Label} (h : Inv s) (hs : step s l = .ok s') : Inv s' := by
  cases l with
  | call t h0 =>
    simp only [Nested.step] at hs
    split at hs <;> cases hs
    rename_i hm
    exact h.call hm _
  | callTo t h0 u =>
    simp only [Nested.step] at hs
    split at hs <;> cases hs
    rename_i hm
    exact h.callTo hm.1 hm.2.1 hm.2.2.1 hm.2.2.2 _
  | callFails t =>
    simp only [Nested.step] at hs
    split at hs <;> cases hs
    rename_i hm
    exact h.short hm (fun fs => by simp [reactOk]) rfl rfl rfl rfl
  | oneway t =>
    simp only [Nested.step] at hs
    split at hs <;> cases hs
    rename_i hm
    exact h.short hm (fun fs => by simp [reactOk]) rfl rfl rfl rfl
  | onewayFails t =>
    simp only [Nested.step] at hs
    split at hs <;> cases hs
    rename_i hm
    exact h.short hm (fun fs => by simp [reactOk]) rfl rfl rfl rfl
  | pick u h0 =>
    simp only [Nested.step] at hs
    split at hs
    case isFalse => cases hs
    rename_i hm
    split at hs
    · cases hs
    · rename_i x c hc
      split at hs <;> cases hs
      rename_i hx
      exact h.pick hm.1 hm.2.1 hm.2.2 hc hx
  | read t =>
    simp only [Nested.step] at hs
    split at hs
    · cases hs
    · rename_i w ws hw
      split at hs
      · cases hs
      · rename_i hd
        split at hs
        · cases hs
        · cases hs
          exact (h.read (by simpa using hd) hw _).1
  | reply t h0 ok =>
    simp only [Nested.step] at hs
    split at hs
    · cases hs
    · rename_i hd
      split at hs
      · rename_i i fs x c hf hc
        split at hs
        case isFalse => cases hs
        rename_i hx
        have hle := h.leave (by simpa using hd) hf hc hx.1 hx.2
        split at hs
        · rename_i hok
          cases hs
          simp only [Bool.and_eq_true, Bool.not_eq_true'] at hok
          have := hle.answer (h0 := h0) (x := { x with to := none }) (c := c) (upd_same _ _ _) rfl hok.2 (s.log ++ [Ev.answered i])
          simp only [upd_upd, hx.2] at this
          exact this
        · cases hs
          rw [← abort_to _ h0 x c (by exact hc)]
          exact Inv.abort hle.linked (upd_same _ _ _) (fun u _ e => by cases e) hle.fine
      · cases hs
  | die t =>
    simp only [Nested.step] at hs
    cases hs
    refine h.keep rfl ?_ ?_
    · intro u hu
      simp only [upd] at hu
      split at hu
      · cases hu
      · exact hu
    · intro u hu fs hr
      have hut : u ≠ t := by
        rintro rfl
        simp [upd_same] at hu
      simp only [upd_ne _ _ hut]
      exact hr
  | reap h0 =>
    simp only [Nested.step] at hs
    split at hs
    · cases hs
    · rename_i x c hc
      split at hs
      · rename_i hx
        cases hs
        exact Inv.abort h.linked hc (fun u _ e => by rw [hx] at e; cases e) h.fine
      · rename_i t hx
        split at hs <;> cases hs
        rename_i hd
        refine Inv.abort h.linked hc (fun u hu e => ?_) h.fine
        rw [hx] at e
        cases e
        rw [hd] at hu
        cases hu

theorem Inv.reach {s : State} (h : Reach Nested.step {} s) : Inv s :=
  Reach.invariant Inv.init (fun _ _ _ hi hs => hi.step hs) h

/-- What the log says. -/
structure Told (s : State) : Prop where
  asked : ∀ t k, .call k ∈ s.frames t → .made t k ∈ s.log
  answered : ∀ t i, .reply i ∈ s.todo t → .answered i ∈ s.log
  result : ∀ t k i, .result t k i ∈ s.log → k = i ∧ .made t i ∈ s.log ∧ .answered i ∈ s.log
  failed : ∀ t k i, .failed t k i ∈ s.log → i = some k ∧ .made t k ∈ s.log
  lost : ∀ t i, .lost t i ∉ s.log
  made : ∀ t i, .made t i ∈ s.log → i < s.next
  owner : ∀ t u i, .made t i ∈ s.log → .made u i ∈ s.log → t = u
  apart : ∀ t, (s.frames t).Pairwise fun a b => ∀ i, a = .call i → b ≠ .call i
  once : ∀ i, ends i s.log = 0 ∨ ends i s.log = 1 ∧ ∀ t, .call i ∉ s.frames t

theorem Told.init : Told {} := by
  constructor <;> simp [ends]

theorem ends_append (i : Nat) (a b : List Ev) : ends i (a ++ b) = ends i a + ends i b := by
  simp [ends, List.countP_append]

/-- A step which doesn't say anything, and after which nobody waits for more. -/
theorem Told.less {s s' : State} (h : Told s) (hf : ∀ t, s'.frames t = s.frames t ∨
      (∃ f fs, s.frames t = f :: fs ∧ s'.frames t = fs) ∨ s'.frames t = [] ∨
      (∃ f, s'.frames t = f :: s.frames t ∧ ∀ k, f ≠ .call k) ∨
      ∃ f g fs, s.frames t = f :: fs ∧ s'.frames t = g :: fs ∧ ∀ k, g ≠ .call k)
    (ht : ∀ t i, .reply i ∈ s'.todo t → .reply i ∈ s.todo t ∨ .answered i ∈ s'.log)
    (hl : s'.log = s.log ∨ ∃ i, s'.log = s.log ++ [.answered i]) (hn : s.next ≤ s'.next) : Told s' := by
  have hsub : ∀ t k, Frame.call k ∈ s'.frames t → Frame.call k ∈ s.frames t := by
    intro t k hk
    rcases hf t with e | ⟨f, fs, e1, e2⟩ | e | ⟨f, e, hne⟩ | ⟨f, g, fs, e1, e2, hne⟩ <;> grind
  have hmem : ∀ e, e ∈ s.log → e ∈ s'.log := by
    rcases hl with e | ⟨i, e⟩ <;> rw [e] <;> simp +contextual
  have hmem' : ∀ e, e ∈ s'.log → (∀ i, e ≠ .answered i) → e ∈ s.log := by
    rcases hl with e | ⟨i, e⟩ <;> rw [e]
    · exact fun e he _ => he
    · intro e he hne
      rcases List.mem_append.1 he with he | he
      · exact he
      · exact absurd (List.mem_singleton.1 he) (hne i)
  have hends : ∀ i, ends i s'.log = ends i s.log := by
    intro i
    rcases hl with e | ⟨j, e⟩ <;> rw [e]
    rw [ends_append]
    simp [ends]
  obtain ⟨h1, h2, h3, h4, h5, h6, h7, h8, h9⟩ := h
  refine ⟨fun t k hk => hmem _ (h1 t k (hsub t k hk)), fun t i hi => ?_, fun t k i hi => ?_, fun t k i hi => ?_, fun t i hi => ?_,
    fun t i hi => ?_, fun t u i ha hb => ?_, fun t => ?_, fun i => ?_⟩
  · rcases ht t i hi with h | h
    · exact hmem _ (h2 t i h)
    · exact h
  · have := h3 t k i (hmem' _ hi (by intro j e; cases e))
    exact ⟨this.1, hmem _ this.2.1, hmem _ this.2.2⟩
  · have := h4 t k i (hmem' _ hi (by intro j e; cases e))
    exact ⟨this.1, hmem _ this.2⟩
  · exact h5 t i (hmem' _ hi (by intro j e; cases e))
  · have := h6 t i (hmem' _ hi (by intro j e; cases e))
    omega
  · exact h7 t u i (hmem' _ ha (by intro j e; cases e)) (hmem' _ hb (by intro j e; cases e))
  · have := h8 t
    rcases hf t with e | ⟨f, fs, e1, e2⟩ | e | ⟨f, e, hne⟩ | ⟨f, g, fs, e1, e2, hne⟩
    · rw [e]; exact this
    · rw [e2]; rw [e1] at this; exact (List.pairwise_cons.1 this).2
    · rw [e]; exact List.Pairwise.nil
    · rw [e]; exact List.pairwise_cons.2 ⟨fun b _ i hi => absurd hi (hne i), this⟩
    · rw [e2]; rw [e1] at this
      exact List.pairwise_cons.2 ⟨fun b _ i hi => absurd hi (hne i), (List.pairwise_cons.1 this).2⟩
  · rw [hends]
    rcases h9 i with h | ⟨h, hn⟩
    · exact .inl h
    · exact .inr ⟨h, fun t ht => hn t (hsub t i ht)⟩

/-- A call is made. -/
theorem Told.call {s s' : State} (h : Told s) {t : Nat} (hf : s'.frames = upd s.frames t (.call s.next :: s.frames t))
    (ht : ∀ t i, .reply i ∈ s'.todo t → .reply i ∈ s.todo t) (hl : s'.log = s.log ++ [.made t s.next])
    (hn : s'.next = s.next + 1) : Told s' := by
  obtain ⟨h1, h2, h3, h4, h5, h6, h7, h8, h9⟩ := h
  have hfr : ∀ u k, Frame.call k ∈ s'.frames u ↔ Frame.call k ∈ s.frames u ∨ (u = t ∧ k = s.next) := by
    intro u k
    rw [hf]
    simp only [upd]
    split <;> grind
  have hnew : ∀ u, Frame.call s.next ∉ s.frames u := fun u hu => by
    have := h6 u _ (h1 u _ hu)
    omega
  have hends : ∀ i, ends i s'.log = ends i s.log := by
    intro i
    rw [hl, ends_append]
    simp [ends]
  have hz : ends s.next s.log = 0 := by
    rw [ends, List.countP_eq_zero]
    intro e he
    cases e <;> simp only [Bool.false_eq_true, not_false_eq_true]
    · rename_i u k i
      have := h3 u k i he
      have := h6 u i this.2.1
      simp; omega
    · rename_i u k i
      have := h4 u k i he
      have := h6 u k this.2
      simp; omega
  refine ⟨fun u k hk => ?_, fun u i hi => ?_, ?_, ?_, ?_, ?_, ?_, fun u => ?_, fun i => ?_⟩
  · rw [hl]; have := (hfr u k).1 hk; grind
  · rw [hl]; have := h2 u i (ht u i hi); grind
  · rw [hl]; grind
  · rw [hl]; grind
  · rw [hl]; grind
  · rw [hl, hn]; grind
  · rw [hl]; grind
  · rw [hf]
    simp only [upd]
    split
    · refine List.pairwise_cons.2 ⟨fun b hb i hi => ?_, h8 t⟩
      cases hi
      rintro rfl
      exact hnew t hb
    · exact h8 u
  · rw [hends]
    rcases h9 i with h | ⟨h, hn⟩
    · exact .inl h
    · refine .inr ⟨h, fun u hu => ?_⟩
      rcases (hfr u i).1 hu with hu | ⟨_, rfl⟩
      · exact hn u hu
      · omega

/-- A call is over. -/
theorem Told.over {s s' : State} (h : Told s) {t k : Nat} {fs : List Frame} (hf : s.frames t = .call k :: fs)
    (hf' : s'.frames = upd s.frames t fs) (ht : ∀ t i, .reply i ∈ s'.todo t → .reply i ∈ s.todo t)
    (hl : (s'.log = s.log ++ [.result t k k] ∧ .reply k ∈ s.todo t) ∨ s'.log = s.log ++ [.failed t k (some k)])
    (hn : s'.next = s.next) : Told s' := by
  obtain ⟨h1, h2, h3, h4, h5, h6, h7, h8, h9⟩ := h
  have hm : Ev.made t k ∈ s.log := h1 t k (by rw [hf]; exact List.mem_cons_self)
  have hfr : ∀ u i, Frame.call i ∈ s'.frames u → Frame.call i ∈ s.frames u := by
    intro u i
    rw [hf']
    simp only [upd]
    split <;> grind
  have hgone : ∀ u, Frame.call k ∉ s'.frames u := by
    intro u hu
    have hut := h7 u t k (h1 u k (hfr u k hu)) hm
    subst hut
    rw [hf', upd_same] at hu
    have := h8 u
    rw [hf] at this
    exact (List.pairwise_cons.1 this).1 _ hu k rfl rfl
  have hends : ∀ i, ends i s'.log = ends i s.log + if k = i then 1 else 0 := by
    intro i
    rcases hl with ⟨e, _⟩ | e <;> rw [e, ends_append] <;> simp only [ends, List.countP_cons, List.countP_nil] <;> grind
  have hmade : ∀ u i, Ev.made u i ∈ s'.log ↔ Ev.made u i ∈ s.log := by
    intro u i
    rcases hl with ⟨e, _⟩ | e <;> rw [e] <;> simp
  have hans : ∀ i, Ev.answered i ∈ s'.log ↔ Ev.answered i ∈ s.log := by
    intro i
    rcases hl with ⟨e, _⟩ | e <;> rw [e] <;> simp
  refine ⟨fun u i hi => ?_, fun u i hi => ?_, fun u j i hi => ?_, fun u j i hi => ?_, fun u i hi => ?_, fun u i hi => ?_,
    fun u v i ha hb => ?_, fun u => ?_, fun i => ?_⟩
  · rw [hmade]; exact h1 u i (hfr u i hi)
  · rw [hans]; exact h2 u i (ht u i hi)
  · rw [hmade, hans]
    rcases hl with ⟨e, hr⟩ | e
    · have := h2 t k hr
      rw [e] at hi
      grind
    · rw [e] at hi
      grind
  · rw [hmade]
    rcases hl with ⟨e, hr⟩ | e <;> rw [e] at hi <;> grind
  · rcases hl with ⟨e, hr⟩ | e <;> rw [e] at hi <;> grind
  · rw [hn]; exact h6 u i ((hmade u i).1 hi)
  · exact h7 u v i ((hmade u i).1 ha) ((hmade v i).1 hb)
  · rw [hf']
    simp only [upd]
    split
    · have := h8 t
      rw [hf] at this
      exact (List.pairwise_cons.1 this).2
    · exact h8 u
  · rw [hends]
    by_cases hk : k = i
    · subst hk
      refine .inr ⟨?_, hgone⟩
      rcases h9 k with h | ⟨_, h⟩
      · rw [h]; simp
      · exact absurd (by rw [hf]; exact List.mem_cons_self) (h t)
    · rw [if_neg hk]
      rcases h9 i with h | ⟨h, hn⟩
      · exact .inl h
      · exact .inr ⟨h, fun u hu => hn u (hfr u i hu)⟩

theorem mem_upd {α : Type} {f : Nat → List α} {t : Nat} {l : List α} {u : Nat} {a : α} (h : a ∈ upd f t l u)
    (hs : ∀ b, b ∈ l → b = a → b ∈ f t) : a ∈ f u := by
  simp only [upd] at h
  split at h
  · rename_i e; subst e; exact hs a h rfl
  · exact h

theorem abort_same (s : State) (h0 : Nat) : (s.abort h0).frames = s.frames ∧ (s.abort h0).log = s.log ∧
    (s.abort h0).next = s.next ∧ ∀ t i, Work.reply i ∈ (s.abort h0).todo t → Work.reply i ∈ s.todo t := by
  simp only [State.abort]
  split
  · exact ⟨rfl, rfl, rfl, fun _ _ h => h⟩
  · refine ⟨rfl, rfl, rfl, fun t i h => ?_⟩
    simp only [State.post] at h
    exact mem_upd h (by intro b hb e; subst e; simpa using hb)

theorem Told.step {s s' : State} {l : Label} (hi : Inv s) (h : Told s) (hs : step s l = .ok s') : Told s' := by
  cases l with
  | call t h0 =>
    simp only [Nested.step] at hs
    split at hs <;> cases hs
    refine h.call rfl (fun u i hu => ?_) rfl rfl
    exact mem_upd hu (by intro b hb e; subst e; simpa [State.push, State.post] using hb)
  | callTo t h0 v =>
    simp only [Nested.step] at hs
    split at hs <;> cases hs
    refine h.call rfl (fun u i hu => ?_) rfl rfl
    have := mem_upd hu (by intro b hb e; subst e; simpa [State.push, State.post] using hb)
    exact mem_upd this (by intro b hb e; subst e; simpa [State.push, State.post] using hb)
  | callFails t =>
    simp only [Nested.step] at hs
    split at hs <;> cases hs
    refine h.call rfl (fun u i hu => ?_) rfl rfl
    exact mem_upd hu (by intro b hb e; subst e; simpa [State.push, State.post] using hb)
  | oneway t | onewayFails t =>
    simp only [Nested.step] at hs
    split at hs <;> cases hs
    refine h.less (fun u => ?_) (fun u i hu => .inl ?_) (.inl rfl) (Nat.le_refl _)
    · simp only [State.push, State.post, upd]
      split
      · rename_i e
        subst e
        exact .inr (.inr (.inr (.inl ⟨.oneway, rfl, by simp⟩)))
      · exact .inl rfl
    · exact mem_upd hu (by intro b hb e; subst e; simpa [State.push, State.post] using hb)
  | pick u h0 =>
    simp only [Nested.step] at hs
    split at hs
    case isFalse => cases hs
    split at hs
    · cases hs
    · split at hs <;> cases hs
      refine h.less (fun u => .inl rfl) (fun u i hu => .inl ?_) (.inl rfl) (Nat.le_refl _)
      exact mem_upd hu (by intro b hb e; subst e; simpa [State.push, State.post] using hb)
  | read t =>
    simp only [Nested.step] at hs
    split at hs
    · cases hs
    · rename_i w ws hw
      split at hs
      · cases hs
      · rename_i hd
        split at hs
        · cases hs
        · cases hs
          have hd : s.dead t = false := by simpa using hd
          have htodo : ∀ u i, Work.reply i ∈ upd s.todo t ws u → Work.reply i ∈ s.todo u := by
            intro u i hu
            exact mem_upd hu (by intro b hb e; rw [hw]; exact List.mem_cons_of_mem _ hb)
          obtain ⟨h0, hr, ho⟩ := hi.fine t hd
          rw [hw, run] at hr
          cases hk : reactOk (s.frames t) w with
          | none => rw [hk] at hr; cases hr
          | some gs =>
            unfold reactOk at hk
            have quiet : ∀ gs', (react t (s.frames t) w).1 = gs' → (react t (s.frames t) w).2 = [] →
                (gs' = s.frames t ∨ (∃ f fs, s.frames t = f :: fs ∧ gs' = fs) ∨ ∃ f, gs' = f :: s.frames t ∧ ∀ k, f ≠ Frame.call k) →
                Told { s with
                  todo := upd s.todo t ws, frames := upd s.frames t (react t (s.frames t) w).1
                  log := s.log ++ (react t (s.frames t) w).2 } := by
              intro gs' e1 e2 e3
              refine h.less (fun u => ?_) (fun u i hu => .inl (htodo u i hu)) (.inl (by rw [e2]; simp)) (Nat.le_refl _)
              simp only [upd]
              split
              · rename_i e
                subst e
                rw [e1]
                rcases e3 with e | e | e
                · exact .inl e
                · exact .inr (.inl e)
                · exact .inr (.inr (.inr (.inl e)))
              · exact .inl rfl
            split at hk
            all_goals rename_i hfr
            · exact quiet _ rfl (by rw [hfr]; rfl) (.inr (.inl ⟨_, _, hfr, by rw [hfr]; rfl⟩))
            · exact quiet _ rfl (by rw [hfr]; rfl) (.inr (.inl ⟨_, _, hfr, by rw [hfr]; rfl⟩))
            · exact quiet _ rfl (by rw [hfr]; rfl) (.inl (by rw [hfr]; rfl))
            · exact quiet _ rfl (by rw [hfr]; rfl) (.inr (.inr ⟨_, (by rw [hfr]; rfl), by simp⟩))
            · exact quiet _ rfl (by rw [hfr]; rfl) (.inr (.inr ⟨_, (by rw [hfr]; rfl), by simp⟩))
            · split at hk <;> cases hk
              rename_i e
              subst e
              exact h.over hfr (by simp only; rw [hfr]; rfl) htodo
                (.inl ⟨by simp only; rw [hfr]; rfl, by rw [hw]; exact List.mem_cons_self⟩) rfl
            · split at hk <;> cases hk
              rename_i e
              subst e
              exact h.over hfr (by simp only; rw [hfr]; rfl) htodo (.inr (by simp only; rw [hfr]; rfl)) rfl
            · exact quiet _ rfl (by rw [hfr]; rfl) (.inr (.inl ⟨_, _, hfr, by rw [hfr]; rfl⟩))
            · cases hk
  | reply t h0 ok =>
    simp only [Nested.step] at hs
    split at hs
    · cases hs
    · split at hs
      · rename_i i fs x c hf hc
        split at hs
        case isFalse => cases hs
        have hfr : ∀ u, upd s.frames t (Frame.replied :: fs) u = s.frames u ∨
            ∃ f g fs', s.frames u = f :: fs' ∧ upd s.frames t (Frame.replied :: fs) u = g :: fs' ∧ ∀ k, g ≠ .call k := by
          intro u
          simp only [upd]
          split
          · rename_i e
            subst e
            exact .inr ⟨_, _, fs, hf, rfl, by simp⟩
          · exact .inl rfl
        split at hs <;> cases hs
        · refine h.less (fun u => ?_) (fun u j hu => ?_) (.inr ⟨i, rfl⟩) (Nat.le_refl _)
          · rcases hfr u with e | e
            · exact .inl e
            · exact .inr (.inr (.inr (.inr e)))
          · by_cases hj : j = i
            · subst hj; exact .inr (by simp [State.post])
            · refine .inl ?_
              have := mem_upd hu (by intro b hb e; subst e; simpa [hj] using hb)
              exact mem_upd this (by intro b hb e; subst e; simpa [State.push, State.post] using hb)
        · obtain ⟨a1, a2, a3, a4⟩ := abort_same
            (State.post { s with frames := upd s.frames t (Frame.replied :: fs) } t Work.complete) h0
          refine h.less (fun u => ?_) (fun u j hu => .inl ?_) (.inl a2) (by rw [a3]; exact Nat.le_refl _)
          · rw [a1]
            rcases hfr u with e | e
            · exact .inl e
            · exact .inr (.inr (.inr (.inr e)))
          · exact mem_upd (a4 u j hu) (by intro b hb e; subst e; simpa [State.push, State.post] using hb)
      · cases hs
  | die t =>
    simp only [Nested.step] at hs
    cases hs
    refine h.less (fun u => ?_) (fun u i hu => .inl ?_) (.inl rfl) (Nat.le_refl _)
    · simp only [upd]
      split
      · exact .inr (.inr (.inl rfl))
      · exact .inl rfl
    · exact mem_upd hu (by intro b hb e; cases hb)
  | reap h0 =>
    have key : Told (s.abort h0) := by
      obtain ⟨a1, a2, a3, a4⟩ := abort_same s h0
      exact h.less (fun u => .inl (by rw [a1])) (fun u i hu => .inl (a4 u i hu)) (.inl a2) (by rw [a3]; exact Nat.le_refl _)
    simp only [Nested.step] at hs
    split at hs
    · cases hs
    · split at hs
      · cases hs; exact key
      · split at hs <;> cases hs
        exact key

theorem Told.reach {s : State} (h : Reach Nested.step {} s) : Told s :=
  (Reach.invariant (P := fun s => Inv s ∧ Told s) ⟨Inv.init, Told.init⟩ (fun _ _ _ hi hs => ⟨hi.1.step hs, hi.2.step hi.1 hs⟩) h).2

end Gb.Nested
