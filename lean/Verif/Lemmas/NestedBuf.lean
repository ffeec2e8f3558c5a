import Verif.Lemmas.Nested
import Verif.Model.NestedBuf
/-
Helper lemmas about nested calls with read buffers.
-/
set_option autoImplicit false

namespace Gb.Nested

/-- A thread which calls is handling something (or isn't doing anything); one which is handling something has been waiting for the result
of a call (or for transactions). -/
def Alt : List Frame → Prop
  | [] => True
  | .call _ :: fs | .oneway :: fs => (fs = [] ∨ ∃ i gs, fs = .handle i :: gs) ∧ Alt fs
  | .handle _ :: fs | .replied :: fs => (fs = [] ∨ ∃ i gs, fs = .call i :: gs) ∧ Alt fs

/-- There's nothing after a command which isn't a confirmation. -/
def Last : List Work → Prop
  | [] => True
  | w :: ws => (w ≠ .complete → ws = []) ∧ Last ws

theorem Last.append {ws : List Work} (h : ∀ w ∈ ws, w = .complete) (w : Work) : Last (ws ++ [w]) := by
  induction ws with
  | nil => exact ⟨fun _ => rfl, trivial⟩
  | cons v ws ih => exact ⟨fun hv => absurd (h v List.mem_cons_self) hv, ih fun w hw => h w (List.mem_cons_of_mem _ hw)⟩

/-- How commands and what a thread is doing fit together. -/
structure Tidy (fs : List Frame) (ws : List Work) : Prop where
  alt : Alt fs
  last : Last ws
  oneway : fs.head? = some .oneway → ws.length ≤ 1

theorem Alt.reactOk {fs gs : List Frame} {w : Work} (h : Alt fs) (hr : reactOk fs w = some gs) :
    Alt gs ∧ gs.head? ≠ some .oneway := by
  unfold Nested.reactOk at hr
  split at hr <;> (try split at hr) <;> cases hr <;> grind [Alt]

theorem run_call {fs gs : List Frame} {ws : List Work} {k : Nat} (ha : Alt fs) (hl : Last ws) (hr : run fs ws = some (.call k :: gs)) :
    (∀ w ∈ ws, w = .complete) ∧ fs.head? ≠ some .oneway := by
  induction ws generalizing fs with
  | nil =>
    simp only [run, Option.some.injEq] at hr
    subst hr
    exact ⟨by simp, by simp⟩
  | cons w ws ih =>
    simp only [run] at hr
    cases hw : reactOk fs w with
    | none => rw [hw] at hr; cases hr
    | some hs =>
      rw [hw] at hr
      simp only [Option.bind_some] at hr
      obtain ⟨h1, h2⟩ := ha.reactOk hw
      have ih := ih h1 hl.2 hr
      cases w with
      | complete =>
        refine ⟨?_, ?_⟩
        · intro v hv
          rcases List.mem_cons.1 hv with rfl | hv
          · rfl
          · exact ih.1 v hv
        · cases fs with
          | nil => simp
          | cons f fs =>
            cases f with
            | oneway =>
              simp only [Nested.reactOk, Option.some.injEq] at hw
              subst hw
              rcases ha.1 with h | ⟨i, gs', h⟩
              · subst h
                cases ws with
                | nil => cases hr
                | cons v ws => have := ih.1 v List.mem_cons_self; subst this; cases hr
              · subst h
                have := run_handle hr
                subst this
                cases hr
            | _ => simp
      | _ =>
        exfalso
        have := hl.1 (by simp)
        subst this
        simp only [run, Option.some.injEq] at hr
        subst hr
        unfold Nested.reactOk at hw
        split at hw <;> simp_all [Alt]

/-- Nobody has something which comes after the last command. -/
def AllTidy (s : State) : Prop := ∀ t, s.dead t = false → Tidy (s.frames t) (s.todo t)

theorem Tidy.append {fs gs : List Frame} {ws : List Work} {w : Work} {k : Nat} (h : Tidy fs ws) (hr : run fs ws = some (.call k :: gs)) :
    Tidy fs (ws ++ [w]) := by
  obtain ⟨h1, h2⟩ := run_call h.alt h.last hr
  exact ⟨h.alt, Last.append h1 w, fun h => absurd h h2⟩

theorem AllTidy.post {s s' : State} (h : AllTidy s) {u : Nat} {w : Work} (hf : s'.frames = s.frames)
    (ht : s'.todo = upd s.todo u (s.todo u ++ [w])) (hd : s'.dead = s.dead) (hi : Inv s')
    (hw : ∃ i, w = .reply i ∨ w = .error (some i)) : AllTidy s' := by
  intro t hdt
  rw [hd] at hdt
  have h0 := h t hdt
  rw [hf, ht]
  by_cases hu : t = u
  · subst hu
    rw [upd_same]
    obtain ⟨k, hr, _⟩ := hi.fine t (by rw [hd]; exact hdt)
    rw [hf, ht, upd_same, run_append] at hr
    cases hg : run (s.frames t) (s.todo t) with
    | none => rw [hg] at hr; cases hr
    | some gs =>
      rw [hg] at hr
      simp only [Option.bind_some] at hr
      obtain ⟨i, rfl | rfl⟩ := hw
      · cases gs with
        | nil => cases hr
        | cons f gs => cases f <;> first | exact h0.append hg | cases hr
      · cases gs with
        | nil => cases hr
        | cons f gs => cases f <;> first | exact h0.append hg | cases hr
  · rw [upd_ne _ _ hu]
    exact h0

theorem AllTidy.abort {s : State} (h : AllTidy s) (h0 : Nat) (hi : Inv (s.abort h0)) : AllTidy (s.abort h0) := by
  revert hi
  simp only [State.abort]
  split
  · exact fun _ => h
  · rename_i c u i _
    exact fun hi => AllTidy.post (s := s) (u := u) (w := .error (some i)) h rfl rfl rfl hi ⟨i, .inr rfl⟩

theorem Alt.free {s : State} (h : AllTidy s) {t : Nat} (hf : s.free t = true) : s.dead t = false ∧
    (s.frames t = [] ∨ ∃ i gs, s.frames t = .handle i :: gs) ∧ Alt (s.frames t) := by
  simp only [State.free, Bool.and_eq_true, Bool.not_eq_true'] at hf
  refine ⟨hf.1, ?_, (h t hf.1).alt⟩
  have := hf.2
  split at this
  · rename_i h; exact .inr ⟨_, _, h⟩
  · rename_i h; exact .inl h
  · cases this

theorem mayCall_free {s : State} {t h0 : Nat} (h : s.mayCall t h0 = true) : s.free t = true := by
  simp only [State.mayCall, State.free, Bool.and_eq_true] at h ⊢
  refine ⟨h.1, ?_⟩
  have := h.2
  split at this <;> simp_all

theorem free_todo {s : State} (hi : Inv s) {t : Nat} (hf : s.free t = true) : s.todo t = [] := by
  simp only [State.free, Bool.and_eq_true, Bool.not_eq_true'] at hf
  have := hf.2
  split at this
  · rename_i h; exact (hi.active hf.1 h).1
  · simpa using this
  · cases this

/-- The thread sends something. -/
theorem AllTidy.sends {s s' : State} (h : AllTidy s) (hi : Inv s) {t : Nat} (hf : s.free t = true) {f : Frame} {w : Work}
    (hc : f = .oneway ∨ ∃ i, f = .call i) (h1 : s'.frames = upd s.frames t (f :: s.frames t))
    (h2 : s'.todo = upd s.todo t (s.todo t ++ [w])) (h3 : s'.dead = s.dead) : AllTidy s' := by
  intro u hu
  rw [h3] at hu
  rw [h1, h2]
  by_cases hut : u = t
  · subst hut
    rw [upd_same, upd_same, free_todo hi hf]
    obtain ⟨_, ha, hb⟩ := Alt.free h hf
    refine ⟨?_, ⟨fun _ => rfl, trivial⟩, fun _ => by simp⟩
    rcases hc with rfl | ⟨i, rfl⟩ <;> exact ⟨ha, hb⟩
  · rw [upd_ne _ _ hut, upd_ne _ _ hut]
    exact h u hu

theorem AllTidy.step {s s' : State} {l : Label} (hi : Inv s) (hi' : Inv s') (h : AllTidy s) (hs : step s l = .ok s') : AllTidy s' := by
  cases l with
  | call t h0 =>
    simp only [Nested.step] at hs
    split at hs <;> cases hs
    rename_i hm
    exact h.sends hi (mayCall_free hm) (.inr ⟨_, rfl⟩) rfl rfl rfl
  | callTo t h0 u =>
    simp only [Nested.step] at hs
    split at hs <;> cases hs
    rename_i hm
    obtain ⟨hm, hut, hdu, hsrc⟩ := hm
    have h1 : AllTidy ({ s with
        next := s.next + 1, chain := upd s.chain h0 (⟨s.next, t, some u⟩ :: s.chain h0)
        log := s.log ++ [Ev.made t s.next] }.push t (.call s.next) |>.post t .complete) :=
      h.sends hi (mayCall_free hm) (.inr ⟨_, rfl⟩) rfl rfl rfl
    intro v hv
    by_cases hvu : v = u
    · subst hvu
      have h2 := h1 v hv
      simp only [State.push, State.post, upd_same, upd_ne _ _ hut] at h2 ⊢
      obtain ⟨hd, _, hc⟩ := hi.mayCall hm
      rcases hc with ⟨i, fs, x, c, hf, hc, hx, _⟩ | ⟨_, hc⟩
      · have hl := hi.linked h0
        rw [hc] at hl hsrc
        obtain ⟨k, hr, ho⟩ := hi.fine v hdu
        rcases top_call (t := v) hl (by rw [hx]; intro e; cases e; exact hut rfl) with ⟨_, h4⟩ | ⟨k', gs, h4⟩
        · exact absurd hsrc h4
        · rcases hi.cases h0 hdu hr with h5 | h5
          · rw [hc, h4] at h5
            rw [h5] at hr
            exact h2.append hr
          · rw [hc, h4] at h5; cases h5
      · rw [hc] at hsrc; cases hsrc
    · have h2 := h1 v hv
      simp only [State.push, State.post, upd_ne _ _ hvu] at h2 ⊢
      exact h2
  | callFails t =>
    simp only [Nested.step] at hs
    split at hs <;> cases hs
    rename_i hm
    exact h.sends hi hm (.inr ⟨_, rfl⟩) rfl rfl rfl
  | oneway t =>
    simp only [Nested.step] at hs
    split at hs <;> cases hs
    rename_i hm
    exact h.sends hi hm (.inl rfl) rfl rfl rfl
  | onewayFails t =>
    simp only [Nested.step] at hs
    split at hs <;> cases hs
    rename_i hm
    exact h.sends hi hm (.inl rfl) rfl rfl rfl
  | pick u h0 =>
    simp only [Nested.step] at hs
    split at hs
    · rename_i hu
      split at hs
      · cases hs
      · split at hs <;> cases hs
        intro t ht
        have h0 := h t ht
        simp only [State.post]
        by_cases hut : t = u
        · subst hut
          rw [upd_same, hu.2.1, hu.2.2]
          exact ⟨trivial, ⟨fun _ => rfl, trivial⟩, fun _ => by simp⟩
        · rw [upd_ne _ _ hut]
          exact h0
    · cases hs
  | read t =>
    simp only [Nested.step] at hs
    split at hs
    · cases hs
    · rename_i w ws hw
      split at hs
      · cases hs
      · rename_i hd
        split at hs
        · cases hs
        · cases hs
          intro u hu
          have h0 := h u hu
          simp only
          by_cases hut : u = t
          · subst hut
            rw [upd_same, upd_same]
            obtain ⟨k, hr, _⟩ := hi.fine u hu
            rw [hw] at hr h0
            simp only [run] at hr
            cases hg : reactOk (s.frames u) w with
            | none => rw [hg] at hr; cases hr
            | some gs =>
              obtain ⟨h1, h2⟩ := h0.alt.reactOk hg
              rw [(reactOk_react (t := u) hg).1]
              exact ⟨h1, h0.last.2, fun h => absurd h h2⟩
          · rw [upd_ne _ _ hut, upd_ne _ _ hut]
            exact h0
  | reply t h0 ok =>
    simp only [Nested.step] at hs
    split at hs
    · cases hs
    · rename_i hd
      have hd : s.dead t = false := by simpa using hd
      split at hs
      · rename_i i fs x c hf hc
        split at hs
        · have h1 : AllTidy (State.post { s with frames := upd s.frames t (.replied :: fs) } t .complete) := by
            intro u hu
            have h0 := h u hu
            simp only [State.post]
            by_cases hut : u = t
            · subst hut
              rw [upd_same, upd_same, (hi.active hd hf).1]
              rw [hf] at h0
              exact ⟨h0.alt, ⟨fun _ => rfl, trivial⟩, fun h => by cases h⟩
            · rw [upd_ne _ _ hut, upd_ne _ _ hut]
              exact h0
          split at hs <;> cases hs
          · exact AllTidy.post h1 rfl rfl rfl hi' ⟨i, .inl rfl⟩
          · exact h1.abort h0 hi'
        · cases hs
      · cases hs
  | die t =>
    simp only [Nested.step] at hs
    cases hs
    intro u hu
    simp only at hu ⊢
    by_cases hut : u = t
    · subst hut; rw [upd_same] at hu; cases hu
    · rw [upd_ne _ _ hut] at hu
      rw [upd_ne _ _ hut, upd_ne _ _ hut]
      exact h u hu
  | reap h0 =>
    simp only [Nested.step] at hs
    split at hs
    · cases hs
    · split at hs
      · cases hs; exact h.abort h0 hi'
      · split at hs <;> cases hs
        exact h.abort h0 hi'

theorem AllTidy.reach {s : State} (h : Reach Nested.step {} s) : AllTidy s := by
  have : Inv s ∧ AllTidy s := by
    refine Reach.invariant (P := fun s => Inv s ∧ AllTidy s) ⟨Inv.init, ?_⟩ ?_ h
    · exact fun t _ => ⟨trivial, trivial, fun h => by cases h⟩
    · intro s l s' hp hs
      have hi := Inv.step hp.1 hs
      exact ⟨hi, hp.2.step hp.1 hi hs⟩
  exact this.2

end Gb.Nested

namespace Gb.NestedBuf
open Nested (Frame Work Tx Ev react)

/-- Model/Nested doesn't tell read buffers and the kernel apart. -/
def abs (s : State) : Nested.State := { s.base with todo := fun t => (s.bufs t).flatten ++ s.base.todo t }

structure Rel (s : State) : Prop where
  reach : Reach Nested.step {} (abs s)
  outer : ∀ t, ∃ b bs, s.bufs t = b :: bs ∧ ∀ c ∈ bs, c = []
  count : ∀ t, (s.bufs t).length = (s.base.frames t).countP isContext + 1

theorem abs_post (b : Nested.State) (q : Nat → List (List Work)) (t : Nat) (w : Work) :
    abs ⟨b.post t w, q⟩ = (abs ⟨b, q⟩).post t w := by
  simp only [abs, Nested.State.post, Nested.State.mk.injEq, true_and, and_true]
  funext u
  by_cases h : u = t
  · subst h; rw [upd_same, upd_same, List.append_assoc]
  · rw [upd_ne _ _ h, upd_ne _ _ h]

theorem abs_abort (b : Nested.State) (q : Nat → List (List Work)) (h : Nat) :
    abs ⟨b.abort h, q⟩ = (abs ⟨b, q⟩).abort h := by
  simp only [Nested.State.abort]
  have h1 : (abs ⟨b, q⟩).dead = b.dead := rfl
  have h2 : (abs ⟨b, q⟩).chain = b.chain := rfl
  rw [h1, h2]
  split
  · rfl
  · rw [abs_post]; rfl

theorem abs_begin (b : Nested.State) (s : State) (t : Nat) : abs ⟨b, begin_ s t⟩ = abs ⟨b, s.bufs⟩ := by
  simp only [abs, begin_, Nested.State.mk.injEq, true_and, and_true]
  funext u
  by_cases h : u = t
  · subst h; rw [upd_same]; simp
  · rw [upd_ne _ _ h]

theorem todo_idle {s : State} {t : Nat} (h : idle s t = true) (hf : s.base.frames t = []) : (abs s).todo t = s.base.todo t := by
  simp only [idle, hf, Bool.or_eq_true] at h
  rcases h with h | h
  · cases h
  · have := beq_iff_eq.1 h
    simp [abs, this]

theorem mayCall_abs {s : State} {t : Nat} (h : idle s t = true) (k : Nat) : (abs s).mayCall t k = s.base.mayCall t k := by
  have h1 : (abs s).frames = s.base.frames := rfl
  have h2 : (abs s).chain = s.base.chain := rfl
  have h3 : (abs s).dead = s.base.dead := rfl
  simp only [Nested.State.mayCall, h1, h2, h3]
  cases hf : s.base.frames t with
  | nil => rw [todo_idle h hf]
  | cons f fs => cases f <;> cases s.base.chain k <;> rfl

theorem free_abs {s : State} {t : Nat} (h : idle s t = true) : (abs s).free t = s.base.free t := by
  have h1 : (abs s).frames = s.base.frames := rfl
  have h3 : (abs s).dead = s.base.dead := rfl
  simp only [Nested.State.free, h1, h3]
  cases hf : s.base.frames t with
  | nil => rw [todo_idle h hf]
  | cons f fs => cases f <;> rfl

/-- Who sends something. -/
def sender : Nested.Label → Option Nat
  | .call t _ | .callTo t _ _ | .callFails t | .oneway t | .onewayFails t => some t
  | _ => none

theorem sends_abs {s : State} {l : Nested.Label} {t : Nat} {b : Nested.State} (hl : sender l = some t) (hi : idle s t = true)
    (hs : Nested.step s.base l = .ok b) :
    Nested.step (abs s) l = .ok (abs ⟨b, s.bufs⟩) ∧ s.base.free t = true ∧
      ∃ f, isContext f = true ∧ b.frames = upd s.base.frames t (f :: s.base.frames t) := by
  cases l with
  | call u k =>
    cases hl
    simp only [Nested.step] at hs ⊢
    rw [mayCall_abs hi]
    split at hs <;> cases hs
    rename_i hm
    rw [if_pos hm]
    exact ⟨by rw [abs_post]; rfl, Nested.mayCall_free hm, _, rfl, rfl⟩
  | callTo u k v =>
    cases hl
    simp only [Nested.step] at hs ⊢
    rw [mayCall_abs hi]
    split at hs <;> cases hs
    rename_i hm
    exact ⟨(if_pos hm).trans (by rw [abs_post, abs_post]; rfl), Nested.mayCall_free hm.1, _, rfl, rfl⟩
  | callFails u =>
    cases hl
    simp only [Nested.step] at hs ⊢
    rw [free_abs hi]
    split at hs <;> cases hs
    rename_i hm
    rw [if_pos hm]
    exact ⟨by rw [abs_post]; rfl, hm, _, rfl, rfl⟩
  | oneway u =>
    cases hl
    simp only [Nested.step] at hs ⊢
    rw [free_abs hi]
    split at hs <;> cases hs
    rename_i hm
    rw [if_pos hm]
    exact ⟨by rw [abs_post]; rfl, hm, _, rfl, rfl⟩
  | onewayFails u =>
    cases hl
    simp only [Nested.step] at hs ⊢
    rw [free_abs hi]
    split at hs <;> cases hs
    rename_i hm
    rw [if_pos hm]
    exact ⟨by rw [abs_post]; rfl, hm, _, rfl, rfl⟩
  | _ => cases hl

theorem Rel.sends {s : State} (h : Rel s) {l : Nested.Label} {t : Nat} {b : Nested.State} (hl : sender l = some t)
    (hi : idle s t = true) (hs : Nested.step s.base l = .ok b) : Rel ⟨b, begin_ s t⟩ := by
  obtain ⟨h1, h2, f, h3, h4⟩ := sends_abs hl hi hs
  refine ⟨?_, ?_, ?_⟩
  · rw [abs_begin]
    exact h.reach.step h1
  · intro u
    simp only [begin_]
    by_cases hu : u = t
    · subst hu
      rw [upd_same]
      refine ⟨[], _, rfl, ?_⟩
      have := Nested.free_todo (Nested.Inv.reach h.reach) (by rw [free_abs hi]; exact h2)
      simp only [abs, List.append_eq_nil_iff, List.flatten_eq_nil_iff] at this
      exact this.1
    · rw [upd_ne _ _ hu]
      exact h.outer u
  · intro u
    simp only [begin_]
    rw [h4]
    by_cases hu : u = t
    · subst hu
      rw [upd_same, upd_same]
      simp [h3, h.count u]
    · rw [upd_ne _ _ hu, upd_ne _ _ hu]
      exact h.count u

theorem react_count (t : Nat) (fs : List Frame) (w : Work) :
    (react t fs w).1.countP isContext = fs.countP isContext ∨ (react t fs w).1.countP isContext + 1 = fs.countP isContext := by
  unfold react
  split <;> simp [isContext, List.countP_cons]

theorem ended_last {t : Nat} {fs : List Frame} {w : Work} {ws : List Work} (h : Nested.Tidy fs (w :: ws))
    (hc : (react t fs w).1.countP isContext < fs.countP isContext) : ws = [] := by
  cases fs with
  | nil => simp at hc
  | cons f fs =>
    cases f with
    | oneway =>
      have := h.oneway rfl
      cases ws with
      | nil => rfl
      | cons v ws => simp at this
    | call k =>
      refine h.last.1 ?_
      rintro rfl
      simp [react] at hc
    | handle i => cases w <;> simp [react, isContext] at hc
    | replied => cases w <;> simp [react, isContext] at hc

theorem step_take {s : State} (h : Rel s) (t : Nat) : step s (.take t) ≠ .ub ∧ ∀ s', step s (.take t) = .ok s' → Rel s' := by
  simp only [step]
  split
  · exact ⟨by simp, by simp⟩
  · rename_i hd
    have hd : s.base.dead t = false := by simpa using hd
    split
    · exact ⟨by simp, by simp⟩
    · rename_i w b bs hb hn
      have hw : (abs s).todo t = w :: (b ++ (bs.flatten ++ s.base.todo t)) := by
        simp [abs, hb]
      have hr : Nested.step (abs s) (.read t) = .ok { abs s with
          todo := upd (abs s).todo t (b ++ (bs.flatten ++ s.base.todo t))
          frames := upd s.base.frames t (react t (s.base.frames t) w).1
          log := s.base.log ++ (react t (s.base.frames t) w).2 } := by
        have h1 : (abs s).frames = s.base.frames := rfl
        have h3 : (abs s).dead = s.base.dead := rfl
        have h4 : (abs s).log = s.base.log := rfl
        simp only [Nested.step, hw, h1, h3, h4, hd]
        split
        · cases ‹false = true›
        · rfl
      have hlen := h.count t
      obtain ⟨b0, bs0, h5, h6⟩ := h.outer t
      rw [hb] at h5 hlen
      simp only [List.cons.injEq] at h5
      obtain ⟨rfl, rfl⟩ := h5
      have ha (q : List (List Work)) (hq : q.flatten = b ++ bs.flatten) :
          Reach Nested.step {} (abs ⟨{ s.base with
            frames := upd s.base.frames t (react t (s.base.frames t) w).1
            log := s.base.log ++ (react t (s.base.frames t) w).2 }, upd s.bufs t q⟩) := by
        have hr := h.reach.step hr
        have he : (fun u => (upd s.bufs t q u).flatten ++ s.base.todo u) =
            upd (abs s).todo t (b ++ (bs.flatten ++ s.base.todo t)) := by
          funext u
          by_cases hu : u = t
          · subst hu; rw [upd_same, upd_same, hq, List.append_assoc]
          · rw [upd_ne _ _ hu, upd_ne _ _ hu]; rfl
        simp only [abs] at hr ⊢
        rw [he]
        exact hr
      split
      · rename_i hc
        have he := ended_last (ws := b ++ (bs.flatten ++ s.base.todo t))
          (by rw [← hw]; exact Nested.AllTidy.reach h.reach t hd) hc
        simp only [List.append_eq_nil_iff] at he
        rw [if_pos he.1]
        refine ⟨by simp, ?_⟩
        intro s' hs
        cases hs
        have hcount := react_count t (s.base.frames t) w
        simp only [List.length_cons] at hlen
        refine ⟨ha bs (by rw [he.1]; rfl), ?_, ?_⟩
        · intro u
          simp only
          by_cases hu : u = t
          · subst hu
            rw [upd_same]
            cases bs with
            | nil => simp only [List.length_nil] at hlen; omega
            | cons c cs => exact ⟨c, cs, rfl, fun d hd => h6 d (List.mem_cons_of_mem _ hd)⟩
          · rw [upd_ne _ _ hu]
            exact h.outer u
        · intro u
          simp only
          by_cases hu : u = t
          · subst hu
            rw [upd_same, upd_same]
            omega
          · rw [upd_ne _ _ hu, upd_ne _ _ hu]
            exact h.count u
      · rename_i hc
        refine ⟨by simp, ?_⟩
        intro s' hs
        cases hs
        have hcount := react_count t (s.base.frames t) w
        simp only [List.length_cons] at hlen
        refine ⟨ha (b :: bs) rfl, ?_, ?_⟩
        · intro u
          simp only
          by_cases hu : u = t
          · subst hu
            rw [upd_same]
            exact ⟨b, bs, rfl, h6⟩
          · rw [upd_ne _ _ hu]
            exact h.outer u
        · intro u
          simp only
          by_cases hu : u = t
          · subst hu
            rw [upd_same, upd_same, List.length_cons]
            omega
          · rw [upd_ne _ _ hu, upd_ne _ _ hu]
            exact h.count u
    · exact ⟨by simp, by simp⟩

theorem step_fetch {s : State} (h : Rel s) (t n : Nat) : step s (.fetch t n) ≠ .ub ∧ ∀ s', step s (.fetch t n) = .ok s' → Rel s' := by
  obtain ⟨b, bs, h1, h2⟩ := h.outer t
  have hbs : bs.flatten = [] := List.flatten_eq_nil_iff.2 h2
  simp only [step, h1]
  split
  · exact ⟨by simp, by simp⟩
  · split
    · exact ⟨by simp, by simp⟩
    · rename_i b' bs' hb hn
      simp only [List.cons.injEq] at hb
      obtain ⟨rfl, rfl⟩ := hb
      refine ⟨by simp, ?_⟩
      intro s' hs
      cases hs
      refine ⟨?_, ?_, ?_⟩
      · have he : (fun u => (upd s.bufs t ((b ++ (s.base.todo t).take n) :: bs) u).flatten ++
            upd s.base.todo t ((s.base.todo t).drop n) u) = (abs s).todo := by
          funext u
          by_cases hu : u = t
          · subst hu
            simp [abs, upd_same, h1, hbs]
          · rw [upd_ne _ _ hu, upd_ne _ _ hu]; rfl
        have := h.reach
        simp only [abs] at this he ⊢
        rw [he]
        exact this
      · intro u
        simp only
        by_cases hu : u = t
        · subst hu
          rw [upd_same]
          exact ⟨_, bs, rfl, h2⟩
        · rw [upd_ne _ _ hu]
          exact h.outer u
      · intro u
        simp only
        by_cases hu : u = t
        · subst hu
          have := h.count u
          rw [h1] at this
          rw [upd_same]
          simpa using this
        · rw [upd_ne _ _ hu]
          exact h.count u
    · rename_i hb hn
      cases hb

theorem nested_no_ub (b : Nested.State) (l : Nested.Label) : Nested.step b l ≠ .ub := by
  cases l <;> simp only [Nested.step] <;> grind

/-- Steps which change neither buffers nor what the thread is doing, or rather who is waiting for results. -/
theorem Rel.keeps {s : State} (h : Rel s) {l : Nested.Label} {b : Nested.State} (hs : Nested.step (abs s) l = .ok (abs ⟨b, s.bufs⟩))
    (hf : ∀ t, (b.frames t).countP isContext = (s.base.frames t).countP isContext) : Rel { s with base := b } :=
  ⟨h.reach.step hs, h.outer, fun t => by rw [hf t]; exact h.count t⟩

theorem step_ok {s : State} (h : Rel s) (l : Label) : step s l ≠ .ub ∧ ∀ s', step s l = .ok s' → Rel s' := by
  have hsend {l : Nested.Label} {t : Nat} (hl : sender l = some t) :
      (if idle s t then match Nested.step s.base l with
        | .ok b => Out.ok (⟨b, begin_ s t⟩ : State)
        | .no => .no
        | .ub => .ub
      else .no) ≠ .ub ∧ ∀ s', (if idle s t then match Nested.step s.base l with
        | .ok b => Out.ok (⟨b, begin_ s t⟩ : State)
        | .no => .no
        | .ub => .ub
      else .no) = .ok s' → Rel s' := by
    split
    · rename_i hi
      split
      · rename_i b hb
        refine ⟨by simp, fun s' he => ?_⟩
        cases he
        exact h.sends hl hi hb
      · exact ⟨by simp, by simp⟩
      · rename_i hb
        exact absurd hb (nested_no_ub _ _)
    · exact ⟨by simp, by simp⟩
  cases l with
  | fetch t n => exact step_fetch h t n
  | take t => exact step_take h t
  | base l =>
    cases l with
    | read t => exact ⟨by simp [step], by simp [step]⟩
    | call t k => exact hsend (l := .call t k) rfl
    | callTo t k u => exact hsend (l := .callTo t k u) rfl
    | callFails t => exact hsend (l := .callFails t) rfl
    | oneway t => exact hsend (l := .oneway t) rfl
    | onewayFails t => exact hsend (l := .onewayFails t) rfl
    | pick t k =>
      simp only [step]
      split
      · rename_i hi
        split
        · rename_i b hb
          refine ⟨by simp, fun s' he => ?_⟩
          cases he
          have hb' := hb
          simp only [Nested.step] at hb'
          split at hb'
          · rename_i hu
            split at hb'
            · cases hb'
            · rename_i x c hc
              split at hb' <;> cases hb'
              rename_i hx
              refine h.keeps (l := .pick t k) ?_ (fun _ => rfl)
              have ht : (abs s).todo t = [] := by rw [todo_idle hi hu.2.1]; exact hu.2.2
              have h1 : (abs s).frames = s.base.frames := rfl
              have h2 : (abs s).chain = s.base.chain := rfl
              have h3 : (abs s).dead = s.base.dead := rfl
              simp only [Nested.step, ht, h1, h2, h3, hu.1, hu.2.1, hc, hx]
              simp only [and_self, if_true]
              rw [abs_post]
              rfl
          · cases hb'
        · exact ⟨by simp, by simp⟩
        · rename_i hb
          exact absurd hb (nested_no_ub _ _)
      · exact ⟨by simp, by simp⟩
    | die t =>
      simp only [step, Nested.step]
      refine ⟨by simp, fun s' he => ?_⟩
      cases he
      refine ⟨?_, ?_, ?_⟩
      · have := h.reach.step (l := .die t) rfl
        have he : (fun u => (upd s.bufs t [[]] u).flatten ++ upd s.base.todo t [] u) = upd (abs s).todo t [] := by
          funext u
          by_cases hu : u = t
          · subst hu; simp [upd_same]
          · rw [upd_ne _ _ hu, upd_ne _ _ hu, upd_ne _ _ hu]; rfl
        simp only [abs] at this he ⊢
        rw [he]
        exact this
      · intro u
        simp only
        by_cases hu : u = t
        · subst hu; rw [upd_same]; exact ⟨[], [], rfl, by simp⟩
        · rw [upd_ne _ _ hu]; exact h.outer u
      · intro u
        simp only
        by_cases hu : u = t
        · subst hu; rw [upd_same, upd_same]; rfl
        · rw [upd_ne _ _ hu, upd_ne _ _ hu]; exact h.count u
    | reply t k ok =>
      simp only [step]
      split
      · rename_i b hb
        refine ⟨by simp, fun s' he => ?_⟩
        cases he
        simp only [Nested.step] at hb
        split at hb
        · cases hb
        · rename_i hd
          split at hb
          · rename_i i fs x c hf hc
            split at hb
            · rename_i hx
              have h1 : (abs s).frames = s.base.frames := rfl
              have h2 : (abs s).chain = s.base.chain := rfl
              have h3 : (abs s).dead = s.base.dead := rfl
              have hcnt : ∀ u, (upd s.base.frames t (.replied :: fs) u).countP isContext =
                  (s.base.frames u).countP isContext := by
                intro u
                by_cases hu : u = t
                · subst hu; rw [upd_same, hf]; simp [isContext]
                · rw [upd_ne _ _ hu]
              split at hb
              · rename_i ho
                cases hb
                refine h.keeps (l := .reply t k ok) ?_ hcnt
                simp only [Nested.step, h1, h2, h3, hf, hc]
                rw [if_neg hd, if_pos hx, if_pos ho, abs_post]
                congr 2
                exact (abs_post { s.base with
                  frames := upd s.base.frames t (.replied :: fs), chain := upd s.base.chain k c
                  log := s.base.log ++ [Ev.answered i] } s.bufs t .complete).symm
              · rename_i ho
                cases hb
                refine h.keeps (l := .reply t k ok) ?_ ?_
                · simp only [Nested.step, h1, h2, h3, hf, hc]
                  rw [if_neg hd, if_pos hx, if_neg ho, abs_abort, abs_post]
                  rfl
                · intro u
                  rw [← hcnt u]
                  simp only [Nested.State.abort]
                  split <;> rfl
            · cases hb
          · cases hb
      · exact ⟨by simp, by simp⟩
      · rename_i hb
        exact absurd hb (nested_no_ub _ _)
    | reap k =>
      have hfr (u : Nat) : ((s.base.abort k).frames u).countP isContext = (s.base.frames u).countP isContext := by
        simp only [Nested.State.abort]
        split <;> rfl
      have h2 : (abs s).chain = s.base.chain := rfl
      have h3 : (abs s).dead = s.base.dead := rfl
      simp only [step]
      split
      · rename_i b hb
        refine ⟨by simp, fun s' he => ?_⟩
        cases he
        simp only [Nested.step] at hb
        split at hb
        · cases hb
        · rename_i x c hc
          split at hb
          · rename_i hx
            cases hb
            refine h.keeps (l := .reap k) ?_ hfr
            simp only [Nested.step, h2, hc, hx]
            rw [abs_abort]
          · rename_i u hx
            split at hb <;> cases hb
            rename_i hd
            refine h.keeps (l := .reap k) ?_ hfr
            simp only [Nested.step, h2, h3, hc, hx]
            rw [if_pos hd, abs_abort]
      · exact ⟨by simp, by simp⟩
      · rename_i hb
        exact absurd hb (nested_no_ub _ _)

theorem Rel.init : Rel {} := ⟨Reach.init, fun _ => ⟨[], [], rfl, by simp⟩, fun _ => rfl⟩

theorem Rel.of {s : State} (h : Reach step {} s) : Rel s :=
  Reach.invariant (P := Rel) Rel.init (fun _ l s' hp hs => (step_ok hp l).2 s' hs) h

end Gb.NestedBuf
