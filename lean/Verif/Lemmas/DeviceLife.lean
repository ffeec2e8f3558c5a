import Verif.Lemmas.DeviceStep
/-
The life of a driver; and nothing is undefined unless a looper hangs.
-/
set_option autoImplicit false

namespace Gb.Device

theorem life_snoc (d : Nat) (log : List Ev) (e : Ev) :
    life d (log ++ [e]) = (life d log).bind fun o => lifeStep d o e := by
  simp [life]

theorem life_quiet {d : Nat} {log : List Ev} {e : Ev} (h : ∀ o, lifeStep d o e = some o) : life d (log ++ [e]) = life d log := by
  rw [life_snoc]
  cases life d log <;> simp [h]

def Life (s : State) : Prop := ∀ d, life d s.log = some (s.drv d).isSome

theorem close_life (s : State) (d : Nat) (x : Drv) (d' : Nat) : life d' (close s d x).log = life d' s.log := by
  unfold close
  split
  · rfl
  · simp only [sysClose]
    split
    · simp only []
      rw [life_quiet (fun o => rfl), life_quiet (fun o => rfl)]
    · simp only []
      rw [life_quiet (fun o => rfl), life_quiet (fun o => rfl)]

theorem close_drv (s : State) (d : Nat) (x : Drv) (h : s.drv d = some x) (d' : Nat) :
    ((close s d x).drv d').isSome = (s.drv d').isSome := by
  unfold close
  split
  · rfl
  · simp only [sysClose]
    have : ∀ x', (upd s.drv d (some x') d').isSome = (s.drv d').isSome := by
      intro x'
      by_cases hd : d' = d
      · subst hd; simp [upd_same, h]
      · rw [upd_ne _ _ hd]
    split <;> exact this _

theorem upd_isSome {drv : Nat → Option Drv} {d : Nat} {x : Drv} (h : drv d = some x) (x' : Drv) (d' : Nat) :
    (upd drv d (some x') d').isSome = (drv d').isSome := by
  by_cases hd : d' = d
  · subst hd; simp [upd_same, h]
  · rw [upd_ne _ _ hd]

theorem Life.unref {s s' : State} (i : Life s) {d : Nat} {h : Holder} (e : Gb.Device.unref s d h = .ok s') : Life s' := by
  unfold Gb.Device.unref at e
  split at e
  · cases e
  · rename_i x hx
    split at e
    · simp only [] at e
      split at e
      · cases e
        intro d'
        simp only []
        rw [life_snoc, close_life]
        show (life d' s.log).bind _ = _
        rw [i d']
        by_cases hd : d' = d
        · subst hd; simp [upd_same, lifeStep, hx]
        · have hd' : d ≠ d' := fun h => hd h.symm
          rw [upd_ne _ _ hd, close_drv _ _ _ (upd_same _ _ _)]
          simp [lifeStep, hd', upd_ne _ _ hd]
      · cases e
        intro d'
        simp only [upd_isSome hx]
        exact i d'
    · cases e

theorem Life.use {s s' : State} (i : Life s) {d : Nat} (e : Gb.Device.use s d = .ok s') : Life s' := by
  unfold Gb.Device.use at e
  split at e
  · cases e
  · cases e
    intro d'
    rw [life_quiet (fun o => rfl)]
    exact i d'

theorem Life.ref {s s' : State} (i : Life s) {d : Nat} {h : Holder} (e : Gb.Device.ref s d h = .ok s') : Life s' := by
  unfold Gb.Device.ref at e
  split at e
  · cases e
  · rename_i x hx
    split at e
    · cases e
    · cases e
      intro d'
      simp only [upd_isSome hx]
      exact i d'

theorem Life.open_ {s s' : State} (i : Life s) (inv : Inv s) {a : Answers} (e : Gb.Device.open_ s a = .ok s') : Life s' := by
  unfold Gb.Device.open_ at e
  split at e
  · cases e
    intro d'
    rw [life_quiet (fun o => rfl)]
    exact i d'
  · rename_i fd _
    split at e
    · cases e
    · have bad : Life { sysClose { sysOpen s fd with log := (sysOpen s fd).log ++ [.ioctl (some fd)] } (some fd) with
          log := (sysClose { sysOpen s fd with log := (sysOpen s fd).log ++ [.ioctl (some fd)] } (some fd)).log ++ [.refused] } := by
        intro d'
        simp only [sysClose, sysOpen]
        rw [life_quiet (fun o => rfl), life_quiet (fun o => rfl), life_quiet (fun o => rfl), life_quiet (fun o => rfl)]
        exact i d'
      simp only [] at e
      split at e
      · cases e; exact bad
      · split at e
        · cases e; exact bad
        · rename_i io _
          split at e
          · cases e; exact bad
          · rename_i vm _
            split at e
            · cases e
            · cases e
              have fresh : s.drv s.next = none := by
                cases hh : s.drv s.next with
                | none => rfl
                | some x => exact absurd (inv.res.lt s.next (x.fd, x.vm) (by simp [hwOf, hh])) (by omega)
              intro d'
              simp only [sysOpen]
              have e : s.log ++ [Ev.opened fd] ++ [Ev.ioctl (some fd)] ++
                  [Ev.mapped vm, Ev.ioctl (some fd), Ev.created s.next io] =
                s.log ++ [Ev.opened fd] ++ [Ev.ioctl (some fd)] ++ [Ev.mapped vm] ++ [Ev.ioctl (some fd)] ++
                  [Ev.created s.next io] := by simp
              rw [e, life_snoc, life_quiet (fun o => rfl), life_quiet (fun o => rfl), life_quiet (fun o => rfl),
                life_quiet (fun o => rfl), i d']
              by_cases hd : d' = s.next
              · subst hd; simp [upd_same, lifeStep, fresh]
              · have hd' : s.next ≠ d' := fun h => hd h.symm
                simp [upd_ne _ _ hd, lifeStep, hd']

theorem andThen_ok {o : Out State} {f : State → Out State} {s : State} (h : o.andThen f = .ok s) :
    ∃ s1, o = .ok s1 ∧ f s1 = .ok s := by
  cases o with
  | ok s1 => exact ⟨s1, rfl, h⟩
  | no => cases h
  | ub => cases h

theorem access_ok {s s' : State} {n : Nat} (h : access s n = .ok s') : s' = s := by
  unfold access at h
  split at h
  · cases h
  · split at h
    · cases h
    · split at h
      · cases h
      · cases h; rfl

theorem Life.step {s s' : State} (i : Life s) (inv : Inv s) {l : Label} (e : Gb.Device.step s l = .ok s') : Life s' := by
  cases l with
  | «open» a => exact i.open_ inv e
  | looper d n =>
    simp only [Gb.Device.step] at e
    split at e
    · exact i.ref e
    · cases e
  | looperFree d n =>
    simp only [Gb.Device.step] at e
    split at e
    · exact i.unref e
    · cases e
  | received d n h =>
    simp only [Gb.Device.step] at e
    split at e
    · obtain ⟨s1, h1, e⟩ := andThen_ok e
      obtain ⟨s2, h2, e⟩ := andThen_ok e
      cases e
      have := (i.use h1).ref h2
      exact fun d => this d
    · cases e
  | access n =>
    have := access_ok e
    subst this
    exact i
  | release n objects =>
    simp only [Gb.Device.step] at e
    split at e
    · cases e
    · obtain ⟨s0, h0, e⟩ := andThen_ok e
      obtain ⟨s1, h1, e⟩ := andThen_ok e
      obtain ⟨s2, h2, e⟩ := andThen_ok e
      cases e
      have : s0 = s := by
        split at h0
        · exact access_ok h0
        · cases h0; rfl
      subst this
      have := (i.use h1).unref h2
      exact fun d => this d
  | use d h =>
    simp only [Gb.Device.step] at e
    split at e
    · exact i.use e
    · cases e
  | stuck d =>
    simp only [Gb.Device.step] at e
    split at e
    · split at e
      · cases e
      · rename_i x hx
        cases e
        intro d'
        rw [close_life, close_drv _ _ _ hx]
        exact i d'
    · cases e
  | finalize d =>
    simp only [Gb.Device.step] at e
    split at e
    · exact i.unref e
    · cases e
  | appOpen fd =>
    simp only [Gb.Device.step] at e
    split at e
    · cases e
    · cases e
      intro d'
      rw [life_quiet (fun o => rfl)]
      exact i d'
  | appClose fd =>
    simp only [Gb.Device.step] at e
    split at e
    · cases e
      intro d'
      rw [life_quiet (fun o => rfl)]
      exact i d'
    · cases e

theorem Life.reach {s : State} (h : ReachIf Gb.Device.step Decent {} s) : Life s := by
  induction h with
  | init => intro d; rfl
  | step l hr hok hs ih => exact ih.step (Inv.reach hr) hs

/-- All drivers are open. -/
def AllOpen (s : State) : Prop := ∀ d x, s.drv d = some x → x.vm ≠ none

theorem AllOpen.upd {drv : Nat → Option Drv} (h : ∀ d x, drv d = some x → x.vm ≠ none) (d : Nat) (y : Option Drv)
    (hy : ∀ x, y = some x → x.vm ≠ none) : ∀ d' x, Gb.upd drv d y d' = some x → x.vm ≠ none := by
  intro d' x hx
  by_cases hd : d' = d
  · subst hd; rw [upd_same] at hx; exact hy _ hx
  · rw [upd_ne _ _ hd] at hx; exact h _ _ hx

theorem AllOpen.step {s s' : State} (i : AllOpen s) (inv : Inv s) {l : Label} (hok : Smooth s l)
    (e : Gb.Device.step s l = .ok s') : AllOpen s' := by
  have hunref : ∀ {s s' : State} {d : Nat} {h : Holder}, AllOpen s → Inv s → Gb.Device.unref s d h = .ok s' → AllOpen s' := by
    intro s s' d h i inv e
    obtain ⟨_, _, x, hx, _, hd⟩ := Res.unref inv.res e
    unfold AllOpen
    rw [hd]
    refine AllOpen.upd i _ _ ?_
    intro y hy
    split at hy
    · cases hy
    · cases hy; exact i d x hx
  have huse : ∀ {s s' : State} {d : Nat}, AllOpen s → Gb.Device.use s d = .ok s' → AllOpen s' := by
    intro s s' d i e
    unfold Gb.Device.use at e
    split at e
    · cases e
    · cases e; exact i
  have href : ∀ {s s' : State} {d : Nat} {h : Holder}, AllOpen s → Gb.Device.ref s d h = .ok s' → AllOpen s' := by
    intro s s' d h i e
    unfold Gb.Device.ref at e
    split at e
    · cases e
    · rename_i x hx
      split at e
      · cases e
      · cases e
        refine AllOpen.upd i _ _ ?_
        intro y hy
        cases hy
        exact i d x hx
  cases l with
  | «open» a =>
    simp only [Gb.Device.step, open_] at e
    split at e
    · cases e; exact i
    · split at e
      · cases e
      · split at e
        · cases e; exact i
        · split at e
          · cases e; exact i
          · split at e
            · cases e; exact i
            · split at e
              · cases e
              · cases e
                refine AllOpen.upd i _ _ ?_
                intro y hy
                cases hy
                simp
  | looper d n =>
    simp only [Gb.Device.step] at e
    split at e
    · exact href i e
    · cases e
  | looperFree d n =>
    simp only [Gb.Device.step] at e
    split at e
    · exact hunref i inv e
    · cases e
  | received d n h =>
    simp only [Gb.Device.step] at e
    split at e
    · obtain ⟨s1, h1, e⟩ := andThen_ok e
      obtain ⟨s2, h2, e⟩ := andThen_ok e
      cases e
      have := href (huse i h1) h2
      exact fun d => this d
    · cases e
  | access n =>
    have := access_ok e
    subst this
    exact i
  | release n objects =>
    simp only [Gb.Device.step] at e
    split at e
    · cases e
    · obtain ⟨s0, h0, e⟩ := andThen_ok e
      obtain ⟨s1, h1, e⟩ := andThen_ok e
      obtain ⟨s2, h2, e⟩ := andThen_ok e
      cases e
      have : s0 = s := by
        split at h0
        · exact access_ok h0
        · cases h0; rfl
      subst this
      have := hunref (huse i h1) (inv.use h1) h2
      exact fun d => this d
  | use d h =>
    simp only [Gb.Device.step] at e
    split at e
    · exact huse i e
    · cases e
  | stuck d => exact absurd hok id
  | finalize d =>
    simp only [Gb.Device.step] at e
    split at e
    · exact hunref i inv e
    · cases e
  | appOpen fd =>
    simp only [Gb.Device.step] at e
    split at e
    · cases e
    · cases e; exact i
  | appClose fd =>
    simp only [Gb.Device.step] at e
    split at e
    · cases e; exact i
    · cases e

theorem AllOpen.reach {s : State} (h : ReachIf Gb.Device.step Smooth {} s) : AllOpen s := by
  induction h with
  | init => intro d x hx; cases hx
  | step l hr hok hs ih => exact ih.step (Inv.reach (decent_of_smooth hr)) hok hs

theorem andThen_ub {o : Out State} {f : State → Out State} (h : o.andThen f = .ub) :
    o = .ub ∨ ∃ s1, o = .ok s1 ∧ f s1 = .ub := by
  cases o with
  | ok s1 => exact .inr ⟨s1, rfl, h⟩
  | no => cases h
  | ub => exact .inl rfl

theorem use_drv {s s' : State} {d : Nat} (h : use s d = .ok s') : s'.drv = s.drv := by
  unfold use at h
  split at h
  · cases h
  · cases h; rfl

theorem unref_ub {s : State} {d : Nat} {h : Holder} (e : unref s d h = .ub) : s.drv d = none := by
  unfold unref at e
  split at e
  · assumption
  · split at e
    · simp only [] at e
      split at e <;> cases e
    · cases e

theorem ref_ub {s : State} {d : Nat} {h : Holder} (e : ref s d h = .ub) : s.drv d = none := by
  unfold ref at e
  split at e
  · assumption
  · split at e <;> cases e

theorem use_ub {s : State} {d : Nat} (e : use s d = .ub) : s.drv d = none := by
  unfold use at e
  split at e
  · assumption
  · cases e

theorem holds_drv {s : State} {d : Nat} {h : Holder} (e : holds s d h = true) : s.drv d ≠ none := by
  intro hd
  simp [holds, hd] at e

theorem open_ub {s : State} {a : Answers} : open_ s a ≠ .ub := by
  unfold open_
  intro e
  split at e
  · cases e
  · split at e
    · cases e
    · simp only [] at e
      split at e
      · cases e
      · split at e
        · cases e
        · split at e
          · cases e
          · split at e <;> cases e

/-- Access to a buffer is the only thing which may be wrong, and that only if the driver is closed. -/
theorem Inv.ub {s : State} (i : Inv s) {l : Label} (e : Gb.Device.step s l = .ub) :
    ∃ n d x, s.buf n = some d ∧ s.drv d = some x ∧ x.vm = none ∧ (l = .access n ∨ l = .release n true) := by
  have hacc : ∀ n, access s n = .ub → ∃ d x, s.buf n = some d ∧ s.drv d = some x ∧ x.vm = none := by
    intro n h
    unfold access at h
    split at h
    · cases h
    · rename_i d hb
      obtain ⟨x, hx, _⟩ := (i.refs.buf _ _).1 hb
      rw [hx] at h
      simp only [] at h
      split at h
      · exact ⟨d, x, hb, hx, by assumption⟩
      · cases h
  cases l with
  | «open» a => exact absurd e open_ub
  | looper d n =>
    simp only [Gb.Device.step] at e
    split at e
    · rename_i h; exact absurd (ref_ub e) (holds_drv h)
    · cases e
  | looperFree d n =>
    simp only [Gb.Device.step] at e
    split at e
    · rename_i h; exact absurd (unref_ub e) (holds_drv h)
    · cases e
  | received d n h =>
    simp only [Gb.Device.step] at e
    split at e
    · rename_i h
      have h := holds_drv h.1
      rcases andThen_ub e with e | ⟨s1, h1, e⟩
      · exact absurd (use_ub e) h
      · rcases andThen_ub e with e | ⟨s2, h2, e⟩
        · have := ref_ub e
          rw [use_drv h1] at this
          exact absurd this h
        · cases e
    · cases e
  | access n =>
    obtain ⟨d, x, h⟩ := hacc n e
    exact ⟨n, d, x, h.1, h.2.1, h.2.2, .inl rfl⟩
  | release n objects =>
    simp only [Gb.Device.step] at e
    split at e
    · cases e
    · rename_i d hb
      obtain ⟨x, hx, hm⟩ := (i.refs.buf _ _).1 hb
      have hne : s.drv d ≠ none := by rw [hx]; simp
      rcases andThen_ub e with e1 | ⟨s0, h0, e1⟩
      · cases objects
        · cases e1
        · obtain ⟨d, x, h⟩ := hacc n e1
          exact ⟨n, d, x, h.1, h.2.1, h.2.2, .inr rfl⟩
      · have h00 : s0 = s := by
          split at h0
          · exact access_ok h0
          · cases h0; rfl
        rw [h00] at e1
        rcases andThen_ub e1 with e2 | ⟨s1, h1, e2⟩
        · exact absurd (use_ub e2) hne
        · rcases andThen_ub e2 with e3 | ⟨s2, h2, e3⟩
          · have := unref_ub e3
            rw [use_drv h1] at this
            exact absurd this hne
          · cases e3
  | use d h =>
    simp only [Gb.Device.step] at e
    split at e
    · rename_i h; exact absurd (use_ub e) (holds_drv h)
    · cases e
  | stuck d =>
    simp only [Gb.Device.step] at e
    split at e
    · rename_i h
      split at e
      · rename_i h'; exact absurd h' (holds_drv h)
      · cases e
    · cases e
  | finalize d =>
    simp only [Gb.Device.step] at e
    split at e
    · rename_i h; exact absurd (unref_ub e) (holds_drv h)
    · cases e
  | appOpen fd =>
    simp only [Gb.Device.step] at e
    split at e <;> cases e
  | appClose fd =>
    simp only [Gb.Device.step] at e
    split at e <;> cases e

end Gb.Device
