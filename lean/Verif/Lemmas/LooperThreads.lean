import Verif.Lemmas.Loopers
import Verif.Model.LooperThreads
import Verif.Props.C28
/-
Which threads have been joined.
-/
set_option autoImplicit false

namespace Gb.LooperThreads
open Loopers (Inv refsOf lists thr Calm)

/-! ### Loopers the threads of which have ended -/

theorem unref_frame {s s' : Loopers.State} {y : Nat} (h : s.unref y = .ok s') :
    s'.thread = s.thread ∧ s'.temps = s.temps ∧ s'.n = s.n ∧
    (∀ x, x ≠ y → s'.obj x = s.obj x) ∧ refsOf s' y + 1 = refsOf s y ∧
    ∀ o, s'.obj y = some o → ∃ o', s.obj y = some o' := by
  unfold Loopers.State.unref at h
  split at h
  · cases h
  · rename_i o ho
    split at h
    · cases h
    · rename_i hr
      cases h
      refine ⟨rfl, rfl, rfl, fun x hx => upd_ne _ _ hx, ?_, ?_⟩
      · simp [refsOf, upd_same, ho, hr]
      · intro o' h'
        exact ⟨o, ho⟩
    · rename_i r hr
      cases h
      refine ⟨rfl, rfl, rfl, fun x hx => upd_ne _ _ hx, ?_, fun o' _ => ⟨o, ho⟩⟩
      simp [refsOf, upd_same, ho, hr]

/-- What can happen to a looper the thread of which has ended, if it's not being joined. -/
structure Frame (s s' : Loopers.State) (x : Nat) : Prop where
  thread : s'.thread x = .gone
  lt : x < s'.n
  refs : refsOf s' x + s.temps.count x = refsOf s x + s'.temps.count x
  temps : s'.temps.count x ≤ s.temps.count x

theorem Frame.of {s s' : Loopers.State} {x : Nat} (ht : s.thread x = .gone) (hn : x < s.n)
    (h1 : s'.thread x = s.thread x) (h2 : s.n ≤ s'.n) (h3 : s'.obj x = s.obj x)
    (h4 : s'.temps.count x = s.temps.count x) : Frame s s' x where
  thread := h1.trans ht
  lt := by omega
  refs := by simp only [refsOf, h3]; omega
  temps := by omega

theorem create_frame {s : Loopers.State} {x : Nat} (hn : x < s.n) :
    s.create.thread x = s.thread x ∧ s.n ≤ s.create.n ∧ s.create.obj x = s.obj x ∧
      s.create.temps.count x = s.temps.count x := by
  have e : x ≠ s.n := by omega
  refine ⟨upd_ne _ _ e, by simp [Loopers.State.create], upd_ne _ _ e, ?_⟩
  simp only [Loopers.State.create]
  exact List.count_cons_of_ne (fun h => e h.symm)

theorem collect_frame {s s' : Loopers.State} {x : Nat} {b : Option Nat} (h : s.collect b = .ok s') :
    s'.thread = s.thread ∧ s'.n = s.n ∧ refsOf s' x = refsOf s x ∧ s'.temps = s.temps := by
  unfold Loopers.State.collect at h
  simp only at h
  split at h
  · cases h
    refine ⟨rfl, rfl, ?_, rfl⟩
    simp only [refsOf, Loopers.setExit_refs]
  · cases h

theorem frame {s s' : Loopers.State} {P B S J : List Nat} (hi : Inv s P B S J) {x : Nat} (ht : s.thread x = .gone)
    (hn : x < s.n) (hl : lists P B S J x = 0) {l : Loopers.Label} (hs : Loopers.step s l = .ok s') : Frame s s' x := by
  have thr : ∀ {y : Nat} {t : Loopers.Thread}, s.thread y ≠ .gone → (upd s.thread y t) x = s.thread x := by
    intro y t hy
    exact upd_ne _ _ (fun e => hy (by rw [← e]; exact ht))
  have un : ∀ {s0 : Loopers.State} {y : Nat}, s0.unref y = .ok s' → y ≠ x → s0.thread x = s.thread x →
      s0.n = s.n → s0.obj x = s.obj x → s0.temps.count x = s.temps.count x → Frame s s' x := by
    intro s0 y h hy h1 h2 h3 h4
    obtain ⟨a1, a2, a3, a4, _, _⟩ := unref_frame h
    exact Frame.of ht hn (by rw [a1, h1]) (by rw [a3, h2]; exact Nat.le_refl _) (by rw [a4 x (Ne.symm hy), h3])
      (by rw [a2, h4])
  have same : ∀ {s0 : Loopers.State}, s0 = s' → s0.thread x = s.thread x → s.n ≤ s0.n → s0.obj x = s.obj x →
      s0.temps.count x = s.temps.count x → Frame s s' x := by
    intro s0 e h1 h2 h3 h4
    subst e
    exact Frame.of ht hn h1 h2 h3 h4
  cases l with
  | check ok =>
    simp only [Loopers.step, Out.ok.injEq] at hs
    split at hs
    · obtain ⟨a1, a2, a3, a4⟩ := create_frame (s := s) hn
      exact same hs a1 a2 a3 a4
    · exact same hs rfl (Nat.le_refl _) rfl rfl
  | release y =>
    simp only [Loopers.step] at hs
    split at hs
    · rename_i hy
      obtain ⟨a1, a2, a3, a4, a5, a6⟩ := unref_frame hs
      by_cases e : x = y
      · subst e
        refine ⟨by rw [a1]; exact ht, by rw [a3]; exact hn, ?_, ?_⟩
        · rw [a2]
          have := List.count_erase_self (a := x) (l := s.temps)
          have := List.count_pos_iff.2 hy
          simp only [refsOf] at a5 ⊢
          omega
        · rw [a2]
          exact List.Sublist.count_le _ (List.erase_sublist)
      · refine Frame.of ht hn (by rw [a1]) (by rw [a3]; exact Nat.le_refl _) (a4 x e) ?_
        rw [a2]
        exact List.count_erase_of_ne (fun h => e h)
    · cases hs
  | start y ok =>
    simp only [Loopers.step] at hs
    split at hs
    · rename_i h1
      split at hs
      · cases hs
      · cases hs
        exact same rfl (thr (by rw [h1]; simp)) (Nat.le_refl _) rfl rfl
    · cases hs
  | poll y =>
    simp only [Loopers.step] at hs
    split at hs
    · rename_i h1
      split at hs
      · cases hs
      · split at hs
        · cases hs
        · cases hs
          exact same rfl (thr (by rw [h1]; simp)) (Nat.le_refl _) rfl rfl
    · cases hs
  | idle y =>
    simp only [Loopers.step] at hs
    split at hs
    · rename_i h1
      cases hs
      exact same rfl (thr (by rw [h1]; simp)) (Nat.le_refl _) rfl rfl
    · cases hs
  | begin y =>
    simp only [Loopers.step] at hs
    split at hs
    · rename_i h1
      split at hs
      · cases hs
      · split at hs
        · cases hs
          exact same rfl (thr (by rw [h1]; simp)) (Nat.le_refl _) rfl rfl
        · cases hs
    · cases hs
  | done y =>
    simp only [Loopers.step] at hs
    split at hs
    · rename_i h1
      cases hs
      exact same rfl (thr (by rw [h1]; simp)) (Nat.le_refl _) rfl rfl
    · cases hs
  | block y ok =>
    simp only [Loopers.step] at hs
    split at hs
    · rename_i h1
      have ht' : ∀ t, (upd s.thread y t) x = s.thread x := fun t => thr (by rw [h1]; simp)
      split at hs
      · split at hs
        · cases hs
          exact same rfl (ht' _) (Nat.le_refl _) rfl rfl
        · simp only [Out.ok.injEq] at hs
          split at hs
          · obtain ⟨a1, a2, a3, a4⟩ := create_frame (s := { s with
              thread := upd s.thread y (.blocked true), next := upd _ y s.blocked, blocked := some y, primary := _ }) hn
            exact same hs (a1.trans (ht' _)) a2 a3 a4
          · exact same hs (ht' _) (Nat.le_refl _) rfl rfl
      · cases hs
    · cases hs
  | unblock y =>
    simp only [Loopers.step] at hs
    split at hs
    · rename_i h1
      cases hs
      exact same rfl (thr (by rw [h1]; simp)) (Nat.le_refl _) rfl rfl
    · cases hs
  | back y =>
    simp only [Loopers.step] at hs
    split at hs
    · rename_i h1
      cases hs
      exact same rfl (thr (by rw [h1]; simp)) (Nat.le_refl _) rfl rfl
    · rename_i h1
      have hy : y ≠ x := fun e => by subst e; rw [ht] at h1; cases h1
      have ht' : ∀ t, (upd s.thread y t) x = s.thread x := fun t => thr (by rw [h1]; simp)
      split at hs
      · cases hs
      · split at hs
        · split at hs
          · cases hs
            exact same rfl (ht' _) (Nat.le_refl _) (upd_ne _ _ (Ne.symm hy)) rfl
          · cases hs
            exact same rfl (ht' _) (Nat.le_refl _) rfl rfl
        · cases hs
    · cases hs
  | leave y =>
    simp only [Loopers.step] at hs
    split at hs
    · rename_i h1
      cases hs
      exact same rfl (thr (by rw [h1]; simp)) (Nat.le_refl _) rfl rfl
    · cases hs
  | remove y =>
    simp only [Loopers.step] at hs
    split at hs
    · rename_i h1
      have hy : y ≠ x := fun e => by subst e; rw [ht] at h1; cases h1
      have ht' : ∀ t, (upd s.thread y t) x = s.thread x := fun t => thr (by rw [h1]; simp)
      split at hs
      · cases hs
      · split at hs
        · split at hs
          · split at hs
            · exact un hs hy (ht' _) rfl rfl rfl
            · split at hs
              · exact un hs hy (ht' _) rfl rfl rfl
              · cases hs
                exact same rfl (ht' _) (Nat.le_refl _) rfl rfl
          · cases hs
        · cases hs
          exact same rfl (ht' _) (Nat.le_refl _) rfl rfl
    · cases hs
  | last y =>
    simp only [Loopers.step] at hs
    split at hs
    · rename_i h1
      have hy : y ≠ x := fun e => by subst e; rw [ht] at h1; cases h1
      exact un hs hy (thr (by rw [h1]; simp)) rfl rfl rfl
    · cases hs
  | stop b =>
    simp only [Loopers.step] at hs
    split at hs
    · obtain ⟨a1, a2, a3, a4⟩ := collect_frame (x := x) hs
      exact ⟨by rw [a1]; exact ht, by rw [a2]; exact hn, by rw [a3, a4], by rw [a4]; exact Nat.le_refl _⟩
    · split at hs
      · rename_i b' _ h1
        obtain ⟨a1, a2, a3, a4⟩ := collect_frame (x := x) hs
        refine ⟨?_, by rw [a2]; exact hn, by rw [a3, a4]; rfl, by rw [a4]; exact Nat.le_refl _⟩
        rw [a1]
        exact (thr (by rw [h1]; simp)).trans ht
      · cases hs
    · cases hs
  | pop =>
    simp only [Loopers.step] at hs
    split at hs
    · split at hs
      · cases hs
      · cases hs
        exact same rfl rfl (Nat.le_refl _) rfl rfl
    · cases hs
  | joined =>
    simp only [Loopers.step] at hs
    split at hs
    · rename_i b a t y hst
      have hy : y ≠ x := by
        intro e
        subst e
        have := hi.cs
        rw [hst] at this
        obtain ⟨_, rfl⟩ := this
        simp [lists] at hl
      split at hs
      · split at hs
        · cases hs
        · exact un hs hy rfl rfl (upd_ne _ _ (Ne.symm hy)) rfl
      · cases hs
    · cases hs
  | again =>
    simp only [Loopers.step] at hs
    split at hs
    · rename_i b a hst
      split at hs
      · obtain ⟨a1, a2, a3, a4⟩ := collect_frame (x := x) hs
        exact ⟨by rw [a1]; exact ht, by rw [a2]; exact hn, by rw [a3, a4], by rw [a4]; exact Nat.le_refl _⟩
      · cases hs
        refine same rfl ?_ (Nat.le_refl _) rfl rfl
        cases b with
        | none => rfl
        | some b =>
          have hd : s.thread b = .disposing := (hi.disp b).2 (by rw [hst]; rfl)
          exact thr (by rw [hd]; simp)
    · cases hs

/-! ### Joined threads -/

/-- What is known about the threads which have been joined. -/
structure TInv (s : State) : Prop where
  inv : ∃ P B S J, Inv s.base P B S J
  jr : ∀ x, s.joined x = true → s.reaped x = true
  rj : ∀ x, s.reaped x = true → s.joined x = true ∨ s.base.obj x = none
  gone : ∀ x, s.reaped x = true → s.base.thread x = .gone ∧ x < s.base.n
  out : ∀ x, s.reaped x = true → refsOf s.base x = s.base.temps.count x

theorem TInv.init : TInv {} where
  inv := ⟨_, _, _, _, Inv.init⟩
  jr := fun _ h => by cases h
  rj := fun _ h => by cases h
  gone := fun _ h => by cases h
  out := fun _ h => by cases h

theorem refs_zero {t : Loopers.Thread} (h : t.refs = 0) : t = .gone := by
  cases t <;> first | rfl | cases h

theorem obj_none {s : Loopers.State} {P B S J : List Nat} (hi : Inv s P B S J) {x : Nat} (h : refsOf s x = 0) :
    s.obj x = none := by
  cases ho : s.obj x with
  | none => rfl
  | some o =>
    have := hi.pos x o ho
    simp only [refsOf, ho, Option.map_some, Option.getD_some] at h
    omega

theorem n_mono {s s' : Loopers.State} {l : Loopers.Label} (hs : Loopers.step s l = .ok s') : s.n ≤ s'.n := by
  by_cases h : s'.n = s.n
  · omega
  · have := (C28.C28_needed s s' l hs h).1
    omega

/-- What's left of the invariant when the loopers change. -/
theorem TInv.base {s : State} (h : TInv s) {b : Loopers.State} (hb : ∃ P B S J, Inv b P B S J) {l : Loopers.Label}
    (hs : Loopers.step s.base l = .ok b) : TInv { s with base := b } := by
  obtain ⟨P, B, S, J, hi⟩ := h.inv
  have hf : ∀ x, s.reaped x = true → Frame s.base b x := by
    intro x hx
    refine frame hi (h.gone x hx).1 (h.gone x hx).2 ?_ hs
    have h1 := hi.refs x
    have h2 := h.out x hx
    omega
  refine ⟨hb, h.jr, ?_, ?_, ?_⟩
  · intro x hx
    rcases h.rj x hx with h1 | h1
    · exact .inl h1
    · right
      obtain ⟨P', B', S', J', hi'⟩ := hb
      refine obj_none hi' ?_
      have h2 := (hf x hx).refs
      have h3 := (hf x hx).temps
      have h4 := h.out x hx
      have h5 : refsOf s.base x = 0 := by simp [refsOf, h1]
      omega
  · exact fun x hx => ⟨(hf x hx).thread, (hf x hx).lt⟩
  · intro x hx
    have h2 := (hf x hx).refs
    have h4 := h.out x hx
    simp only
    omega

/-- The threads which can be joined. -/
theorem TInv.reap {s : State} (h : TInv s) {x : Nat} (h1 : s.base.thread x = .gone) (h2 : x < s.base.n)
    (h3 : refsOf s.base x = s.base.temps.count x) {j : Nat → Bool}
    (hj : j = s.joined ∧ s.base.obj x = none ∨ j = upd s.joined x true) :
    TInv { s with reaped := upd s.reaped x true, joined := j } := by
  refine ⟨h.inv, ?_, ?_, ?_, ?_⟩
  · intro y hy
    simp only at hy ⊢
    by_cases e : y = x
    · rw [e, upd_same]
    · rw [upd_ne _ _ e]
      rcases hj with ⟨rfl, _⟩ | rfl
      · exact h.jr y hy
      · rw [upd_ne _ _ e] at hy; exact h.jr y hy
  · intro y hy
    simp only at hy ⊢
    by_cases e : y = x
    · rcases hj with ⟨rfl, ho⟩ | rfl
      · exact .inr (e ▸ ho)
      · exact .inl (by rw [e, upd_same])
    · rw [upd_ne _ _ e] at hy
      rcases hj with ⟨rfl, ho⟩ | rfl
      · exact h.rj y hy
      · rw [upd_ne _ _ e]; exact h.rj y hy
  · intro y hy
    simp only at hy
    by_cases e : y = x
    · rw [e]; exact ⟨h1, h2⟩
    · rw [upd_ne _ _ e] at hy; exact h.gone y hy
  · intro y hy
    simp only at hy
    by_cases e : y = x
    · rw [e]; exact h3
    · rw [upd_ne _ _ e] at hy; exact h.out y hy

/-- Threads can be created, and the loopers aren't stopped when a transaction keeps a looper waiting. -/
def Orderly (s : State) : Label → Prop
  | .base l => Calm s.base l
  | _ => False

/-- A looper which is being joined by another thread. -/
theorem joined_other {s b : Loopers.State} {P B S J : List Nat} (hi : Inv s P B S J) {c : Option Nat} {a : Bool}
    {t : Option Nat} {x : Nat} (hst : s.stop = .join c a t x) (hs : Loopers.step s .joined = .ok b) (hc : c ≠ some x) :
    s.thread x = .gone ∧ lists P B S J x = 1 ∧ b.thread x = .gone ∧ b.n = s.n ∧ x < s.n ∧
      refsOf b x = b.temps.count x := by
  have hJ : lists P B S J x = 1 := by
    have h1 := hi.cs
    rw [hst] at h1
    obtain ⟨_, rfl⟩ := h1
    have h2 := hi.once x
    simp only [lists, List.count_cons_self, List.count_nil] at h2 ⊢
    omega
  simp only [Loopers.step, hst] at hs
  split at hs
  · rename_i h1
    have ht : s.thread x = .gone := h1.resolve_left hc
    split at hs
    · cases hs
    · rename_i o ho
      obtain ⟨a1, a2, a3, a4, a5, _⟩ := unref_frame hs
      refine ⟨ht, hJ, by rw [a1]; exact ht, a3, ?_, ?_⟩
      · rcases Nat.lt_or_ge x s.n with h2 | h2
        · exact h2
        · have := (hi.fresh x h2).2
          rw [ho] at this
          cases this
      · have h2 := hi.refs x
        have h3 : thr s x = 0 := by simp only [thr, ht, Loopers.Thread.refs]
        rw [a2]
        simp only [refsOf, upd_same, ho, Option.map_some, Option.getD_some] at a5 h2 ⊢
        omega
  · cases hs

theorem release_thread {s s' : Loopers.State} {x : Nat} (hs : Loopers.step s (.release x) = .ok s') :
    s'.thread = s.thread := by
  simp only [Loopers.step] at hs
  repeat' split at hs
  all_goals first | cases hs; done | exact (unref_frame hs).1

/-- A step which the loopers can take: threads are joined once, and there's no need to wait. -/
theorem step_base {s : State} (h : TInv s) {l : Loopers.Label} (hc : Calm s.base l) {b : Loopers.State}
    (hs : Loopers.step s.base l = .ok b) : ∃ s', step s (.base l) = .ok s' ∧ TInv s' ∧ s'.base = b ∧
      (∀ x, s.reaped x = true → s'.reaped x = true) ∧
      (∀ c a t x, l = .joined → s.base.stop = .join c a t x → c ≠ some x → s'.reaped x = true) ∧
      (∀ c x, drops s.base l = some (c, x) → freed s.base b x = true → c ≠ some x → s'.reaped x = true) := by
  obtain ⟨P, B, S, J, hi⟩ := h.inv
  obtain ⟨P', B', S', J', hi'⟩ : ∃ P B S J, Inv b P B S J := by
    rcases Loopers.step_ok hi hc with h1 | ⟨s', h1, P', B', S', J', h2, _⟩
    · rw [h1] at hs; cases hs
    · rw [h1] at hs; cases hs; exact ⟨_, _, _, _, h2⟩
  have hb := h.base ⟨_, _, _, _, hi'⟩ hs
  by_cases hj : ∃ c a t x, l = .joined ∧ s.base.stop = .join c a t x
  · obtain ⟨c, a, t, x, rfl, hst⟩ := hj
    by_cases hcx : c = some x
    · refine ⟨{ s with base := b }, ?_, hb, rfl, fun _ => id, ?_, ?_⟩
      · simp [step, hs, State.joining, hst, State.looperJoin, hcx, State.dropping, drops, State.looperFree, Out.andThen]
      · intro c' a' t' x' _ h1 h2
        rw [hst] at h1; cases h1; exact absurd hcx h2
      · intro c' x' h1 _ h2
        simp only [drops, hst] at h1
        cases h1
        exact absurd hcx h2
    · obtain ⟨h1, h2, h3, h4, h5, h6⟩ := joined_other hi hst hs hcx
      have hr : s.reaped x = false := by
        cases hr : s.reaped x with
        | false => rfl
        | true =>
          have := h.out x hr
          have := hi.refs x
          omega
      refine ⟨{ base := b, joined := upd s.joined x true, reaped := upd s.reaped x true }, ?_, ?_, rfl, ?_, ?_, ?_⟩
      · simp [step, hs, State.joining, hst, State.looperJoin, hcx, State.dropping, drops, State.looperFree, Out.andThen,
          State.join, hr, h1, upd_same]
      · exact hb.reap h3 (by rw [h4]; exact h5) h6 (.inr rfl)
      · intro y hy
        by_cases e : y = x
        · rw [e]; exact upd_same _ _ _
        · exact (upd_ne _ _ e).trans hy
      · intro c' a' t' x' _ h1 h2
        rw [hst] at h1; cases h1; exact upd_same _ _ _
      · intro c' x' h1 _ h2
        simp only [drops, hst] at h1
        cases h1
        exact upd_same _ _ _
  · have hjo : s.joining l = .ok s := by
      unfold State.joining
      split
      · rename_i c a t x hst
        exact absurd ⟨c, a, t, x, rfl, hst⟩ hj
      · rfl
    by_cases hd : ∃ c x, drops s.base l = some (c, x) ∧ freed s.base b x = true ∧ c ≠ some x
    · obtain ⟨c, x, h1, h2, h3⟩ := hd
      simp only [freed, Bool.and_eq_true] at h2
      have ho : b.obj x = none := by simpa using h2.2
      have hlt : x < s.base.n := by
        rcases Nat.lt_or_ge x s.base.n with h4 | h4
        · exact h4
        · have := (hi.fresh x h4).2
          rw [this] at h2
          simp at h2
      have hz : refsOf b x = 0 := by simp [refsOf, ho]
      have h4 := hi'.refs x
      have hg : b.thread x = .gone := refs_zero (by simp only [thr] at h4; omega)
      have hth : b.thread = s.base.thread := by
        unfold drops at h1
        split at h1
        · exact release_thread hs
        · cases h1; exact absurd rfl h3
        · cases h1; exact absurd rfl h3
        · split at h1
          · rename_i c a t x hst
            exact absurd ⟨c, a, t, x, rfl, hst⟩ hj
          · cases h1
        · cases h1
      have hg' : s.base.thread x = .gone := hth ▸ hg
      have hfr : freed s.base b x = true := by simp only [freed, Bool.and_eq_true]; exact h2
      by_cases hjn : s.joined x = true
      · refine ⟨{ s with base := b }, ?_, hb, rfl, fun _ => id, ?_, ?_⟩
        · simp [step, hs, hjo, Out.andThen, State.dropping, h1, hfr, State.looperFree, hjn]
        · intro c a t x h1 h2 _
          exact absurd ⟨c, a, t, x, h1, h2⟩ hj
        · intro c' x' h1' _ _
          rw [h1] at h1'; cases h1'
          exact h.jr x hjn
      · have hr : s.reaped x = false := by
          cases hr : s.reaped x with
          | false => rfl
          | true =>
            rcases h.rj x hr with h5 | h5
            · exact absurd h5 hjn
            · rw [h5] at h2; simp at h2
        refine ⟨{ base := b, joined := s.joined, reaped := upd s.reaped x true }, ?_, ?_, rfl, ?_, ?_, ?_⟩
        · simp [step, hs, hjo, Out.andThen, State.dropping, h1, hfr, State.looperFree, hjn, h3, State.join, hr, hg']
        · refine hb.reap hg (Nat.lt_of_lt_of_le hlt (n_mono hs)) ?_ (.inl ⟨rfl, ho⟩)
          simp only
          omega
        · intro y hy
          by_cases e : y = x
          · rw [e]; exact upd_same _ _ _
          · exact (upd_ne _ _ e).trans hy
        · intro c a t x h1 h2 _
          exact absurd ⟨c, a, t, x, h1, h2⟩ hj
        · intro c' x' h1' _ _
          rw [h1] at h1'; cases h1'
          exact upd_same _ _ _
    · refine ⟨{ s with base := b }, ?_, hb, rfl, fun _ => id, ?_, ?_⟩
      · simp only [step, hs, hjo, Out.andThen]
        have hdr : s.dropping l b = .ok s := by
          unfold State.dropping
          split
          · rename_i c x h1
            by_cases h2 : freed s.base b x = true
            · rw [if_pos h2]
              have h3 : c = some x := Classical.byContradiction fun h3 => hd ⟨c, x, h1, h2, h3⟩
              simp [State.looperFree, h3]
            · rw [if_neg h2]
          · rfl
        rw [hdr]
      · intro c a t x h1 h2 _
        exact absurd ⟨c, a, t, x, h1, h2⟩ hj
      · intro c x h1 h2 h3
        exact absurd ⟨c, x, h1, h2, h3⟩ hd

theorem reach_inv {s : State} (h : ReachIf step Orderly {} s) : TInv s := by
  induction h with
  | init => exact TInv.init
  | step l _ hok hs ih =>
    cases l with
    | base l =>
      simp only [step] at hs
      cases hb : Loopers.step _ l with
      | ok b =>
        obtain ⟨s2, h1, h2, _⟩ := step_base ih hok hb
        simp only [step] at h1
        rw [h1] at hs
        cases hs
        exact h2
      | no => rw [hb] at hs; cases hs
      | ub => rw [hb] at hs; cases hs
    | checkFails => cases hok
    | blockFails x => cases hok

/-- A step of the loopers. -/
theorem step_inv {s s' : State} (h : TInv s) {l : Loopers.Label} (hc : Calm s.base l) (hs : step s (.base l) = .ok s') :
    Loopers.step s.base l = .ok s'.base ∧ TInv s' ∧
      (∀ x, s.reaped x = true → s'.reaped x = true) ∧
      (∀ c a t x, l = .joined → s.base.stop = .join c a t x → c ≠ some x → s'.reaped x = true) ∧
      (∀ c x, drops s.base l = some (c, x) → freed s.base s'.base x = true → c ≠ some x → s'.reaped x = true) := by
  have hs' := hs
  simp only [step] at hs
  cases hb : Loopers.step s.base l with
  | ok b =>
    obtain ⟨s2, h1, h2, rfl, h3⟩ := step_base h hc hb
    rw [h1] at hs'
    cases hs'
    exact ⟨rfl, h2, h3⟩
  | no => rw [hb] at hs; cases hs
  | ub => rw [hb] at hs; cases hs

theorem unref_obj {s s' : Loopers.State} {y : Nat} (h : s.unref y = .ok s') {x : Nat} (hx : x ≠ y) :
    s'.obj x = s.obj x := (unref_frame h).2.2.2.1 x hx

theorem collect_some {s s' : Loopers.State} {b : Option Nat} (h : s.collect b = .ok s') (x : Nat) :
    (s'.obj x).isSome = (s.obj x).isSome := by
  unfold Loopers.State.collect at h
  simp only at h
  split at h
  · cases h
    simp only [Loopers.setExit]
    split
    · simp
    · rfl
  · cases h

/-- Who frees loopers. -/
theorem freed_drops {s s' : Loopers.State} {l : Loopers.Label} (hs : Loopers.step s l = .ok s') {x : Nat}
    (hf : freed s s' x = true) : ∃ c, drops s l = some (c, x) := by
  obtain ⟨h1, h2⟩ : (s.obj x).isSome = true ∧ (s'.obj x).isSome = false := by simpa [freed] using hf
  have same : s'.obj x = s.obj x → False := fun e => by rw [e, h1] at h2; cases h2
  have sm : (s'.obj x).isSome = true → False := fun e => by rw [e] at h2; cases h2
  have cr : ∀ t : Loopers.State, (t.obj x).isSome = true → (t.create.obj x).isSome = true := by
    intro t ht
    simp only [Loopers.State.create, upd]
    split
    · rfl
    · exact ht
  cases l with
  | release y =>
    simp only [Loopers.step] at hs
    split at hs
    · by_cases e : x = y
      · exact ⟨_, by rw [e]; rfl⟩
      · exact (same (unref_obj hs e)).elim
    · cases hs
  | remove y =>
    by_cases e : x = y
    · exact ⟨_, by rw [e]; rfl⟩
    · simp only [Loopers.step] at hs
      repeat' split at hs
      all_goals first
        | cases hs; done
        | exact (same (unref_obj hs e)).elim
        | (cases hs; exact (same rfl).elim)
  | last y =>
    simp only [Loopers.step] at hs
    split at hs
    · by_cases e : x = y
      · exact ⟨_, by rw [e]; rfl⟩
      · exact (same (unref_obj hs e)).elim
    · cases hs
  | joined =>
    simp only [Loopers.step] at hs
    split at hs
    · rename_i c a t y hst
      by_cases e : x = y
      · exact ⟨c, by simp only [drops, hst, e]⟩
      · split at hs
        · split at hs
          · cases hs
          · exact (same ((unref_obj hs e).trans (upd_ne _ _ e))).elim
        · cases hs
    · cases hs
  | check ok =>
    simp only [Loopers.step, Out.ok.injEq] at hs
    subst hs
    refine (sm ?_).elim
    split
    · exact cr _ h1
    · exact h1
  | block y ok =>
    simp only [Loopers.step] at hs
    split at hs
    · split at hs
      · split at hs
        · cases hs; exact (same rfl).elim
        · simp only [Out.ok.injEq] at hs
          subst hs
          refine (sm ?_).elim
          split
          · exact cr _ h1
          · exact h1
      · cases hs
    · cases hs
  | back y =>
    simp only [Loopers.step] at hs
    repeat' split at hs
    all_goals first
      | cases hs; done
      | (cases hs; exact (same rfl).elim)
      | (cases hs
         refine (sm ?_).elim
         simp only [upd]
         split
         · rfl
         · exact h1)
  | stop b =>
    simp only [Loopers.step] at hs
    repeat' split at hs
    all_goals first
      | cases hs; done
      | exact (sm ((collect_some hs x).trans h1)).elim
  | again =>
    simp only [Loopers.step] at hs
    repeat' split at hs
    all_goals first
      | cases hs; done
      | exact (sm ((collect_some hs x).trans h1)).elim
      | (cases hs; exact (same rfl).elim)
  | _ =>
    simp only [Loopers.step] at hs
    repeat' split at hs
    all_goals first
      | cases hs; done
      | (cases hs; exact (same rfl).elim)

/-- New loopers. -/
theorem new_obj {s s' : Loopers.State} {l : Loopers.Label} (hs : Loopers.step s l = .ok s') {x : Nat}
    (h1 : s.n ≤ x) (h2 : x < s'.n) : (s'.obj x).isSome = true := by
  have hn : s'.n ≠ s.n := by omega
  have hx : x = s.n := by
    have := (C28.C28_needed s s' l hs hn).1
    omega
  subst hx
  have un : ∀ {t : Loopers.State} {y : Nat}, t.unref y = .ok s' → t.n = s.n → False := fun h e =>
    hn ((unref_frame h).2.2.1.trans e)
  have co : ∀ {t : Loopers.State} {c : Option Nat}, t.collect c = .ok s' → t.n = s.n → False := fun h e =>
    hn ((collect_frame (x := 0) h).2.1.trans e)
  cases l with
  | check ok =>
    simp only [Loopers.step, Out.ok.injEq] at hs
    subst hs
    split at hn
    · rename_i h
      rw [if_pos h]
      simp [Loopers.State.create, upd_same]
    · exact absurd rfl hn
  | block y ok =>
    simp only [Loopers.step] at hs
    split at hs
    · split at hs
      · split at hs
        · cases hs; exact absurd rfl hn
        · simp only [Out.ok.injEq] at hs
          subst hs
          split at hn
          · rename_i h
            rw [if_pos h]
            simp [Loopers.State.create, upd_same]
          · exact absurd rfl hn
      · cases hs
    · cases hs
  | _ =>
    simp only [Loopers.step] at hs
    repeat' split at hs
    all_goals first
      | cases hs; done
      | exact (un hs rfl).elim
      | exact (co hs rfl).elim
      | (cases hs; exact absurd rfl hn)

theorem join_inv {s s' : State} {y : Nat} (h : s.join y = .ok s') :
    s'.base = s.base ∧ s'.joined = s.joined ∧ ∀ x, s'.reaped x = true → x = y ∨ s.reaped x = true := by
  unfold State.join at h
  repeat' split at h
  all_goals first
    | cases h; done
    | (cases h
       refine ⟨rfl, rfl, fun x hx => ?_⟩
       by_cases e : x = y
       · exact .inl e
       · right
         simpa only [upd_ne _ _ e] using hx)

/-- Only the threads of the existing loopers are joined. -/
theorem step_reaped {s s' : State} {l : Label} (hs : step s l = .ok s') {x : Nat} (hr : s'.reaped x = true) :
    s.reaped x = true ∨ (s.base.obj x).isSome = true := by
  cases l with
  | base l =>
    simp only [step] at hs
    cases hb : Loopers.step s.base l with
    | no => rw [hb] at hs; cases hs
    | ub => rw [hb] at hs; cases hs
    | ok b =>
      rw [hb] at hs
      simp only at hs
      cases h1 : s.joining l with
      | no => rw [h1] at hs; cases hs
      | ub => rw [h1] at hs; cases hs
      | ok s1 =>
        rw [h1] at hs
        simp only [Out.andThen] at hs
        cases h2 : s1.dropping l b with
        | no => rw [h2] at hs; cases hs
        | ub => rw [h2] at hs; cases hs
        | ok s2 =>
          rw [h2] at hs
          cases hs
          have j1 : s1.base = s.base ∧ (s1.reaped x = true → s.reaped x = true ∨ (s.base.obj x).isSome = true) := by
            unfold State.joining at h1
            split at h1
            · rename_i c a t y hst
              simp only [State.looperJoin] at h1
              split at h1
              · cases h3 : s.join y with
                | no => rw [h3] at h1; cases h1
                | ub => rw [h3] at h1; cases h1
                | ok s3 =>
                  rw [h3] at h1
                  cases h1
                  obtain ⟨a1, _, a3⟩ := join_inv h3
                  refine ⟨a1, fun h => ?_⟩
                  rcases a3 x h with rfl | h4
                  · right
                    simp only [Loopers.step, hst] at hb
                    split at hb
                    · split at hb
                      · cases hb
                      · rename_i o ho; rw [ho]; rfl
                    · cases hb
                  · exact .inl h4
              · cases h1; exact ⟨rfl, .inl⟩
            · cases h1; exact ⟨rfl, .inl⟩
          have j2 : s2.reaped x = true → s1.reaped x = true ∨ (s.base.obj x).isSome = true := by
            intro h
            unfold State.dropping at h2
            split at h2
            · rename_i c y _
              split at h2
              · rename_i hf
                have hf' : (s.base.obj y).isSome = true := by
                  rw [j1.1] at hf
                  simp only [freed, Bool.and_eq_true] at hf
                  exact hf.1
                unfold State.looperFree at h2
                split at h2
                · rcases (join_inv h2).2.2 x h with rfl | h4
                  · exact .inr hf'
                  · exact .inl h4
                · cases h2; exact .inl h
              · cases h2; exact .inl h
            · cases h2; exact .inl h
          rcases j2 hr with h | h
          · exact j1.2 h
          · exact .inr h
  | checkFails =>
    simp only [step] at hs
    split at hs <;> cases hs
  | blockFails y =>
    simp only [step] at hs
    repeat' split at hs
    all_goals cases hs

end Gb.LooperThreads
