import Verif.Model.Autorelease
/-
C68. Objects returned by gbinder_servicemanager_get_service_sync.
-/
set_option autoImplicit false

namespace Gb.C68
open Autorelease

/-- The application has got back to the event loop, or doesn't have the manager any more. -/
def Ev.ends : Ev → Bool
  | .idle | .finalized => true
  | _ => false

structure Inv (s : State) : Prop where
  /-- all references -/
  count : ∀ o, s.log.count (.got o) = s.log.count (.released o) + s.list.count o + s.freeing.flatten.count o
  /-- the callback is there when it's needed -/
  cb : s.alive = true → s.scheduled = s.cb.toList
  need : s.alive = true → s.list ≠ [] → s.cb ≠ none
  owned : ∀ i, s.cb = some i → s.alive = true → i ∈ s.owned
  dead : s.alive = false → s.scheduled = [] ∧ s.list = []
  fin : s.alive = false ↔ Ev.finalized ∈ s.log
  /-- what's been got since the event loop was last seen is in the list -/
  recent : ∀ a b, s.log = a ++ b → (∀ e ∈ b, Ev.ends e = false) → ∀ o, b.count (.got o) ≤ s.list.count o
  lt : ∀ i ∈ s.owned, i < s.ncbs
  nodup : s.owned.Nodup
  /-- the callbacks -/
  made : ∀ i, (i < s.ncbs → s.log.count (.callback i) = 1) ∧ (s.ncbs ≤ i → s.log.count (.callback i) = 0)
  freed : ∀ i, (i < s.ncbs → i ∉ s.owned → s.log.count (.freed i) = 1) ∧ (i ∈ s.owned ∨ s.ncbs ≤ i → s.log.count (.freed i) = 0)

theorem recent_snoc {s : State} (h : ∀ a b, s.log = a ++ b → (∀ e ∈ b, Ev.ends e = false) → ∀ o, b.count (.got o) ≤ s.list.count o)
    {l' : List Ev} {list' : List Nat} {e : Ev} (hl : l' = s.log ++ [e])
    (he : Ev.ends e = false → ∀ o, (s.list.count o) + [e].count (.got o) ≤ list'.count o) :
    ∀ a b, l' = a ++ b → (∀ e ∈ b, Ev.ends e = false) → ∀ o, b.count (.got o) ≤ list'.count o := by
  intro a b hab hb o
  rcases List.eq_nil_or_concat b with rfl | ⟨b', x, rfl⟩
  · simp
  · rw [List.concat_eq_append] at hab hb ⊢
    rw [hl, ← List.append_assoc] at hab
    obtain ⟨h1, h2⟩ := List.append_inj' hab rfl
    cases h2
    have h3 := h a b' h1 (fun e he => hb e (by simp [he])) o
    have h4 := he (hb _ (by simp)) o
    rw [List.count_append]
    omega

theorem Inv.init : Inv {} := by
  constructor <;> simp

theorem Inv.seen {s : State} (h : Inv s) {e : Ev} (h1 : ∀ o, e ≠ .got o) (h2 : ∀ o, e ≠ .released o) (h3 : e ≠ .finalized)
    (h4 : ∀ i, e ≠ .callback i) (h5 : ∀ i, e ≠ .freed i) : Inv (s.see e) := by
  have hc : ∀ x, x ≠ e → (s.see e).log.count x = s.log.count x := by
    intro x hx
    rw [State.see, List.count_append, show [e].count x = 0 from List.count_eq_zero.2 (by simpa using hx)]; rfl
  refine ⟨?_, h.cb, h.need, h.owned, h.dead, ?_, ?_, h.lt, h.nodup, ?_, ?_⟩
  · intro o; rw [hc _ (h1 o).symm, hc _ (h2 o).symm]; exact h.count o
  · show s.alive = false ↔ _
    rw [h.fin]; simp [State.see, h3.symm]
  · refine recent_snoc h.recent rfl fun _ o => ?_
    rw [show [e].count (.got o) = 0 from List.count_eq_zero.2 (by simpa using (h1 o).symm)]; simp [State.see]
  · intro i; rw [hc _ (h4 i).symm]; exact h.made i
  · intro i; rw [hc _ (h5 i).symm]; exact h.freed i

/-- There's nothing in the list which hasn't been there. -/
theorem Inv.schedule {s : State} (h : Inv s) (ha : s.alive = true) (hcb : s.cb = none) : Inv s.schedule := by
  have hlog : s.schedule.log = s.log ++ [.callback s.ncbs] := rfl
  have hs := h.cb ha
  rw [hcb] at hs
  constructor
  · intro o; simpa [State.schedule, State.see] using h.count o
  · intro _
    show s.ncbs :: s.scheduled = [s.ncbs]
    rw [hs]; rfl
  · intro _ _; simp [State.schedule, State.see]
  · intro i hi _
    simp [State.schedule, State.see] at hi
    simp [State.schedule, State.see, hi]
  · intro hd; simp [State.schedule, State.see, ha] at hd
  · show s.alive = false ↔ _
    rw [h.fin, hlog]; simp
  · refine recent_snoc h.recent hlog fun _ o => ?_
    simp [State.schedule, State.see]
  · intro i hi
    simp only [State.schedule, State.see, List.mem_cons] at hi ⊢
    rcases hi with rfl | hi
    · omega
    · have := h.lt i hi; omega
  · refine List.nodup_cons.2 ⟨fun hm => ?_, h.nodup⟩
    have := h.lt _ hm; omega
  · intro i
    have := h.made i
    rw [hlog, List.count_append]
    by_cases hi : i = s.ncbs
    · subst hi
      have := this.2 (Nat.le_refl _)
      simp [State.schedule, State.see, this]
    · have h1 : ¬s.ncbs = i := fun e => hi e.symm
      simp only [State.schedule, State.see]
      rw [show [Ev.callback s.ncbs].count (.callback i) = 0 from List.count_eq_zero.2 (by simpa using hi)]
      exact ⟨fun x => this.1 (by omega), fun x => this.2 (by omega)⟩
  · intro i
    have := h.freed i
    rw [hlog, List.count_append, show [Ev.callback s.ncbs].count (.freed i) = 0 from List.count_eq_zero.2 (by simp)]
    simp only [State.schedule, State.see, List.mem_cons]
    refine ⟨fun x y => this.1 ?_ (fun hm => y (.inr hm)), ?_⟩
    · have : i ≠ s.ncbs := fun e => y (.inl e)
      omega
    · rintro ((rfl | x) | x)
      · exact this.2 (.inr (Nat.le_refl _))
      · exact this.2 (.inl x)
      · exact this.2 (.inr (by omega))

theorem step_inv {s : State} (h : Inv s) (l : Label) : step s l ≠ .ub ∧ ∀ s', step s l = .ok s' → Inv s' := by
  cases l with
  | get obj =>
    simp only [step]
    split
    · rename_i ha
      split
      · refine ⟨by simp, fun s' e => ?_⟩
        cases e
        exact h.seen (by simp) (by simp) (by simp) (by simp) (by simp)
      · rename_i o
        refine ⟨by simp, fun s' e => ?_⟩
        have key : ∀ {s : State}, Inv s → s.cb ≠ none → s.alive = true → Inv (State.see { s with list := o :: s.list } (.got o)) := by
          intro s h hcb ha
          have hlog : (State.see { s with list := o :: s.list } (.got o)).log = s.log ++ [.got o] := rfl
          refine ⟨?_, h.cb, fun _ _ => hcb, h.owned, ?_, ?_, ?_, h.lt, h.nodup, ?_, ?_⟩
          · intro x
            rw [hlog, List.count_append, List.count_append]
            show _ = _ + (o :: s.list).count x + s.freeing.flatten.count x
            rw [List.count_cons]
            have := h.count x
            by_cases hx : o = x
            · subst hx; simp; omega
            · have hx' : ¬x = o := fun e => hx e.symm
              simp [hx]; omega
          · intro hd; simp [State.see, ha] at hd
          · show s.alive = false ↔ _
            rw [hlog, h.fin]; simp
          · refine recent_snoc h.recent hlog fun _ x => ?_
            show _ ≤ (o :: s.list).count x
            rw [List.count_cons (l := s.list)]
            by_cases hx : o = x
            · subst hx; simp
            · have hx' : ¬x = o := fun e => hx e.symm
              rw [show [Ev.got o].count (.got x) = 0 from List.count_eq_zero.2 (by simpa using hx')]
              omega
          · intro i; simpa [State.see] using h.made i
          · intro i; simpa [State.see] using h.freed i
        by_cases hcb : s.cb = none
        · simp only [hcb, Option.isNone_none, if_true] at e
          cases e
          exact key (s := s.schedule) (h.schedule ha hcb) (by simp [State.schedule, State.see]) ha
        · have : s.cb.isNone = false := by cases hh : s.cb <;> simp_all
          simp only [this, Bool.false_eq_true, if_false] at e
          cases e
          exact key h hcb ha
    · simp
  | idle i =>
    simp only [step]
    split
    · rename_i hi
      have ha : s.alive = true := by
        cases ha : s.alive with
        | true => rfl
        | false => rw [(h.dead ha).1] at hi; cases hi
      have hcb : s.cb = some i := by
        rw [h.cb ha] at hi
        simpa [eq_comm] using hi
      have hs : s.scheduled = [i] := by rw [h.cb ha, hcb]; rfl
      have ho := h.owned i hcb ha
      rw [if_pos ha]
      refine ⟨by simp, fun s' e => ?_⟩
      simp only [State.invoked, State.see, ho, if_true] at e
      cases e
      constructor
      · intro o
        simp only [List.count_append, List.flatten_cons]
        have := h.count o
        simp
        omega
      · intro _; simp [hs]
      · intro _ hh; exact absurd rfl hh
      · intro _ hh; cases hh
      · intro hd; simp [ha] at hd
      · show s.alive = false ↔ _
        rw [h.fin]; simp
      · exact recent_snoc h.recent rfl (by simp [Ev.ends])
      · exact h.lt
      · exact h.nodup
      · intro i; simpa using h.made i
      · intro i; simpa using h.freed i
    · simp
  | unref =>
    simp only [step]
    split
    · simp
    · rename_i rest hf
      refine ⟨by simp, fun s' e => ?_⟩
      cases e
      exact ⟨fun o => by have := h.count o; rw [hf] at this; simpa using this, h.cb, h.need, h.owned, h.dead, h.fin, h.recent, h.lt, h.nodup,
        h.made, h.freed⟩
    · rename_i o l rest hf
      refine ⟨by simp, fun s' e => ?_⟩
      cases e
      refine ⟨?_, h.cb, h.need, h.owned, h.dead, ?_, ?_, h.lt, h.nodup, ?_, ?_⟩
      · intro x
        have := h.count x
        rw [hf] at this
        simp only [State.see, List.count_append, List.flatten_cons, List.count_cons] at this ⊢
        by_cases hx : o = x
        · subst hx; simp at this ⊢; omega
        · have hx' : ¬x = o := fun e => hx e.symm
          simp [hx] at this ⊢; omega
      · show s.alive = false ↔ _
        rw [h.fin]; simp [State.see]
      · refine recent_snoc h.recent rfl fun _ x => ?_
        simp [State.see]
      · intro i; simpa [State.see] using h.made i
      · intro i; simpa [State.see] using h.freed i
  | finalize =>
    simp only [step]
    split
    · rename_i ha
      have hno : Ev.finalized ∉ s.log := fun hm => by rw [h.fin.2 hm] at ha; cases ha
      cases hcb : s.cb with
      | none =>
        refine ⟨by simp [State.destroy, Out.andThen], fun s' e => ?_⟩
        simp only [State.destroy, Out.andThen] at e
        cases e
        have hs := h.cb ha
        rw [hcb] at hs
        refine ⟨?_, ?_, ?_, ?_, ?_, ?_, ?_, h.lt, h.nodup, ?_, ?_⟩
        · intro o
          have := h.count o
          simp [State.see]
          omega
        · intro hh; cases hh
        · intro hh; cases hh
        · intro _ _ hh; cases hh
        · intro _; exact ⟨hs, rfl⟩
        · simp [State.see]
        · exact recent_snoc h.recent rfl (by simp [Ev.ends])
        · intro i; simpa [State.see] using h.made i
        · intro i; simpa [State.see] using h.freed i
      | some i =>
        have ho := h.owned i hcb ha
        have hs := h.cb ha
        rw [hcb] at hs
        refine ⟨by simp [State.destroy, Out.andThen, ho], fun s' e => ?_⟩
        simp only [State.destroy, Out.andThen, ho, if_true] at e
        cases e
        have hm : s.owned.erase i = s.owned.filter (· != i) := h.nodup.erase_eq_filter i
        refine ⟨?_, ?_, ?_, ?_, ?_, ?_, ?_, ?_, h.nodup.erase i, ?_, ?_⟩
        · intro o
          have := h.count o
          simp [State.see]
          omega
        · intro hh; cases hh
        · intro hh; cases hh
        · intro _ _ hh; cases hh
        · intro _
          refine ⟨?_, rfl⟩
          simp [State.see, hs]
        · simp [State.see]
        · refine recent_snoc (s := State.see { s with list := s.list } (.freed i)) ?_ rfl (by simp [Ev.ends])
          refine recent_snoc h.recent rfl fun _ x => ?_
          simp [State.see]
        · intro j hj; exact h.lt j (List.mem_of_mem_erase hj)
        · intro i; simpa [State.see] using h.made i
        · intro j
          have := h.freed j
          simp only [State.see, hm, List.mem_filter]
          by_cases hj : j = i
          · subst hj
            have h0 := this.2 (.inl ho)
            have h1 := h.lt _ ho
            refine ⟨fun _ _ => by simp [h0], ?_⟩
            rintro (⟨_, hh⟩ | hh)
            · simp at hh
            · omega
          · rw [List.count_append, List.count_append, show [Ev.freed i].count (.freed j) = 0 from List.count_eq_zero.2 (by simpa using hj)]
            simpa [hj] using this
    · simp

theorem reach_inv {s : State} (h : Reach step {} s) : Inv s :=
  h.invariant Inv.init (fun _ l _ hi hs => (step_inv hi l).2 _ hs)

/-- The callback isn't invoked after the manager is gone, and it's not destroyed twice. -/
theorem C68_safe_partial {s : State} (h : Reach step {} s) (l : Label) : step s l ≠ .ub := (step_inv (reach_inv h) l).1

/-- What has been returned since the event loop has last invoked the callback is not released: nothing but the references which
had been returned by then may have been dropped. -/
theorem C68_borrow_partial {s : State} (h : Reach step {} s) {a b : List Ev} (hl : s.log = a ++ b) (hb : ∀ e ∈ b, Ev.ends e = false) (o : Nat) :
    s.log.count (.released o) ≤ a.count (.got o) := by
  have h1 := (reach_inv h).recent a b hl hb o
  have h2 := (reach_inv h).count o
  rw [hl, List.count_append, ← hl] at h2
  omega

/-- No more references are dropped than there were. -/
theorem C68_once_partial {s : State} (h : Reach step {} s) (o : Nat) : s.log.count (.released o) ≤ s.log.count (.got o) := by
  have := (reach_inv h).count o
  omega

/-- All of them are dropped: there's something for the event loop to call until then, as long as there's the manager. -/
theorem C68_all_partial {s : State} (h : Reach step {} s) (hs : s.scheduled = []) (hf : s.freeing = []) (o : Nat) :
    s.log.count (.released o) = s.log.count (.got o) := by
  have hi := reach_inv h
  have hc := hi.count o
  have hl : s.list = [] := by
    cases ha : s.alive with
    | false => exact (hi.dead ha).2
    | true =>
      have h1 := hi.cb ha
      rw [hs] at h1
      have h2 := hi.need ha
      cases hcb : s.cb with
      | some i => rw [hcb] at h1; cases h1
      | none => exact Classical.not_not.1 fun hn => h2 hn hcb
  rw [hl, hf] at hc
  simp at hc
  omega

/-- And those steps can be made at any time: the callback can be invoked if it's in the event loop, and g_slist_free_full goes on. -/
theorem C68_progress_partial {s : State} (h : Reach step {} s) :
    (∀ i ∈ s.scheduled, ∃ s', step s (.idle i) = .ok s' ∧ s'.scheduled = []) ∧
      (s.freeing ≠ [] → ∃ s', step s .unref = .ok s' ∧
        s'.freeing.flatten.length + s'.freeing.length + 1 = s.freeing.flatten.length + s.freeing.length) := by
  have hi := reach_inv h
  refine ⟨fun i hm => ?_, fun hf => ?_⟩
  · have ha : s.alive = true := by
      cases ha : s.alive with
      | true => rfl
      | false => rw [(hi.dead ha).1] at hm; cases hm
    have hcb : s.cb = some i := by
      have := hi.cb ha
      rw [this] at hm
      simpa [eq_comm] using hm
    have hs : s.scheduled = [i] := by rw [hi.cb ha, hcb]; rfl
    have ho := hi.owned i hcb ha
    simp [step, hm, ha, State.invoked, State.see, ho, hs]
  · simp only [step]
    split
    · rename_i hh; exact absurd hh hf
    · rename_i rest hh; refine ⟨_, rfl, ?_⟩; simp [hh]; omega
    · rename_i o l rest hh; refine ⟨_, rfl, ?_⟩; simp [hh, State.see]; omega

/-- Nothing is returned, and the callback isn't invoked, after the manager is gone. -/
theorem C68_after_partial {s : State} (h : Reach step {} s) {a b : List Ev} (hl : s.log = a ++ .finalized :: b) :
    ∀ e ∈ b, (∃ o, e = .released o) := by
  have key : Inv s ∧ ∀ a b, s.log = a ++ .finalized :: b → ∀ e ∈ b, (∃ o, e = Ev.released o) := by
    refine h.invariant (P := fun s => Inv s ∧ ∀ a b, s.log = a ++ .finalized :: b → ∀ e ∈ b, (∃ o, e = Ev.released o))
      ⟨Inv.init, by simp⟩ ?_
    clear hl h
    rintro s l s' ⟨hi, ih⟩ hs
    refine ⟨(step_inv hi l).2 s' hs, ?_⟩
    intro a b hl e he
    cases ha : s.alive with
    | true =>
      -- it can only be the last one
      have hno : Ev.finalized ∉ s.log := fun hm => by rw [hi.fin.2 hm] at ha; cases ha
      have hfin : Ev.finalized ∈ s'.log := by rw [hl]; simp
      have hk : Ev.finalized ∉ s'.log ∨ ∃ c, s'.log = c ++ [.finalized] ∧ Ev.finalized ∉ c := by
        cases l with
        | get obj =>
          left
          simp only [step, ha, if_true] at hs
          split at hs
          · cases hs; simp [State.see, hno]
          · cases hs
            split <;> simp [State.see, State.schedule, hno]
        | idle i =>
          left
          simp only [step] at hs
          split at hs
          · cases hs
            simp only [State.invoked]
            split <;> simp [State.see, hno]
          · cases hs
        | unref =>
          left
          simp only [step] at hs
          split at hs
          · cases hs
          · cases hs; exact hno
          · cases hs; simp [State.see, hno]
        | finalize =>
          right
          simp only [step, ha, if_true, State.destroy] at hs
          split at hs
          · cases hs; exact ⟨s.log, rfl, hno⟩
          · split at hs
            · cases hs; exact ⟨_, rfl, by simp [State.see, hno]⟩
            · cases hs
      rcases hk with hk | ⟨c, hc, hk⟩
      · exact absurd hfin hk
      · rcases List.eq_nil_or_concat b with rfl | ⟨b', x, rfl⟩
        · cases he
        · rw [List.concat_eq_append, hc] at hl
          have hl : c ++ [.finalized] = (a ++ .finalized :: b') ++ [x] := by simpa using hl
          obtain ⟨h1, h2⟩ := List.append_inj' hl rfl
          exact absurd (by rw [h1]; simp) hk
    | false =>
      cases l with
      | get obj => simp [step, ha] at hs
      | idle i => simp [step, (hi.dead ha).1] at hs
      | finalize => simp [step, ha] at hs
      | unref =>
        simp only [step] at hs
        split at hs
        · cases hs
        · cases hs; exact ih a b hl e he
        · rename_i o l rest hf
          cases hs
          rcases List.eq_nil_or_concat b with rfl | ⟨b', x, rfl⟩
          · cases he
          · rw [List.concat_eq_append] at hl he
            have hl : s.log ++ [.released o] = (a ++ .finalized :: b') ++ [x] := by simpa [State.see] using hl
            obtain ⟨h1, h2⟩ := List.append_inj' hl rfl
            cases h2
            rcases List.mem_append.1 he with he | he
            · exact ih a b' h1 e he
            · exact ⟨o, by simpa using he⟩
  exact key.2 a b hl

/-- No callback is freed before it's made, or twice. -/
theorem C68_callbacks_partial {s : State} (h : Reach step {} s) (i : Nat) :
    s.log.count (.freed i) ≤ s.log.count (.callback i) ∧ s.log.count (.callback i) ≤ 1 := by
  have h1 := (reach_inv h).made i
  have h2 := (reach_inv h).freed i
  by_cases hi : i < s.ncbs
  · have := h1.1 hi
    by_cases ho : i ∈ s.owned
    · have := h2.2 (.inl ho); omega
    · have := h2.1 hi ho; omega
  · have := h1.2 (by omega)
    have := h2.2 (.inr (by omega))
    omega

/-- The callback which has been invoked is never freed: gbinder_servicemanager_autorelease_cb forgets it without dropping the
reference which gbinder_idle_callback_schedule_new has returned. -/
theorem C68_fails_leak : ¬∀ s, Reach step {} s → s.alive = false → s.scheduled = [] → s.freeing = [] → ∀ i,
    s.log.count (.freed i) = s.log.count (.callback i) := by
  intro h
  let ls : List Label := [.get (some 5), .idle 0, .unref, .unref, .finalize, .unref]
  have he : exec step {} ls = .ok { alive := false, cb := none, ncbs := 1, owned := [0], scheduled := [], list := [], freeing := []
                                    log := [.callback 0, .got 5, .idle, .released 5, .finalized] } := by rfl
  have := h _ ⟨ls, he⟩ rfl rfl rfl 0
  simp at this

/-- Objects are returned and released: the second one while the first one is being released; the third one is released with the
manager. -/
example : ∃ s, Reach step {} s ∧ s.scheduled = [] ∧ s.freeing = [] ∧ s.alive = false ∧
    s.log = [.callback 0, .got 5, .got 6, .missed, .idle, .released 6, .callback 1, .got 6, .released 5, .got 7, .freed 1, .finalized,
      .released 7, .released 6] := by
  refine ⟨_, ⟨[.get (some 5), .get (some 6), .get none, .idle 0, .unref, .get (some 6), .unref, .unref, .get (some 7), .finalize,
    .unref, .unref, .unref], rfl⟩, rfl, rfl, rfl, rfl⟩

end Gb.C68
