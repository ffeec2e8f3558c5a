import Verif.Lemmas.Handles
/- Those who can be found will be told when the other side dies. -/
set_option autoImplicit false

namespace Gb.RemoteObj

/-- The death of the other side will be reported, or is being reported. -/
def Told (s : State) (p h : Nat) : Prop :=
  s.reg h = some p ∨ (h, p) ∈ s.incoming ∨ p ∈ s.found ∨ ⟨p, false⟩ ∈ s.tasks

def Watched (s : State) : Prop :=
  ∀ p o, s.objs p = some o → o.dead = false → s.table o.handle = some p → Told s p o.handle

theorem mem_or_erase {α : Type} [BEq α] [LawfulBEq α] {x y : α} {l : List α} (h : x ∈ l) : x = y ∨ x ∈ l.erase y := by
  rcases Classical.em (x = y) with e | e
  · exact .inl e
  · exact .inr ((List.mem_erase_of_ne e).2 h)

theorem watched_init : Watched {} := by
  intro p o h
  cases h

theorem Watched.same {s s' : State} (h : Watched s)
    (ho : ∀ p o, s'.objs p = some o → ∃ o', s.objs p = some o' ∧ o'.handle = o.handle ∧ (o.dead = false → o'.dead = false))
    (ht : ∀ h p, s'.table h = some p → s.table h = some p)
    (hr : s'.reg = s.reg) (hi : s'.incoming = s.incoming) (hf : s'.found = s.found)
    (hk : ∀ p, ⟨p, false⟩ ∈ s.tasks → ⟨p, false⟩ ∈ s'.tasks) : Watched s' := by
  intro p o hp hd htp
  obtain ⟨o', h1, h2, h3⟩ := ho p o hp
  have := h p o' h1 (h3 hd) (by rw [h2]; exact ht _ _ htp)
  unfold Told at *
  rw [h2] at this
  rw [hr, hi, hf]
  rcases this with h | h | h | h
  · exact .inl h
  · exact .inr (.inl h)
  · exact .inr (.inr (.inl h))
  · exact .inr (.inr (.inr (hk p h)))

theorem Watched.addRef {s s' : State} {p : Nat} (hs : s.addRef p = .ok s') (h : Watched s) : Watched s' := by
  obtain ⟨o, ho, h0, rfl⟩ := addRef_ok hs
  refine h.same ?_ (fun _ _ => id) rfl rfl rfl (fun _ => id)
  simp only [upd]; grind

theorem Watched.unref {s s' : State} {p : Nat} (hs : s.unref p = .ok s') (h : Watched s) : Watched s' := by
  obtain ⟨o, ho, ⟨h1, rfl⟩ | ⟨h1, rfl⟩⟩ := unref_ok hs
  · exact h
  · refine h.same ?_ (fun _ _ => id) rfl rfl rfl (fun _ => id)
    simp only [upd]; grind

theorem upd_none {f : Nat → Option Nat} {k h p : Nat} (e : upd f k none h = some p) : f h = some p := by
  unfold upd at e
  split at e
  · cases e
  · exact e

theorem watched_create {s : State} {a : Nat} {c : Create} {p : Nat} (hu : Uniq s) (h : Watched s)
    (hf : Fresh s (.lookup a c p)) (hc : c ≠ .no) (ht : s.table a = none) :
    Watched { create s a c p with
      table := upd (create s a c p).table a (some p),
      user := upd (create s a c p).user p ((create s a c p).user p + 1) } := by
  obtain ⟨f1, f2⟩ := hf ht hc
  have hreg : s.reg a = none := by
    cases hr : s.reg a with
    | none => rfl
    | some b =>
      obtain ⟨o, ho, hh, -⟩ := hu.reg a b hr
      exact absurd hh (f1 b o ho)
  unfold Watched Told at *
  cases c
  · exact absurd rfl hc
  all_goals
    simp only [create, State.add, request, hreg, if_true]
    simp only [upd]
    grind

theorem watched_step {s s' : State} {l : Label} (hu : Uniq s) (h : Watched s)
    (hf : Fresh s l) (hs : step s l = .ok s') : Watched s' := by
  cases l with
  | lookup a c p =>
    simp only [step] at hs
    split at hs
    · exact Watched.addRef hs h
    · rename_i ht
      split at hs
      · cases hs; exact h
      · rename_i hc
        split at hs
        · cases hs
          exact watched_create hu h hf hc ht
        · cases hs
  | ref p =>
    simp only [step] at hs
    split at hs
    · exact Watched.addRef hs h
    · cases hs
  | unref p =>
    simp only [step] at hs
    split at hs
    · exact Watched.unref hs h
    · cases hs
  | deadBinder a =>
    simp only [step] at hs
    split at hs
    · rename_i p hp
      cases hs
      unfold Watched Told at *
      simp only [upd, List.mem_cons, Prod.mk.injEq]
      grind
    · cases hs
  | deliver a b =>
    simp only [step] at hs
    split at hs
    · rename_i hm
      split at hs
      · rename_i p ht
        refine Watched.addRef hs ?_
        intro q o hq hd hx
        have h1 := h q o hq hd hx
        unfold Told at *
        simp only [List.mem_cons] at hx hq ⊢
        rcases h1 with h1 | h1 | h1 | h1
        · exact .inl h1
        · rcases mem_or_erase (y := (a, b)) h1 with e | e
          · cases e
            rw [hx] at ht
            cases ht
            exact .inr (.inr (.inl (.inl rfl)))
          · exact .inr (.inl e)
        · exact .inr (.inr (.inl (.inr h1)))
        · exact .inr (.inr (.inr h1))
      · rename_i ht
        cases hs
        intro q o hq hd hx
        have h1 := h q o hq hd hx
        unfold Told at *
        simp only [State.add] at hx hq ⊢
        rcases h1 with h1 | h1 | h1 | h1
        · exact .inl h1
        · rcases mem_or_erase (y := (a, b)) h1 with e | e
          · cases e
            rw [hx] at ht
            cases ht
          · exact .inr (.inl e)
        · exact .inr (.inr (.inl h1))
        · exact .inr (.inr (.inr h1))
    · cases hs
  | notify p =>
    simp only [step] at hs
    split at hs
    · rename_i hm
      cases hs
      intro q o hq hd hx
      have h1 := h q o hq hd hx
      unfold Told at *
      simp only [State.add, List.mem_cons] at hx hq ⊢
      rcases h1 with h1 | h1 | h1 | h1
      · exact .inl h1
      · exact .inr (.inl h1)
      · rcases mem_or_erase (y := p) h1 with e | e
        · exact .inr (.inr (.inr (.inl (by rw [e]))))
        · exact .inr (.inr (.inl e))
      · exact .inr (.inr (.inr (.inr h1)))
    · cases hs
  | run p =>
    simp only [step] at hs
    split at hs
    case isFalse => cases hs
    case isTrue hc =>
      split at hs
      · cases hs
      · rename_i o ho
        split at hs
        · rename_i hd
          cases hs
          intro q o' hq hd' hx
          have h1 := h q o' hq hd' hx
          have hne : (⟨q, false⟩ : Task) ≠ ⟨p, false⟩ := by
            intro e; cases e
            have hq' : s.objs p = some o' := hq
            rw [ho] at hq'; cases hq'
            rw [hd] at hd'; cases hd'
          unfold Told at *
          simp only [State.add, List.mem_cons, List.mem_erase_of_ne hne] at hx hq ⊢
          rcases h1 with h1 | h1 | h1 | h1
          · exact .inl h1
          · exact .inr (.inl h1)
          · exact .inr (.inr (.inl h1))
          · exact .inr (.inr (.inr (.inr h1)))
        · rename_i hd
          cases hs
          intro q o' hq hd' hx
          simp only [State.add, upd] at hq hx
          split at hq
          · cases hq; cases hd'
          · rename_i hqp
            have h1 := h q o' hq hd' hx
            have hne : (⟨q, false⟩ : Task) ≠ ⟨p, false⟩ := by
              intro e; cases e; exact hqp rfl
            unfold Told at *
            simpa only [State.add, List.mem_erase_of_ne hne] using h1
  | bury p =>
    simp only [step] at hs
    split at hs
    case isFalse => cases hs
    case isTrue hc =>
      split at hs
      · cases hs
      · rename_i o ho
        cases hs
        refine h.same (fun q o hq => ⟨o, hq, rfl, id⟩) (fun x q hx => ?_) rfl rfl rfl (fun q hq => List.mem_cons_of_mem _ hq)
        simp only [State.add] at hx
        split at hx
        · exact upd_none hx
        · exact hx
  | done p =>
    simp only [step] at hs
    split at hs
    · refine Watched.unref hs (h.same (fun q o hq => ⟨o, hq, rfl, id⟩) (fun _ _ => id) rfl rfl rfl (fun q hq => ?_))
      exact (List.mem_erase_of_ne (by simp)).2 hq
    · cases hs
  | suicide p =>
    simp only [step] at hs
    split at hs
    case isFalse => cases hs
    case isTrue hc =>
      split at hs
      · cases hs
      · rename_i o ho
        split at hs
        · cases hs; exact h
        · cases hs
          intro q o' hq hd' hx
          simp only [State.add, upd] at hq hx
          split at hq
          · cases hq; cases hd'
          · rename_i hqp
            have h1 := h q o' hq hd' hx
            have hh : o'.handle ≠ o.handle := fun e => hqp (hu.one q p o' o hq ho e)
            unfold Told at *
            simpa only [State.add, upd_ne _ _ hh] using h1
  | vanish p =>
    simp only [step] at hs
    split at hs
    case isFalse => cases hs
    case isTrue hc =>
      split at hs
      · cases hs
      · cases hs
        exact h.same (fun q o hq => ⟨o, hq, rfl, id⟩) (fun x q hx => upd_none hx) rfl rfl rfl (fun _ => id)
  | reanimate p b =>
    simp only [step] at hs
    split at hs
    case isFalse => cases hs
    case isTrue hc =>
      split at hs
      · cases hs
      · rename_i o ho
        split at hs
        · rename_i hd
          cases hs
          have hr : s.reg o.handle = none := by
            cases hr : s.reg o.handle with
            | none => rfl
            | some a =>
              obtain ⟨o', h1, h2, h3⟩ := hu.reg _ _ hr
              have := hu.one a p o' o h1 ho h2
              subst this
              rw [ho] at h1; cases h1
              rw [hd.1] at h3; cases h3
          intro q o' hq hd' hx
          simp only [State.add, upd] at hq hx
          split at hq
          · rename_i e
            cases hq
            left
            simp only [State.add, request, hr, if_true, e]
            exact upd_same _ _ _
          · rename_i hqp
            have h1 := h q o' hq hd' hx
            have hh : o'.handle ≠ o.handle := fun e => hqp (hu.one q p o' o hq ho e)
            unfold Told at *
            simpa only [State.add, request, hr, if_true, upd_ne _ _ hh] using h1
        · cases hs; exact h
  | dispose p =>
    simp only [step] at hs
    split at hs
    case isFalse => cases hs
    case isTrue hc =>
      split at hs
      · cases hs
      · split at hs <;> cases hs
        · exact h.same (fun q o hq => ⟨o, hq, rfl, id⟩) (fun x q hx => upd_none hx) rfl rfl rfl (fun _ => id)
        · exact h
  | settle p =>
    simp only [step] at hs
    split at hs
    case isFalse => cases hs
    case isTrue hc =>
      split at hs
      · cases hs
      · split at hs
        · cases hs
        · split at hs <;> cases hs <;> refine h.same ?_ (fun _ _ => id) rfl rfl rfl (fun _ => id) <;>
            (simp only [upd]; grind)
  | invalidate p =>
    simp only [step] at hs
    split at hs
    case isFalse => cases hs
    case isTrue hc =>
      split at hs
      · cases hs
      · cases hs
        exact h.same (fun q o hq => ⟨o, hq, rfl, id⟩) (fun x q hx => upd_none hx) rfl rfl rfl (fun _ => id)
  | free p =>
    simp only [step] at hs
    split at hs
    case isFalse => cases hs
    case isTrue hc =>
      split at hs
      · cases hs
      · rename_i o ho
        cases hs
        intro q o' hq hd' hx
        simp only [State.add, upd] at hq hx
        split at hq
        · cases hq
        · rename_i hqp
          have h1 := h q o' hq hd' hx
          have hh : o'.handle ≠ o.handle := fun e => hqp (hu.one q p o' o hq ho e)
          unfold Told at *
          simp only [State.add]
          split
          · exact h1
          · rw [upd_ne _ _ hh]; exact h1

theorem watched_reach {s : State} (h : ReachIf step Fresh {} s) : Watched s := by
  induction h with
  | init => exact watched_init
  | step l hr hf hs ih => exact watched_step (uniq_reach hr) ih hf hs

end Gb.RemoteObj
