import Verif.Lemmas.RemoteObj
import Verif.Spec.RemoteObj
/- What's left to do about remote objects. -/
set_option autoImplicit false

namespace Gb.RemoteObj

def Task.weight (t : Task) : Nat := if t.ran then 5 else 7

def Killing.weight (t : Killing) : Nat := if t.notified then 6 else 1

def Dying.weight (d : Dying) : Nat :=
  match d.stage with
  | .disposing => 4
  | .disposed => 3
  | .finalizing => 2
  | .removed => 1

/-- What's left to do. -/
def left (s : State) : Nat :=
  8 * s.found.length + (s.tasks.map Task.weight).sum + (s.killing.map Killing.weight).sum + (s.dying.map Dying.weight).sum

theorem sum_erase {α : Type} [BEq α] [LawfulBEq α] (w : α → Nat) {l : List α} {x : α} (h : x ∈ l) :
    ((l.erase x).map w).sum + w x = (l.map w).sum := by
  induction l with
  | nil => cases h
  | cons y l ih =>
    by_cases hy : y = x
    · subst hy; simp; omega
    · have hx : x ∈ l := by
        rcases List.mem_cons.1 h with rfl | h
        · exact absurd rfl hy
        · exact h
      rw [List.erase_cons_tail (by simpa using hy)]
      have := ih hx
      simp only [List.map_cons, List.sum_cons]
      omega

theorem left_unref {s s' : State} {p : Nat} (h : s.unref p = .ok s') : left s' ≤ left s + 4 := by
  obtain ⟨o, _, ⟨_, rfl⟩ | ⟨_, rfl⟩⟩ := unref_ok h
  · simp [left, Dying.weight]; try omega
  · simp [left]

theorem left_step {s s' : State} {l : Label} (hl : l.settling) (hs : step s l = .ok s') : left s' < left s := by
  cases l with
  | notify p =>
    simp only [step] at hs
    split at hs
    · rename_i h
      cases hs
      have := List.length_erase_of_mem h
      have hp := List.length_pos_of_mem h
      simp only [left, State.add, List.map_cons, List.sum_cons, Task.weight]
      simp
      omega
    · cases hs
  | run p =>
    simp only [step] at hs
    split at hs
    · rename_i h
      have hsum := sum_erase Task.weight h.2
      split at hs
      · cases hs
      · split at hs <;> cases hs <;> simp only [left, State.add, List.map_cons, List.sum_cons] <;>
          simp [Task.weight, Killing.weight] at hsum ⊢ <;> omega
    · cases hs
  | bury p =>
    simp only [step] at hs
    split at hs
    · rename_i h
      have hsum := sum_erase Killing.weight h
      split at hs
      · cases hs
      · cases hs; simp only [left, State.add, List.map_cons, List.sum_cons]
        simp [Task.weight, Killing.weight] at hsum ⊢; omega
    · cases hs
  | vanish p =>
    simp only [step] at hs
    split at hs
    · rename_i h
      have hsum := sum_erase Killing.weight h
      split at hs
      · cases hs
      · cases hs; simp only [left, State.add]
        simp [Killing.weight] at hsum ⊢; omega
    · cases hs
  | done p =>
    simp only [step] at hs
    split at hs
    · rename_i h
      have hsum := sum_erase Task.weight h
      have h1 := left_unref hs
      refine Nat.lt_of_le_of_lt h1 ?_
      simp only [left]
      simp [Task.weight] at hsum ⊢
      omega
    · cases hs
  | dispose p =>
    simp only [step] at hs
    split at hs
    · rename_i h
      have hsum := sum_erase Dying.weight h
      split at hs
      · cases hs
      · split at hs <;> cases hs <;>
          simp only [left, List.map_cons, List.sum_cons] <;> simp [Dying.weight] at hsum ⊢ <;> omega
    · cases hs
  | settle p =>
    simp only [step] at hs
    split at hs
    · rename_i h
      have hsum := sum_erase Dying.weight h
      split at hs
      · cases hs
      · split at hs
        · cases hs
        · split at hs <;> cases hs <;>
            simp only [left, List.map_cons, List.sum_cons] <;> simp [Dying.weight] at hsum ⊢ <;> omega
    · cases hs
  | invalidate p =>
    simp only [step] at hs
    split at hs
    · rename_i h
      have hsum := sum_erase Dying.weight h
      split at hs
      · cases hs
      · cases hs
        simp only [left, List.map_cons, List.sum_cons]; simp [Dying.weight] at hsum ⊢; omega
    · cases hs
  | free p =>
    simp only [step] at hs
    split at hs
    · rename_i h
      have hsum := sum_erase Dying.weight h
      split at hs
      · cases hs
      · cases hs
        simp only [left, State.add]; simp [Dying.weight] at hsum ⊢; omega
    · cases hs
  | _ => cases hl

/-- Nothing is left to do. -/
def Settled (s : State) : Prop := s.found = [] ∧ s.tasks = [] ∧ s.killing = [] ∧ s.dying = []

/-- If there's something left to do, then it's not impossible. -/
theorem enabled (s : State) : Settled s ∨ ∃ l, Label.settling l ∧ step s l ≠ .no := by
  cases h1 : s.found with
  | cons x r =>
    refine .inr ⟨.notify x, trivial, ?_⟩
    simp [step, h1]
  | nil =>
  cases h2 : s.killing with
  | cons x r =>
    obtain ⟨p, b⟩ := x
    cases b with
    | false =>
      refine .inr ⟨.vanish p, trivial, ?_⟩
      simp only [step, h2, List.mem_cons, true_or, if_true]
      grind
    | true =>
      refine .inr ⟨.bury p, trivial, ?_⟩
      simp only [step, h2, List.mem_cons, true_or, if_true]
      grind
  | nil =>
  cases h3 : s.tasks with
  | cons t r =>
    obtain ⟨p, b⟩ := t
    cases b with
    | false =>
      refine .inr ⟨.run p, trivial, ?_⟩
      simp only [step, h2, h3, List.mem_cons, true_or, and_self, if_true]
      grind
    | true =>
      refine .inr ⟨.done p, trivial, ?_⟩
      simp only [step, h3, List.mem_cons, true_or, if_true, State.unref]
      grind
  | nil =>
  cases h4 : s.dying with
  | cons d r =>
    obtain ⟨p, st⟩ := d
    cases st with
    | disposing => refine .inr ⟨.dispose p, trivial, ?_⟩; simp only [step, h4, List.mem_cons, true_or, if_true]; grind
    | disposed => refine .inr ⟨.settle p, trivial, ?_⟩; simp only [step, h4, List.mem_cons, true_or, if_true]; grind
    | finalizing => refine .inr ⟨.invalidate p, trivial, ?_⟩; simp only [step, h4, List.mem_cons, true_or, if_true]; grind
    | removed => refine .inr ⟨.free p, trivial, ?_⟩; simp only [step, h4, List.mem_cons, true_or, if_true]; grind
  | nil => exact .inl ⟨h1, h3, h2, h4⟩

/-- The application is going to know, or knows, or isn't interested anymore. -/
def Marked (s : State) (p : Nat) : Prop := Notified s p ∨ ∀ o, s.objs p = some o → o.dead = true

theorem countP_erase' {l : List Killing} {x y : Killing} (h : x ∈ l) :
    (l.erase x).countP (fun z => decide (z = y)) + (if x = y then 1 else 0) = l.countP fun z => decide (z = y) := by
  have := countP_erase (fun z => decide (z = y)) h
  have hp : x = y → 0 < l.countP fun z => decide (z = y) := by
    rintro rfl; exact List.countP_pos_iff.2 ⟨x, h, by simp⟩
  simp only [decide_eq_true_eq] at this
  grind

theorem kept_step {s s' : State} {l : Label} (hl : l.settling) (hs : step s l = .ok s') (q : Nat) :
    owned s' q = owned s q ∧ (Marked s q → Marked s' q) := by
  cases l with
  | notify p =>
    simp only [step] at hs
    split at hs
    · cases hs
      refine ⟨rfl, ?_⟩
      simp only [Marked, Notified, State.add]
      by_cases hq : q = p
      · subst hq; intro _; exact .inl (.inr (by simp))
      · rw [List.mem_erase_of_ne hq]; simp [hq]
    · cases hs
  | run p =>
    simp only [step] at hs
    split at hs
    · split at hs
      · cases hs
      · rename_i o ho
        split at hs
        · cases hs
          refine ⟨rfl, ?_⟩
          simp only [Marked, Notified, State.add]
          by_cases hq : q = p
          · subst hq; intro _; right; grind
          · rw [List.mem_cons, List.mem_erase_of_ne (by simp [hq])]; grind
        · cases hs
          refine ⟨?_, ?_⟩
          · simp [owned, State.add]
          · simp only [Marked, Notified, State.add]
            by_cases hq : q = p
            · subst hq; intro _; right; simp [upd_same]
            · rw [upd_ne _ _ hq, List.mem_erase_of_ne (by simp [hq])]; exact id
    · cases hs
  | bury p =>
    simp only [step] at hs
    split at hs
    · rename_i h
      have := countP_erase' (y := ⟨q, false⟩) h
      split at hs
      · cases hs
      · cases hs
        refine ⟨?_, ?_⟩
        · simp [owned, State.add] at this ⊢; omega
        · simp [Marked, Notified, State.add]
    · cases hs
  | vanish p =>
    simp only [step] at hs
    split at hs
    · rename_i h
      have := countP_erase' (y := ⟨q, false⟩) h
      split at hs
      · cases hs
      · cases hs
        refine ⟨?_, ?_⟩
        · simp only [owned, State.add]
          by_cases hq : q = p
          · subst hq; simp [upd_same] at this ⊢; omega
          · rw [upd_ne _ _ hq]; simp [Ne.symm hq] at this ⊢; omega
        · simp [Marked, Notified, State.add]
    · cases hs
  | done p =>
    simp only [step] at hs
    split at hs
    · obtain ⟨o, ho, ⟨_, rfl⟩ | ⟨_, rfl⟩⟩ := unref_ok hs
      · refine ⟨rfl, ?_⟩
        simp only [Marked, Notified]
        rw [List.mem_erase_of_ne (by simp)]; exact id
      · refine ⟨rfl, ?_⟩
        simp only [Marked, Notified] at ho ⊢
        rw [List.mem_erase_of_ne (by simp)]
        by_cases hq : q = p
        · subst hq; simp only [upd_same]; grind
        · rw [upd_ne _ _ hq]; exact id
    · cases hs
  | dispose p =>
    simp only [step] at hs
    split at hs
    · split at hs
      · cases hs
      · split at hs <;> cases hs <;> exact ⟨rfl, id⟩
    · cases hs
  | settle p =>
    simp only [step] at hs
    split at hs
    · split at hs
      · cases hs
      · rename_i o ho
        split at hs
        · cases hs
        · split at hs <;> cases hs <;> refine ⟨rfl, ?_⟩ <;> simp only [Marked, Notified] <;>
            (by_cases hq : q = p
             · subst hq; simp only [upd_same]; grind
             · rw [upd_ne _ _ hq]; exact id)
    · cases hs
  | invalidate p =>
    simp only [step] at hs
    split at hs
    · split at hs
      · cases hs
      · cases hs; exact ⟨rfl, id⟩
    · cases hs
  | free p =>
    simp only [step] at hs
    split at hs
    · split at hs
      · cases hs
      · cases hs
        refine ⟨rfl, ?_⟩
        simp only [Marked, Notified, State.add]
        by_cases hq : q = p
        · subst hq; simp only [upd_same]; grind
        · rw [upd_ne _ _ hq]; exact id
    · cases hs
  | _ => cases hl

/-- Whatever is left to do can be done, without anyone else doing anything. -/
theorem settles {s : State} (h : Reach step {} s) :
    ∃ ls s', (∀ l ∈ ls, Label.settling l) ∧ exec step s ls = .ok s' ∧ Reach step {} s' ∧ Settled s' ∧
      ∀ q, owned s' q = owned s q ∧ (Marked s q → Marked s' q) := by
  generalize hn : left s = n
  induction n using Nat.strongRecOn generalizing s with
  | ind n ih =>
    rcases enabled s with hd | ⟨l, hl, hne⟩
    · exact ⟨[], s, by simp, rfl, h, hd, fun q => ⟨rfl, id⟩⟩
    · cases hs : step s l with
      | no => exact absurd hs hne
      | ub =>
        obtain ⟨_, _, _, _, _, _, ⟨_, _, rfl⟩ | ⟨_, rfl⟩⟩ := step_ub (inv_reach h) hs <;> exact hl.elim
      | ok s1 =>
        have h1 := left_step hl hs
        obtain ⟨ls, s2, h3, h4, h5, h6, h7⟩ := ih (left s1) (by omega) (h.step hs) rfl
        refine ⟨l :: ls, s2, ?_, by simp only [exec, hs, h4], h5, h6, fun q => ?_⟩
        · intro x hx
          rcases List.mem_cons.1 hx with rfl | hx
          · exact hl
          · exact h3 x hx
        · have := kept_step hl hs q
          exact ⟨(h7 q).1.trans this.1, fun hm => (h7 q).2 (this.2 hm)⟩

end Gb.RemoteObj
