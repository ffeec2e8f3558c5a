import Verif.Lemmas.LocalObj
import Verif.Spec.LocalObj
/- What's left to do about local objects. -/
set_option autoImplicit false

namespace Gb.LocalObj

def Task.weight (t : Task) : Nat :=
  match t.kind with
  | .acquire => if t.ran then 36 else 37
  | _ => if t.ran then 5 else 10

def Dying.weight (d : Dying) : Nat :=
  match d.stage with
  | .disposing => 4
  | .disposed => 3
  | .finalizing => 2
  | .removed => 1

def unrefWeight (u : Kind × Nat) : Nat := 6 + Task.weight { kind := u.1, obj := u.2 }

/-- What's left to do by the kernel when BR_ACQUIRE has been acknowledged. -/
def Label.extra : Label → Nat
  | .done t => if t.kind = .acquire then 31 else 0
  | _ => 0

/-- What's left to do. -/
def left (s : State) : Nat :=
  5 * s.held.length + (s.unrefs.map unrefWeight).sum + (s.tasks.map Task.weight).sum + (s.dying.map Dying.weight).sum

theorem sum_erase {α : Type} [BEq α] [LawfulBEq α] (w : α → Nat) {l : List α} {x : α} (h : x ∈ l) :
    ((l.erase x).map w).sum + w x = (l.map w).sum := by
  induction l with
  | nil => cases h
  | cons y l ih =>
    by_cases hy : y = x
    · subst hy; simp; omega
    · have hx : x ∈ l := by
        rcases List.mem_cons.1 h with rfl | h
        · exact absurd rfl hy
        · exact h
      rw [List.erase_cons_tail (by simpa using hy)]
      have := ih hx
      simp only [List.map_cons, List.sum_cons]
      omega

theorem left_addRef {s s' : State} {p : Nat} (h : s.addRef p = .ok s') : left s' = left s ∧ s'.user = s.user := by
  obtain ⟨o, _, _, rfl⟩ := addRef_ok h; exact ⟨rfl, rfl⟩

theorem left_unref {s s' : State} {p : Nat} (h : s.unref p = .ok s') : left s' ≤ left s + 4 ∧ s'.user = s.user := by
  obtain ⟨o, _, ⟨_, rfl⟩ | ⟨_, rfl⟩⟩ := unref_ok h
  · refine ⟨?_, rfl⟩
    simp [left, Dying.weight]; try omega
  · exact ⟨by simp [left], rfl⟩

theorem left_step {s s' : State} {l : Label} (hl : l.settling) (hs : step s l = .ok s') :
    left s' + l.extra < left s ∧ s'.user = s.user := by
  cases l with
  | cleanup k p =>
    simp only [step] at hs
    split at hs
    · rename_i h
      obtain ⟨h1, h2⟩ := left_addRef hs
      refine ⟨?_, h2⟩
      have := sum_erase unrefWeight h
      simp only [left, Label.extra, List.map_cons, List.sum_cons, List.length_cons] at h1 ⊢
      simp only [unrefWeight] at this h1 ⊢
      omega
    · cases hs
  | put p =>
    simp only [step] at hs
    split at hs
    · rename_i h
      obtain ⟨h1, h2⟩ := left_unref hs
      refine ⟨?_, h2⟩
      have := List.length_erase_of_mem h
      have hp := List.length_pos_of_mem h
      simp only [left, Label.extra] at h1 ⊢
      omega
    · cases hs
  | run t =>
    simp only [step] at hs
    split at hs
    · rename_i h
      have hsum := sum_erase Task.weight h.1
      have hr := h.2
      simp only [runTask] at hs
      split at hs
      · cases hs
      · rename_i o ho
        split at hs
        · rename_i hk
          cases hs
          refine ⟨?_, rfl⟩
          simp only [left, State.add, Label.extra, List.map_cons, List.sum_cons]
          simp [Task.weight, hk, hr] at hsum ⊢
          omega
        · rename_i hk
          cases hs
          refine ⟨?_, rfl⟩
          simp only [left, State.add, Label.extra, List.map_cons, List.sum_cons]
          simp [Task.weight, hk, hr] at hsum ⊢
          omega
        · rename_i hk
          obtain ⟨h1, h2⟩ := left_addRef hs
          refine ⟨?_, h2⟩
          rw [h1]
          simp only [left, State.add, Label.extra, List.map_cons, List.sum_cons]
          simp [Task.weight, hk, hr] at hsum ⊢
          omega
        · rename_i hk
          split at hs
          · obtain ⟨h1, h2⟩ := left_unref hs
            refine ⟨Nat.lt_of_le_of_lt (Nat.add_le_add_right h1 _) ?_, h2⟩
            simp only [left, State.add, Label.extra, List.map_cons, List.sum_cons]
            simp [Task.weight, hk, hr] at hsum ⊢
            omega
          · cases hs
            refine ⟨?_, rfl⟩
            simp only [left, State.add, Label.extra, List.map_cons, List.sum_cons]
            simp [Task.weight, hk, hr] at hsum ⊢
            omega
    · cases hs
  | done t =>
    simp only [step] at hs
    split at hs
    · rename_i h
      have hsum := sum_erase Task.weight h.1
      have hr := h.2
      simp only [taskDone] at hs
      split at hs
      · rename_i hk
        split at hs
        · cases hs
        · obtain ⟨h1, h2⟩ := left_unref hs
          refine ⟨Nat.lt_of_le_of_lt (Nat.add_le_add_right h1 _) ?_, h2⟩
          simp only [left, State.add, Label.extra]
          simp [Task.weight, hk, hr] at hsum ⊢
          omega
      · rename_i hk
        obtain ⟨h1, h2⟩ := left_unref hs
        refine ⟨Nat.lt_of_le_of_lt (Nat.add_le_add_right h1 _) ?_, h2⟩
        have hw : t.weight = 5 := by
          cases hq : t.kind <;> simp [Task.weight, hq, hr] at hk ⊢
        have he : (Label.done t).extra = 0 := by simp [Label.extra]; exact hk
        rw [he]
        simp only [left]
        omega
    · cases hs
  | dispose p =>
    simp only [step] at hs
    split at hs
    · rename_i h
      have hsum := sum_erase Dying.weight h
      split at hs
      · cases hs
      · split at hs <;> cases hs <;> refine ⟨?_, rfl⟩ <;>
          simp only [left, Label.extra, List.map_cons, List.sum_cons] <;> simp [Dying.weight] at hsum ⊢ <;> omega
    · cases hs
  | settle p =>
    simp only [step] at hs
    split at hs
    · rename_i h
      have hsum := sum_erase Dying.weight h
      split at hs
      · cases hs
      · split at hs
        · cases hs
        · split at hs <;> cases hs <;> refine ⟨?_, rfl⟩ <;>
            simp only [left, Label.extra, List.map_cons, List.sum_cons] <;> simp [Dying.weight] at hsum ⊢ <;> omega
    · cases hs
  | invalidate p =>
    simp only [step] at hs
    split at hs
    · rename_i h
      have hsum := sum_erase Dying.weight h
      split at hs
      · cases hs
      · cases hs; refine ⟨?_, rfl⟩
        simp only [left, Label.extra, List.map_cons, List.sum_cons]; simp [Dying.weight] at hsum ⊢; omega
    · cases hs
  | free p =>
    simp only [step] at hs
    split at hs
    · rename_i h
      have hsum := sum_erase Dying.weight h
      split at hs
      · cases hs
      · cases hs; refine ⟨?_, rfl⟩
        simp only [left, State.add, Label.extra]; simp [Dying.weight] at hsum ⊢; omega
    · cases hs
  | _ => cases hl

/-- Nothing is left to do. -/
def Settled (s : State) : Prop := s.held = [] ∧ s.unrefs = [] ∧ s.tasks = [] ∧ s.dying = []

/-- If there's something left to do, then it's not impossible. -/
theorem enabled (s : State) : Settled s ∨ ∃ l, Label.settling l ∧ step s l ≠ .no := by
  cases h1 : s.held with
  | cons x r =>
    refine .inr ⟨.put x, trivial, ?_⟩
    simp only [step, h1, List.mem_cons, true_or, if_true, State.unref]
    grind
  | nil =>
  cases h2 : s.unrefs with
  | cons x r =>
    refine .inr ⟨.cleanup x.1 x.2, trivial, ?_⟩
    simp only [step, h2, List.mem_cons, true_or, if_true, State.addRef]
    grind
  | nil =>
  cases h3 : s.tasks with
  | cons t r =>
    cases ht : t.ran with
    | false =>
      refine .inr ⟨.run t, trivial, ?_⟩
      simp only [step, h3, ht, List.mem_cons, true_or, and_self, if_true, runTask, State.addRef, State.unref]
      grind
    | true =>
      refine .inr ⟨.done t, trivial, ?_⟩
      simp only [step, h3, ht, List.mem_cons, true_or, and_self, if_true, taskDone, State.unref]
      grind
  | nil =>
  cases h4 : s.dying with
  | cons d r =>
    obtain ⟨p, st⟩ := d
    cases st with
    | disposing => refine .inr ⟨.dispose p, trivial, ?_⟩; simp only [step, h4, List.mem_cons, true_or, if_true]; grind
    | disposed => refine .inr ⟨.settle p, trivial, ?_⟩; simp only [step, h4, List.mem_cons, true_or, if_true]; grind
    | finalizing => refine .inr ⟨.invalidate p, trivial, ?_⟩; simp only [step, h4, List.mem_cons, true_or, if_true]; grind
    | removed => refine .inr ⟨.free p, trivial, ?_⟩; simp only [step, h4, List.mem_cons, true_or, if_true]; grind
  | nil => exact .inl ⟨h1, h2, h3, h4⟩

/-- Whatever is left to do can be done, without anyone else doing anything. -/
theorem settles {s : State} (h : Reach step {} s) :
    ∃ ls s', (∀ l ∈ ls, Label.settling l) ∧ exec step s ls = .ok s' ∧ Reach step {} s' ∧ Settled s' ∧ s'.user = s.user := by
  generalize hn : left s = n
  induction n using Nat.strongRecOn generalizing s with
  | ind n ih =>
    rcases enabled s with hd | ⟨l, hl, hne⟩
    · exact ⟨[], s, by simp, rfl, h, hd, rfl⟩
    · cases hs : step s l with
      | no => exact absurd hs hne
      | ub =>
        obtain ⟨p, o, rfl, _⟩ := step_ub (inv_reach h) hs
        exact hl.elim
      | ok s1 =>
        obtain ⟨h1, h2⟩ := left_step hl hs
        obtain ⟨ls, s2, h3, h4, h5, h6, h7⟩ := ih (left s1) (by omega) (h.step hs) rfl
        refine ⟨l :: ls, s2, ?_, by simp only [exec, hs, h4], h5, h6, h7.trans h2⟩
        intro x hx
        rcases List.mem_cons.1 hx with rfl | hx
        · exact hl
        · exact h3 x hx

end Gb.LocalObj
