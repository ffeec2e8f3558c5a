import Verif.Spec.EventFlag
/-
C38: every event bit set by gbinder_fmq_wake is returned by exactly one gbinder_fmq_wait call whose
mask contains it; wait returns only bits of its mask and never touches others.

`C38_bits`, `C38_once` and `C38_mask` is that. They don't say that anyone who waits gets the bit:
`C38_wakeup_partial` is about a kernel which wakes up all the threads, the way G_MAXUINT32 was
probably meant to be understood. With Linux it's not so (`C38_fails_wakeup`). If no more than one
thread waits for the same queue, it doesn't make a difference (`C38_single_partial`).
-/
set_option autoImplicit false

namespace Gb.C38
open Gb.EventFlag

theorem track_append {b : Nat} {evs : List Ev} : ∀ {cur r : Bool}, track b cur evs = some r →
    ∀ e, track b cur (evs ++ [e]) = track b r [e] := by
  induction evs with
  | nil => intro cur r h e; cases h; rfl
  | cons x evs ih =>
    intro cur r h e
    cases x with
    | wake mask => exact ih h e
    | got mask bits =>
      simp only [List.cons_append, track] at h ⊢
      split
      · rename_i h1; rw [if_pos h1] at h; exact ih h e
      · rename_i h1; rw [if_neg h1] at h; cases h
    | none mask =>
      simp only [List.cons_append, track] at h ⊢
      split
      · rename_i h1; rw [if_pos h1] at h; cases h
      · rename_i h1; rw [if_neg h1] at h; exact ih h e

theorem zero_bit {a m : BitVec 32} (h : a &&& m = 0) (b : Nat) :
    (m.getLsbD b && a.getLsbD b) = false := by
  have := congrArg (fun x => x.getLsbD b) h
  simp at this
  cases h1 : a.getLsbD b <;> simp_all

/-- The bits behave: each is returned if and only if it has been set and hasn't been returned to
anyone else since then, and there's nothing that gets lost. -/
theorem C38_bits {all : Bool} {s : State} (h : Reach (step all) {} s) {b : Nat} (hb : b < 32) :
    track b false s.log = some (s.word.getLsbD b) := by
  refine Reach.invariant (P := fun s => track b false s.log = some (s.word.getLsbD b)) ?_ ?_ h
  · simp [track]
  · intro s l s' hi hs
    cases l with
    | wake t mask =>
      simp only [step] at hs
      split at hs
      · cases hs
        simp only
        rw [track_append hi]
        simp [track]
      · cases hs
    | futexWake t who =>
      simp only [step] at hs
      (repeat' split at hs) <;> first | cases hs | skip
      all_goals exact hi
    | wait t mask now =>
      simp only [step] at hs
      split at hs
      · split at hs
        · cases hs
          simp only
          rw [track_append hi]
          simp [track, hb, Bool.and_comm]
        · rename_i h1
          cases hs
          have h0 := zero_bit (Classical.not_not.1 h1) b
          simp only
          rw [track_append hi]
          simp only [track, h0]
          cases h2 : s.word.getLsbD b <;> simp_all
      · cases hs
    | futexWait t =>
      simp only [step] at hs
      (repeat' split at hs) <;> first | cases hs | skip
      all_goals exact hi
    | interrupt t =>
      simp only [step] at hs
      (repeat' split at hs) <;> first | cases hs | skip
      all_goals exact hi
    | resume t =>
      simp only [step] at hs
      split at hs
      · cases hs
        simp only
        rw [track_append hi]
        split
        · simp [track, hb, Bool.and_comm]
        · rename_i h1
          have h0 := zero_bit (Classical.not_not.1 h1) b
          simp only [track, h0]
          cases h2 : s.word.getLsbD b <;> simp_all
      · cases hs

theorem raised_returned {b : Nat} {evs : List Ev} : ∀ {cur r : Bool}, track b cur evs = some r →
    cur.toNat + raised b cur evs = returned b evs + r.toNat := by
  induction evs with
  | nil => intro cur r h; cases h; simp [raised, returned]
  | cons x evs ih =>
    intro cur r h
    cases x with
    | wake mask =>
      have := ih (cur := cur || mask.getLsbD b) h
      simp only [raised, returned, List.countP_cons, Bool.false_eq_true, if_false] at this ⊢
      cases cur <;> cases h1 : mask.getLsbD b <;> simp_all <;> omega
    | got mask bits =>
      simp only [track] at h
      split at h
      · rename_i h1
        have := ih h
        simp only [raised, returned, List.countP_cons] at this ⊢
        cases cur <;> cases h2 : mask.getLsbD b <;> simp_all <;> omega
      · cases h
    | none mask =>
      simp only [track] at h
      split at h
      · cases h
      · have := ih h
        simp only [raised, returned, List.countP_cons, Bool.false_eq_true, if_false] at this ⊢
        omega

/-- Each time the bit has become set it has been returned exactly once, or it's still set. -/
theorem C38_once {all : Bool} {s : State} (h : Reach (step all) {} s) {b : Nat} (hb : b < 32) :
    raised b false s.log = returned b s.log + (s.word.getLsbD b).toNat := by
  have := raised_returned (C38_bits h hb)
  simpa using this

/-- gbinder_fmq_wait only returns what it has been asked about, and it always returns something. -/
theorem C38_mask {all : Bool} {s : State} (h : Reach (step all) {} s) {mask bits : BitVec 32}
    (hm : .got mask bits ∈ s.log) : bits ≠ 0 ∧ bits &&& ~~~mask = 0 := by
  revert hm
  refine Reach.invariant (P := fun s => .got mask bits ∈ s.log → bits ≠ 0 ∧ bits &&& ~~~mask = 0) ?_ ?_ h
  · intro hm; cases hm
  · intro s l s' hi hs hm
    have key : ∀ (w m : BitVec 32), (w &&& m) &&& ~~~m = 0 := by
      intro w m
      apply BitVec.eq_of_getLsbD_eq
      intro i hi
      simp
      cases w.getLsbD i <;> cases m.getLsbD i <;> simp
    cases l with
    | wake t k =>
      simp only [step] at hs
      split at hs
      · cases hs
        rcases List.mem_append.1 hm with hm | hm
        · exact hi hm
        · rw [List.mem_singleton] at hm; cases hm
      · cases hs
    | futexWake t who =>
      simp only [step] at hs
      split at hs
      · cases hs; exact hi hm
      · cases hs
    | wait t k now =>
      simp only [step] at hs
      split at hs
      · split at hs
        · rename_i h1
          cases hs
          rcases List.mem_append.1 hm with hm | hm
          · exact hi hm
          · rw [List.mem_singleton] at hm; cases hm
            exact ⟨h1, key _ _⟩
        · cases hs
          rcases List.mem_append.1 hm with hm | hm
          · exact hi hm
          · rw [List.mem_singleton] at hm; cases hm
      · cases hs
    | futexWait t =>
      simp only [step] at hs
      split at hs
      · cases hs; exact hi hm
      · cases hs
    | interrupt t =>
      simp only [step] at hs
      split at hs
      · cases hs; exact hi hm
      · cases hs
    | resume t =>
      simp only [step] at hs
      split at hs
      · cases hs
        rcases List.mem_append.1 hm with hm | hm
        · exact hi hm
        · rw [List.mem_singleton] at hm
          split at hm
          · rename_i h1
            cases hm
            exact ⟨h1, key _ _⟩
          · cases hm
      · cases hs

/-- A thread which is asleep, although one of its bits is set. -/
def Missed (s : State) (t : Nat) : Prop := ∃ m, s.thread t = .sleeping m ∧ s.word &&& m ≠ 0

/-- Someone is about to wake the thread up. -/
def Coming (s : State) (t : Nat) : Prop :=
  ∃ m u mask, s.thread t = .sleeping m ∧ s.thread u = .waking mask ∧ m &&& mask ≠ 0

/-- One more state component: the thread which has checked the bits hasn't seen any. -/
def Inv (s : State) : Prop :=
  (∀ t old m, s.thread t = .checked old m → old &&& m = 0) ∧ (∀ t, Missed s t → Coming s t)

theorem and_mono {w m k : BitVec 32} (h : (w &&& ~~~k) &&& m ≠ 0) : w &&& m ≠ 0 := by
  intro h0
  apply h
  apply BitVec.eq_of_getLsbD_eq
  intro i hi
  have := zero_bit h0 i
  simp
  cases h1 : w.getLsbD i <;> cases h2 : m.getLsbD i <;> simp_all

theorem newly {w m k : BitVec 32} (h : (w ||| k) &&& m ≠ 0) (h0 : w &&& m = 0) :
    ~~~w &&& k ≠ 0 ∧ m &&& k ≠ 0 := by
  refine ⟨fun h1 => h ?_, fun h1 => h ?_⟩
  · apply BitVec.eq_of_getLsbD_eq
    intro i hi
    have a := zero_bit h0 i
    have b := zero_bit h1 i
    simp only [BitVec.getLsbD_and, BitVec.getLsbD_or, BitVec.getLsbD_not, hi, decide_true, Bool.true_and] at b ⊢
    cases h3 : w.getLsbD i <;> cases h2 : m.getLsbD i <;> cases h4 : k.getLsbD i <;> simp_all
  · apply BitVec.eq_of_getLsbD_eq
    intro i hi
    have a := zero_bit h0 i
    have b := zero_bit h1 i
    simp only [BitVec.getLsbD_and, BitVec.getLsbD_or]
    cases h3 : w.getLsbD i <;> cases h2 : m.getLsbD i <;> cases h4 : k.getLsbD i <;> simp_all

/-- What is required from the kernel which only wakes up one thread (if there's any to wake up),
and from the callers of gbinder_fmq_wait. -/
def Single (s : State) (l : Label) : Prop :=
  match l with
  | .wait t _ _ => ∀ u, u ≠ t → s.thread u = .idle ∨ ∃ m, s.thread u = .waking m
  | .futexWake t who => ∀ k, s.thread t = .waking k → ∀ u m, s.thread u = .sleeping m → m &&& k ≠ 0 →
      ∃ v n, who = some v ∧ s.thread v = .sleeping n ∧ n &&& k ≠ 0
  | _ => True

/-- A waiting thread. -/
def Waiting (s : State) (t : Nat) : Prop := ¬ (s.thread t = .idle ∨ ∃ m, s.thread t = .waking m)

theorem wakeUp_cases (all : Bool) (th : Nat → Thread) (mask : BitVec 32) (who : Option Nat) (u : Nat) :
    wakeUp all th mask who u = th u ∨
      ∃ m, th u = .sleeping m ∧ m &&& mask ≠ 0 ∧ wakeUp all th mask who u = .woken m := by
  unfold wakeUp
  split
  · rename_i m h
    split
    · rename_i h1
      exact .inr ⟨m, h, h1.1, rfl⟩
    · exact .inl h.symm
  · exact .inl rfl

/-- One step, if all those who should wake up do wake up. -/
theorem inv_step {all : Bool} {s s' : State} {l : Label} (hi : Inv s) (hs : step all s l = .ok s')
    (hw : ∀ t who, l = .futexWake t who → ∀ k, s.thread t = .waking k → ∀ u m,
      s.thread u = .sleeping m → m &&& k ≠ 0 → wakeUp all s.thread k who u ≠ .sleeping m) : Inv s' := by
  obtain ⟨h1, h2⟩ := hi
  cases l with
  | wake t k =>
    simp only [step] at hs
    split at hs
    · rename_i h0
      cases hs
      by_cases hn : ~~~s.word &&& k ≠ 0
      · simp only [if_pos hn]
        refine ⟨?_, ?_⟩
        · intro u old m hu
          simp only [upd] at hu
          split at hu
          · cases hu
          · exact h1 u old m hu
        · rintro u ⟨m, hu, hm⟩
          simp only at hu hm
          have hut : u ≠ t := by intro h; subst h; rw [upd_same] at hu; cases hu
          rw [upd_ne _ _ hut] at hu
          by_cases h3 : s.word &&& m = 0
          · have := newly hm h3
            exact ⟨m, t, k, (upd_ne _ _ hut).trans hu, upd_same _ _ _, this.2⟩
          · obtain ⟨m', v, mask, e1, e2, e3⟩ := h2 u ⟨m, hu, h3⟩
            have hvt : v ≠ t := by intro h; subst h; rw [h0.1] at e2; cases e2
            exact ⟨m', v, mask, (upd_ne _ _ hut).trans e1, (upd_ne _ _ hvt).trans e2, e3⟩
      · simp only [if_neg hn]
        refine ⟨h1, ?_⟩
        rintro u ⟨m, hu, hm⟩
        by_cases h3 : s.word &&& m = 0
        · exact absurd (newly hm h3).1 hn
        · exact h2 u ⟨m, hu, h3⟩
    · cases hs
  | futexWake t who =>
    simp only [step] at hs
    split at hs
    · rename_i k hk
      cases hs
      refine ⟨?_, ?_⟩
      · intro u old m hu
        simp only [upd] at hu
        split at hu
        · cases hu
        · rcases wakeUp_cases all s.thread k who u with h | ⟨m', _, _, h⟩
          · exact h1 u old m (h.symm.trans hu)
          · rw [h] at hu; cases hu
      · rintro u ⟨m, hu, hm⟩
        simp only at hu hm
        have hut : u ≠ t := by intro h; subst h; rw [upd_same] at hu; cases hu
        rw [upd_ne _ _ hut] at hu
        have hsu : s.thread u = .sleeping m := by
          rcases wakeUp_cases all s.thread k who u with h | ⟨m', _, _, h⟩
          · exact h.symm.trans hu
          · rw [h] at hu; cases hu
        obtain ⟨m', v, mask, e1, e2, e3⟩ := h2 u ⟨m, hsu, hm⟩
        have hvt : v ≠ t := by
          intro h
          subst h
          rw [hk] at e2
          cases e2
          rw [hsu] at e1
          cases e1
          exact hw v who rfl k hk u m hsu e3 hu
        rw [hsu] at e1
        cases e1
        refine ⟨m, v, mask, (upd_ne _ _ hut).trans hu, (upd_ne _ _ hvt).trans ?_, e3⟩
        rcases wakeUp_cases all s.thread k who v with h | ⟨m', h, _, _⟩
        · exact h.trans e2
        · rw [h] at e2; cases e2
    · cases hs
  | wait t k now =>
    simp only [step] at hs
    split at hs
    · rename_i h0
      split at hs
      · cases hs
        refine ⟨h1, ?_⟩
        rintro u ⟨m, hu, hm⟩
        exact h2 u ⟨m, hu, and_mono hm⟩
      · rename_i hz
        cases hs
        cases now
        · simp only [Bool.false_eq_true, if_false]
          refine ⟨?_, ?_⟩
          · intro u old m hu
            simp only [upd] at hu
            split at hu
            · cases hu
              exact Classical.not_not.1 hz
            · exact h1 u old m hu
          · rintro u ⟨m, hu, hm⟩
            simp only at hu hm
            have hut : u ≠ t := by intro h; subst h; rw [upd_same] at hu; cases hu
            rw [upd_ne _ _ hut] at hu
            obtain ⟨m', v, mask, e1, e2, e3⟩ := h2 u ⟨m, hu, and_mono hm⟩
            have hvt : v ≠ t := by intro h; subst h; rw [h0.1] at e2; cases e2
            exact ⟨m', v, mask, (upd_ne _ _ hut).trans e1, (upd_ne _ _ hvt).trans e2, e3⟩
        · simp only [if_true]
          refine ⟨h1, ?_⟩
          rintro u ⟨m, hu, hm⟩
          exact h2 u ⟨m, hu, and_mono hm⟩
    · cases hs
  | futexWait t =>
    simp only [step] at hs
    split at hs
    · rename_i old k hk
      cases hs
      refine ⟨?_, ?_⟩
      · intro u old m hu
        simp only [upd] at hu
        split at hu
        · split at hu <;> cases hu
        · exact h1 u old m hu
      · rintro u ⟨m, hu, hm⟩
        simp only at hu hm
        by_cases hut : u = t
        · subst hut
          rw [upd_same] at hu
          split at hu
          · rename_i he
            cases hu
            have := h1 u old k hk
            rw [he] at hm
            exact absurd this hm
          · cases hu
        · rw [upd_ne _ _ hut] at hu
          obtain ⟨m', v, mask, e1, e2, e3⟩ := h2 u ⟨m, hu, hm⟩
          have hvt : v ≠ t := by intro h; subst h; rw [hk] at e2; cases e2
          exact ⟨m', v, mask, (upd_ne _ _ hut).trans e1, (upd_ne _ _ hvt).trans e2, e3⟩
    · cases hs
  | interrupt t =>
    simp only [step] at hs
    split at hs
    · rename_i k hk
      cases hs
      refine ⟨?_, ?_⟩
      · intro u old m hu
        simp only [upd] at hu
        split at hu
        · cases hu
        · exact h1 u old m hu
      · rintro u ⟨m, hu, hm⟩
        simp only at hu hm
        have hut : u ≠ t := by intro h; subst h; rw [upd_same] at hu; cases hu
        rw [upd_ne _ _ hut] at hu
        obtain ⟨m', v, mask, e1, e2, e3⟩ := h2 u ⟨m, hu, hm⟩
        have hvt : v ≠ t := by intro h; subst h; rw [hk] at e2; cases e2
        exact ⟨m', v, mask, (upd_ne _ _ hut).trans e1, (upd_ne _ _ hvt).trans e2, e3⟩
    · cases hs
  | resume t =>
    simp only [step] at hs
    split at hs
    · rename_i k hk
      cases hs
      refine ⟨?_, ?_⟩
      · intro u old m hu
        simp only [upd] at hu
        split at hu
        · cases hu
        · exact h1 u old m hu
      · rintro u ⟨m, hu, hm⟩
        simp only at hu hm
        have hut : u ≠ t := by intro h; subst h; rw [upd_same] at hu; cases hu
        rw [upd_ne _ _ hut] at hu
        obtain ⟨m', v, mask, e1, e2, e3⟩ := h2 u ⟨m, hu, and_mono hm⟩
        have hvt : v ≠ t := by intro h; subst h; rw [hk] at e2; cases e2
        exact ⟨m', v, mask, (upd_ne _ _ hut).trans e1, (upd_ne _ _ hvt).trans e2, e3⟩
    · cases hs

theorem inv_init : Inv {} :=
  ⟨(fun t old m h => by cases h), (fun t h => by obtain ⟨m, h, _⟩ := h; cases h)⟩

/-- If the kernel wakes up all the threads, nobody keeps on sleeping when one of their bits is set:
someone is about to wake them up. -/
theorem C38_wakeup_partial {s : State} (h : Reach (step true) {} s) {t : Nat} (hm : Missed s t) :
    Coming s t := by
  refine (Reach.invariant (P := Inv) inv_init ?_ h).2 t hm
  intro s l s' hi hs
  refine inv_step hi hs ?_
  intro t who _ k hk u m hu hmk h
  unfold wakeUp at h
  rw [hu] at h
  simp at h
  exact hmk h

/-- At most one thread is waiting. -/
def One (s : State) : Prop := ∀ t u, Waiting s t → Waiting s u → t = u

theorem one_step {s s' : State} {l : Label} (hi : One s) (hl : Single s l)
    (hs : step false s l = .ok s') : One s' := by
  have sub : (∀ u, Waiting s' u → Waiting s u) → One s' :=
    fun h t u ht hu => hi t u (h t ht) (h u hu)
  cases l with
  | wake t k =>
    simp only [step] at hs
    split at hs
    · cases hs
      apply sub
      intro u hu
      by_cases hn : ~~~s.word &&& k ≠ 0
      · simp only [if_pos hn] at hu
        by_cases hut : u = t
        · subst hut
          exact absurd (.inr ⟨k, upd_same _ _ _⟩) hu
        · unfold Waiting at hu ⊢
          simp only [upd_ne _ _ hut] at hu
          exact hu
      · simp only [if_neg hn] at hu
        exact hu
    · cases hs
  | futexWake t who =>
    simp only [step] at hs
    split at hs
    · rename_i k hk
      cases hs
      apply sub
      intro u hu
      by_cases hut : u = t
      · subst hut
        exact absurd (.inl (upd_same _ _ _)) hu
      · unfold Waiting at hu ⊢
        simp only [upd_ne _ _ hut] at hu
        rcases wakeUp_cases false s.thread k who u with h | ⟨m, h, _, _⟩
        · rw [h] at hu; exact hu
        · rw [h]; simp
    · cases hs
  | wait t k now =>
    simp only [step] at hs
    have hl : ∀ u, u ≠ t → s.thread u = .idle ∨ ∃ m, s.thread u = .waking m := hl
    split at hs
    · have other : ∀ (th : Nat → Thread) (w : BitVec 32) (lg : List Ev),
          (∀ u, u ≠ t → th u = s.thread u) → One ⟨w, th, lg⟩ := by
        intro th w lg hth a b ha hb
        have : ∀ u, Waiting ⟨w, th, lg⟩ u → u = t := by
          intro u hu
          refine Classical.byContradiction fun hne => hu ?_
          simp only [hth u hne]
          exact hl u hne
        rw [this a ha, this b hb]
      split at hs
      · cases hs; exact other _ _ _ (fun _ _ => rfl)
      · cases hs
        refine other _ _ _ (fun u hu => ?_)
        split
        · rfl
        · exact upd_ne _ _ hu
    · cases hs
  | futexWait t =>
    simp only [step] at hs
    split at hs
    · rename_i old k hk
      cases hs
      apply sub
      intro u hu
      by_cases hut : u = t
      · subst hut
        unfold Waiting
        rw [hk]
        simp
      · unfold Waiting at hu ⊢
        simp only [upd_ne _ _ hut] at hu
        exact hu
    · cases hs
  | interrupt t =>
    simp only [step] at hs
    split at hs
    · cases hs
      apply sub
      intro u hu
      by_cases hut : u = t
      · subst hut
        exact absurd (.inl (upd_same _ _ _)) hu
      · unfold Waiting at hu ⊢
        simp only [upd_ne _ _ hut] at hu
        exact hu
    · cases hs
  | resume t =>
    simp only [step] at hs
    split at hs
    · cases hs
      apply sub
      intro u hu
      by_cases hut : u = t
      · subst hut
        exact absurd (.inl (upd_same _ _ _)) hu
      · unfold Waiting at hu ⊢
        simp only [upd_ne _ _ hut] at hu
        exact hu
    · cases hs

/-- The same for Linux, if only one thread at a time is waiting. -/
theorem C38_single_partial {s : State} (h : ReachIf (step false) Single {} s) {t : Nat} (hm : Missed s t) :
    Coming s t := by
  have : One s ∧ Inv s := by
    clear hm
    induction h with
    | init => exact ⟨fun t u h _ => absurd (.inl rfl) h, inv_init⟩
    | @step s s' l _ hok hs ih =>
      refine ⟨one_step ih.1 hok hs, inv_step ih.2 hs ?_⟩
      intro t who hl k hk u m hu hmk hw
      subst hl
      obtain ⟨v, n, e1, e2, e3⟩ := hok k hk u m hu hmk
      have : u = v := ih.1 u v (by unfold Waiting; rw [hu]; simp) (by unfold Waiting; rw [e2]; simp)
      subst this
      unfold wakeUp at hw
      rw [hu] at hw
      simp [e1] at hw
      exact hmk hw
  exact this.2.2 t hm

/-- Two threads wait for different bits, both bits are set at once, one of the threads wakes up and
gets its bit, the other one keeps sleeping. -/
def demo : List Label :=
  [.wait 0 1 false, .wait 1 2 false, .futexWait 0, .futexWait 1, .wake 2 3, .futexWake 2 (some 0), .resume 0]

/-- There's noone to wake it up. -/
theorem C38_fails_wakeup : (exec (step false) {} demo).holds (fun s =>
    s.thread 1 == .sleeping 2 && s.word == 2 && s.thread 0 == .idle && s.thread 2 == .idle &&
    s.log == [.none 1, .none 2, .wake 3, .got 1 1]) := by decide

/-- All that is possible for the kernel there, it can't wake up both. -/
example : (exec (step false) {} (demo.take 5)).holds (fun s =>
    s.thread 0 == .sleeping 1 && s.thread 1 == .sleeping 2 && s.thread 2 == .waking 3) := by decide

/-- Other kernel would have let it go. -/
example : (exec (step true) {} (demo ++ [.resume 1])).holds (fun s =>
    s.thread 1 == .idle && s.word == 0 && s.log == [.none 1, .none 2, .wake 3, .got 1 1, .got 2 2]) := by decide

/-- `Missed` and `Coming` do happen. -/
example : (exec (step true) {} (demo.take 5)).holds (fun s =>
    s.thread 1 == .sleeping 2 && s.word &&& 2 != 0 && s.thread 2 == .waking 3) := by decide

/-- One thread is waiting. -/
example : ∃ s, ReachIf (step false) Single {} s ∧ Missed s 0 := by
  have h1 : step false {} (.wait 0 1 false) = .ok ⟨0, upd (fun _ => .idle) 0 (.checked 0 1), [.none 1]⟩ := by
    simp [step]
  have h2 : step false ⟨0, upd (fun _ => .idle) 0 (.checked 0 1), [.none 1]⟩ (.futexWait 0) =
      .ok ⟨0, upd (upd (fun _ => .idle) 0 (.checked 0 1)) 0 (.sleeping 1), [.none 1]⟩ := by
    simp [step, upd]
  have h3 : step false ⟨0, upd (upd (fun _ => .idle) 0 (.checked 0 1)) 0 (.sleeping 1), [.none 1]⟩ (.wake 2 3) =
      .ok ⟨3, upd (upd (upd (fun _ => .idle) 0 (.checked 0 1)) 0 (.sleeping 1)) 2 (.waking 3),
        [.none 1, .wake 3]⟩ := by
    simp [step, upd]
  refine ⟨_, ((ReachIf.init.step (.wait 0 1 false) ?_ h1).step (.futexWait 0) trivial h2).step (.wake 2 3) trivial h3, 1, rfl, by decide⟩
  exact fun u _ => .inl rfl

/-- The bit has been set twice and returned once. -/
example : (exec (step false) {} [.wake 0 5, .wait 1 4 true, .wake 1 4]).holds (fun s =>
    raised 2 false s.log == 2 && returned 2 s.log == 1 && s.word == 5 && track 2 false s.log == some true) := by
  decide

/-- What the specification doesn't allow: the same bit being returned twice, or not being
returned. -/
example : track 2 false [.wake 4, .got 4 4, .got 4 4] = none ∧ track 2 false [.wake 4, .none 6] = none ∧
    track 2 false [.wake 4, .got 6 2] = none := by decide

/-- Invalid arguments -/
theorem C38_check (self state flagPtr : Bool) (mask : BitVec 32) :
    waitCheck self state flagPtr mask = none ↔
      self = true ∧ state = true ∧ flagPtr = true ∧ mask ≠ 0 := by
  unfold waitCheck
  cases self <;> cases state <;> cases flagPtr <;> simp

end Gb.C38
