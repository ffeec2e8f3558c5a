import Verif.Model.Wait
/-
C39: gbinder_servicemanager_wait doesn't wait longer than it has been told to, and doesn't give up
before that.
-/
set_option autoImplicit false

namespace Gb.C39

open Wait

/-- The time spent sleeping. -/
def slept : Log → Int
  | [] => 0
  | .sleep ms :: l => ms + slept l
  | .ping _ :: l => slept l

theorem slept_append (a b : Log) : slept (a ++ b) = slept a + slept b := by
  induction a with
  | nil => simp [slept]
  | cons e a ih => cases e <;> simp only [List.cons_append, slept, ih] <;> omega

/-- The service manager is there: a ping has been successful, it's the last one. -/
def Found (log : Log) : Prop := ∃ l, log = l ++ [.ping true] ∧ Ev.ping true ∉ l

/-- It has never responded. -/
def Absent (log : Log) : Prop := Ev.ping true ∉ log

/-- Each sleep is followed by a ping. -/
def Checked : Log → Bool
  | [] => true
  | .ping _ :: l => Checked l
  | .sleep _ :: .ping _ :: l => Checked l
  | .sleep _ :: _ => false

theorem checked_append {a b : Log} (ha : Checked a = true) (hb : Checked b = true) :
    Checked (a ++ b) = true := by
  fun_induction Checked a with
  | case1 => exact hb
  | case2 x l ih => simp only [List.cons_append, Checked]; exact ih ha
  | case3 x y l ih => simp only [List.cons_append, Checked]; exact ih ha
  | case4 => cases ha

/-- The intervals between the checks. -/
def Intervals (log : Log) : Prop := ∀ ms, Ev.sleep ms ∈ log → 0 < ms ∧ ms ≤ 1000

theorem next_range {d : Int} (h : 0 < d ∧ d ≤ 1000) : 0 < next d ∧ next d ≤ 1000 := by
  unfold next waitMax waitStep
  split
  · split <;> omega
  · exact h

theorem slice_range {max d : Int} (h : 0 < d ∧ d ≤ 1000) (hm : max ≠ 0) :
    0 < (slice max d).1 ∧ (slice max d).1 ≤ 1000 ∧
    (max > 0 → 0 ≤ (slice max d).2 ∧ (slice max d).1 + (slice max d).2 = max) ∧
    (max < 0 → (slice max d).2 = max) := by
  unfold slice
  split
  · split <;> simp only [] <;> omega
  · exact ⟨h.1, h.2, fun hc => by omega, fun _ => rfl⟩

/-- What the loop does, from any point. -/
structure Outcome (max : Int) (log : Log) (r : Bool × Log) : Prop where
  found : r.1 = true → Found r.2
  absent : r.1 = false → Absent r.2 ∧ 0 ≤ max ∧ slept r.2 = slept log + max
  bound : 0 ≤ max → slept r.2 ≤ slept log + max
  intervals : Intervals log → Intervals r.2
  checked : Checked log = true → Checked r.2 = true

theorem loop_outcome {ping : Log → Bool} {fuel : Nat} {max d : Int} {log : Log} {r : Bool × Log}
    (hd : 0 < d ∧ d ≤ 1000) (ha : Absent log) (h : loop ping fuel max d log = some r) :
    Outcome max log r := by
  induction fuel generalizing max d log with
  | zero => cases h
  | succ fuel ih =>
    simp only [loop] at h
    split at h
    · rename_i hm
      cases h
      exact ⟨(by intro h; cases h), fun _ => ⟨ha, by omega, by simp only []; omega⟩, fun _ => by simp only []; omega, id, id⟩
    · rename_i hm
      obtain ⟨h1, h2, h3, h4⟩ := slice_range hd hm
      generalize slice max d = x at h h1 h2 h3 h4
      obtain ⟨y, m'⟩ := x
      simp only at h h1 h2 h3 h4
      have hiv : ∀ b, Intervals log → Intervals (log ++ [.sleep y] ++ [.ping b]) := by
        intro b hl ms hms
        simp only [List.mem_append, List.mem_cons, List.not_mem_nil, or_false, Ev.sleep.injEq,
          reduceCtorEq] at hms
        rcases hms with hms | hms
        · exact hl ms hms
        · subst hms; exact ⟨h1, h2⟩
      have hck : ∀ b, Checked log = true → Checked (log ++ [.sleep y] ++ [.ping b]) = true := by
        intro b hl
        rw [List.append_assoc]
        exact checked_append hl rfl
      have hsl : ∀ b, slept (log ++ [.sleep y] ++ [.ping b]) = slept log + y := by
        intro b
        simp [slept_append, slept]
      split at h
      · cases h
        refine ⟨fun _ => ⟨_, rfl, ?_⟩, (by intro h; cases h), ?_, hiv true, hck true⟩
        · simpa [Absent] using ha
        · intro h0
          simp only [hsl]
          have := h3 (by omega)
          omega
      · have ha' : Absent (log ++ [.sleep y] ++ [.ping false]) := by
          simpa [Absent] using ha
        have := ih (next_range ⟨h1, h2⟩) ha' h
        refine ⟨this.found, ?_, ?_, fun hl => this.intervals (hiv _ hl), fun hl => this.checked (hck _ hl)⟩
        · intro hr
          obtain ⟨h5, h6, h7⟩ := this.absent hr
          rw [hsl] at h7
          refine ⟨h5, ?_, ?_⟩
          · rcases Int.lt_trichotomy max 0 with hh | hh | hh
            · have := h4 hh; omega
            · exact absurd hh hm
            · omega
          · rcases Int.lt_trichotomy max 0 with hh | hh | hh
            · have := h4 hh; omega
            · exact absurd hh hm
            · have := h3 hh; omega
        · intro h0
          have h8 := h3 (by omega)
          have h9 := this.bound h8.1
          rw [hsl] at h9
          omega

/-- C39: nothing is done if the service manager is known to be there. -/
theorem C39_present (ping : Log → Bool) (fuel : Nat) (max : Int) :
    wait ping fuel false max = some (true, []) := rfl

theorem wait_outcome {ping : Log → Bool} {fuel : Nat} {max : Int} {r : Bool × Log}
    (h : wait ping fuel true max = some r) : Outcome max [] r := by
  unfold wait at h
  simp only [Bool.not_true, Bool.false_eq_true, if_false] at h
  split at h
  · cases h
    refine ⟨fun _ => ⟨[], rfl, by simp⟩, (by intro h; cases h), fun h => by simp [slept]; exact h, ?_, fun _ => rfl⟩
    intro _ ms hms
    simp at hms
  · have hiv : ∀ {b}, Intervals [.ping b] := by intro b ms hms; simp at hms
    split at h
    · have := loop_outcome (by unfold waitMin; omega) (by simp [Absent]) h
      exact ⟨this.found, this.absent, this.bound, fun _ => this.intervals hiv, fun _ => this.checked rfl⟩
    · rename_i hm
      cases h
      have hm : max = 0 := Classical.not_not.mp hm
      subst hm
      exact ⟨(by intro h; cases h), fun _ => ⟨by simp [Absent], by omega, rfl⟩, fun _ => by simp [slept],
        fun _ => hiv, fun _ => rfl⟩

/-- C39: TRUE means that the service manager has responded, and that's how the wait has ended. -/
theorem C39_found {ping : Log → Bool} {fuel : Nat} {max : Int} {log : Log}
    (h : wait ping fuel true max = some (true, log)) : Found log :=
  (wait_outcome h).found rfl

/-- C39: FALSE means that it has never responded, and that the time is up, exactly; so that can't
happen if the timeout is negative. -/
theorem C39_timeout {ping : Log → Bool} {fuel : Nat} {max : Int} {log : Log}
    (h : wait ping fuel true max = some (false, log)) :
    Absent log ∧ 0 ≤ max ∧ slept log = max := by
  have := (wait_outcome h).absent rfl
  simpa [slept] using this

/-- C39: no matter what, it doesn't sleep longer than it has been told to, checks that the service
manager is there first and after each sleep, which is no longer than a second. -/
theorem C39_bound {ping : Log → Bool} {fuel : Nat} {max : Int} {r : Bool × Log}
    (h : wait ping fuel true max = some r) :
    (0 ≤ max → slept r.2 ≤ max) ∧ Intervals r.2 ∧ Checked r.2 = true ∧ ∃ b l, r.2 = .ping b :: l := by
  have ho := wait_outcome h
  refine ⟨fun h0 => by simpa [slept] using ho.bound h0, ho.intervals (by simp [Intervals]), ho.checked rfl, ?_⟩
  have hp : ∀ {fuel : Nat} {max d : Int} {l : Log} {r : Bool × Log} {b : Bool},
      loop ping fuel max d (.ping b :: l) = some r → ∃ b l, r.2 = .ping b :: l := by
    intro fuel
    induction fuel with
    | zero => intro _ _ _ _ _ h; cases h
    | succ n ih =>
      intro max d l r b h
      simp only [loop, List.cons_append] at h
      split at h
      · cases h; exact ⟨_, _, rfl⟩
      · split at h
        · cases h; exact ⟨_, _, rfl⟩
        · exact ih h
  unfold wait at h
  simp only [Bool.not_true, Bool.false_eq_true, if_false] at h
  split at h
  · cases h; exact ⟨_, _, rfl⟩
  · split at h
    · exact hp h
    · cases h; exact ⟨_, _, rfl⟩

theorem loop_more {ping : Log → Bool} {fuel : Nat} {max d : Int} {log : Log} {r : Bool × Log}
    (h : loop ping fuel max d log = some r) (k : Nat) : loop ping (fuel + k) max d log = some r := by
  induction fuel generalizing max d log with
  | zero => cases h
  | succ n ih =>
    rw [show n + 1 + k = (n + k) + 1 by omega]
    simp only [loop] at h ⊢
    split at h
    · rename_i hm; rw [if_pos hm]; exact h
    · rename_i hm
      rw [if_neg hm]
      split at h
      · rename_i hp; rw [if_pos hp]; exact h
      · rename_i hp
        rw [if_neg hp]
        exact ih h

theorem loop_ends (ping : Log → Bool) : ∀ (fuel : Nat) (max d : Int) (log : Log), (0 < d ∧ d ≤ 1000) →
    0 ≤ max → max < fuel → ∃ r, loop ping fuel max d log = some r
  | 0, max, _, _, _, h0, h => by omega
  | fuel + 1, max, d, log, hd, h0, h => by
    simp only [loop]
    split
    · exact ⟨_, rfl⟩
    · rename_i hm
      obtain ⟨h1, h2, h3, _⟩ := slice_range hd hm
      have := h3 (by omega)
      split
      · exact ⟨_, rfl⟩
      · exact loop_ends ping fuel _ _ _ (next_range ⟨h1, h2⟩) this.1 (by omega)

/-- C39: if the timeout isn't negative, it always returns. -/
theorem C39_returns (ping : Log → Bool) (dead : Bool) (max : Int) (h : 0 ≤ max) :
    ∃ fuel r, wait ping fuel dead max = some r := by
  refine ⟨max.toNat + 1, ?_⟩
  unfold wait
  split
  · exact ⟨_, rfl⟩
  · split
    · exact ⟨_, rfl⟩
    · split
      · exact loop_ends ping _ _ _ _ (by unfold waitMin; omega) h (by omega)
      · exact ⟨_, rfl⟩

/-- The service manager responds once this much time has passed. -/
def Appears (ping : Log → Bool) (t : Int) : Prop := ∀ log, t ≤ slept log → ping log = true

theorem loop_prompt {ping : Log → Bool} {t : Int} (hp : Appears ping t) :
    ∀ (n : Nat) (max d : Int) (log : Log), (0 < d ∧ d ≤ 1000) →
    (max < 0 ∨ t ≤ slept log + max) → slept log < t → t - slept log ≤ n →
    ∃ l, loop ping n max d log = some (true, l) ∧ slept l < t + 1000
  | 0, max, d, log, _, _, h1, h2 => by omega
  | n + 1, max, d, log, hd, hm, hs, hn => by
    simp only [loop]
    have hm0 : max ≠ 0 := by omega
    rw [if_neg hm0]
    obtain ⟨h1, h2, h3, h4⟩ := slice_range hd hm0
    generalize slice max d = x at h1 h2 h3 h4
    obtain ⟨y, m'⟩ := x
    simp only at h1 h2 h3 h4 ⊢
    have hsl : ∀ b, slept (log ++ [.sleep y] ++ [.ping b]) = slept log + y := by
      intro b
      simp [slept_append, slept]
    have hsl' : slept (log ++ [.sleep y]) = slept log + y := by simp [slept_append, slept]
    split
    · exact ⟨_, rfl, by rw [hsl]; omega⟩
    · rename_i hping
      have hlt : slept log + y < t := by
        apply Int.not_le.mp
        intro hc
        exact hping (hp _ (by rw [hsl']; exact hc))
      refine loop_prompt hp n m' _ _ (next_range ⟨h1, h2⟩) ?_ (by rw [hsl]; exact hlt) (by rw [hsl]; omega)
      rw [hsl]
      rcases Int.lt_trichotomy max 0 with hh | hh | hh
      · left; have := h4 hh; omega
      · exact absurd hh hm0
      · right; have := h3 hh; omega

/-- C39: if the service manager appears before the time is up (at any point, if the timeout is
negative), the function returns TRUE, at most a second later. -/
theorem C39_prompt {ping : Log → Bool} {t max : Int} (ht : 0 ≤ t) (hp : Appears ping t)
    (hm : max < 0 ∨ t ≤ max) : ∃ fuel log, wait ping fuel true max = some (true, log) ∧ slept log < t + 1000 := by
  refine ⟨t.toNat + 1, ?_⟩
  unfold wait
  simp only [Bool.not_true, Bool.false_eq_true, if_false]
  split
  · exact ⟨_, rfl, by simp [slept]; omega⟩
  · rename_i hping
    have ht' : 0 < t := by
      apply Int.not_le.mp
      intro hc
      exact hping (hp _ (by simpa [slept] using hc))
    rw [if_pos (by omega)]
    exact loop_prompt hp _ _ _ _ (by unfold waitMin; omega) (by simpa [slept] using hm)
      (by simpa [slept] using ht') (by simp [slept]; omega)

/-- C39: and if it never does, and the timeout is negative, the wait never ends. -/
theorem C39_forever {ping : Log → Bool} (hp : ∀ log, ping log = false) {max : Int} (hm : max < 0) (fuel : Nat) :
    wait ping fuel true max = none := by
  cases h : wait ping fuel true max with
  | none => rfl
  | some r =>
    have ho := wait_outcome h
    obtain ⟨b, log⟩ := r
    cases b with
    | false => have := (ho.absent rfl).2.1; omega
    | true =>
      exfalso
      have hl : ∀ {fuel : Nat} {max d : Int} {l : Log} {log : Log},
          loop ping fuel max d l ≠ some (true, log) := by
        intro fuel
        induction fuel with
        | zero => intro _ _ _ _ h; cases h
        | succ n ih =>
          intro max d l log h
          simp only [loop, hp, Bool.false_eq_true, if_false] at h
          split at h
          · cases h
          · exact ih h
      unfold wait at h
      simp only [Bool.not_true, Bool.false_eq_true, if_false, hp] at h
      split at h
      · exact hl h
      · cases h

/-- It takes 100, 200, ... milliseconds until the service manager appears, or until the time is up. -/
example : wait (fun log => decide (600 ≤ slept log)) 10 true (-1) =
    some (true, [.ping false, .sleep 100, .ping false, .sleep 200, .ping false, .sleep 300, .ping true]) ∧
    wait (fun log => decide (600 ≤ slept log)) 10 true 350 =
    some (false, [.ping false, .sleep 100, .ping false, .sleep 200, .ping false, .sleep 50, .ping false]) ∧
    Appears (fun log => decide (600 ≤ slept log)) 600 := by
  refine ⟨by decide, by decide, ?_⟩
  intro log h
  exact decide_eq_true h

/-- The intervals grow up to a second. -/
example : (wait (fun _ => false) 20 true 7777).map (fun r => r.2.filter fun e => e != .ping false) =
    some [.sleep 100, .sleep 200, .sleep 300, .sleep 400, .sleep 500, .sleep 600, .sleep 700, .sleep 800,
      .sleep 900, .sleep 1000, .sleep 1000, .sleep 1000, .sleep 277] := by decide

end Gb.C39
