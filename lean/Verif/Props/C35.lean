import Verif.Lemmas.Fmq
/-
C35: gbinder_fmq_read and gbinder_fmq_write only touch bytes within the data region and succeed
only when enough items (or space) are available, whatever the values of the pointers are.

As stated this is not true:
- the number of bytes overflows in gbinder_fmq_begin_read (`C35_fails_overflow`, `C35_fails_copy`)
- the size of the queue doesn't fit in 32 bits (`C35_fails_large`)
- the read pointer of a synchronized queue is changed by another process while it's being used
  (`C35_fails_peer`)
-/
set_option autoImplicit false

namespace Gb.C35
open Gb.Fmq

/-- Copying stays inside of the ring even if the other pointer keeps changing. -/
theorem pos_lt {c : Cfg} (h : c.Ok) {p n T j : Nat} (hn : n * c.item ≤ c.size) (hj : j < n * c.item) :
    pos c (p % c.size) ((if c.size - p % c.size < T then c.size - p % c.size else T) / c.item) n j <
      c.size := by
  have hlt := Nat.mod_lt p h.size
  have hm : (if c.size - p % c.size < T then c.size - p % c.size else T) ≤ c.size - p % c.size := by
    split <;> omega
  revert hm
  generalize (if c.size - p % c.size < T then c.size - p % c.size else T) = m
  intro hm
  have h1 : m / c.item * c.item ≤ m := Nat.div_mul_le_self _ _
  unfold pos
  split
  · split <;> omega
  · have := Nat.mul_le_mul_right c.item (show n ≤ m / c.item by omega)
    omega

/-- Items can be read only if they are there, and only from the ring: the bytes which are read are
those between the read and the write pointers. The write pointer may be different by the time the
copying starts. -/
theorem C35_read_partial {c : Cfg} (hc : c.Ok) {r w w' n base : Nat} (h64 : n * c.item < 2 ^ 64)
    (h : beginRead c r w n = .ptr base) :
    n * c.item ≤ sub64 w r ∧ sub64 w r ≤ c.size ∧
    (∀ j, j < n * c.item → pos c base (availReadCont c r w' / c.item) n j < c.size) ∧
    (n * c.item ≤ sub64 w' r → ∀ j, j < n * c.item →
      pos c base (availReadCont c r w' / c.item) n j = (r + j) % c.size) := by
  simp only [beginRead, Nat.mod_eq_of_lt h64] at h
  split at h
  · cases h
  · rename_i h1
    split at h
    · cases h
    · split at h
      · cases h
      · cases h
        refine ⟨by omega, by omega, ?_, ?_⟩
        · intro j hj
          exact pos_lt hc (by omega) hj
        · intro hT j hj
          exact pos_eq hc (Nat.dvd_of_mod_eq_zero (by omega)) (by omega) (.inr hT) hj

/-- Items can be written to a synchronized queue only if there's room for them, and only to the
ring. The read pointer may be different by the time the copying starts. -/
theorem C35_write_partial {c : Cfg} (hc : c.Ok) {r r' w n base : Nat}
    (h : beginWrite c r w n = some base) :
    n * c.item ≤ c.size ∧
    (c.sync = true → sub64 w r ≤ c.size → sub64 w r + n * c.item ≤ c.size) ∧
    (∀ j, j < n * c.item → pos c base (availWriteCont c r' w / c.item) n j < c.size) ∧
    (n * c.item ≤ availWrite c r' w → ∀ j, j < n * c.item →
      pos c base (availWriteCont c r' w / c.item) n j = (w + j) % c.size) := by
  unfold beginWrite at h
  split at h
  · cases h
  · rename_i h1
    split at h
    · cases h
    · cases h
      have hn : n * c.item ≤ c.size := (Nat.le_div_iff_mul_le hc.item).1 (by omega)
      refine ⟨hn, ?_, ?_, ?_⟩
      · intro hy hle
        have h2 : n ≤ availWrite c r w / c.item := by
          rcases Nat.lt_or_ge (availWrite c r w / c.item) n with h | h
          · exact absurd (.inl ⟨hy, h⟩) h1
          · exact h
        have h3 := (Nat.le_div_iff_mul_le hc.item).1 h2
        have h4 : availWrite c r w = c.size - sub64 w r := by
          have := hc.small
          simp only [availWrite, availRead, hc.size32]
          exact sub64_eq hle (by omega)
        omega
      · intro j hj
        unfold availWriteCont
        rw [hc.size32]
        exact pos_lt hc hn hj
      · intro hT j hj
        unfold availWriteCont
        rw [hc.size32]
        exact pos_eq hc (Nat.dvd_of_mod_eq_zero (by omega)) hn (.inr hT) hj

example : (⟨6, 2, true⟩ : Cfg).Ok := ⟨by decide, by decide, by decide, by decide⟩
/-- The data wraps around. -/
example : beginRead ⟨6, 2, true⟩ 4 10 3 = .ptr 4 := by decide
example : (List.range 6).map (pos ⟨6, 2, true⟩ 4 (availReadCont ⟨6, 2, true⟩ 4 10 / 2) 3) =
    [4, 5, 0, 1, 2, 3] := by decide
example : beginWrite ⟨6, 2, true⟩ 8 10 2 = some 4 := by decide
/-- The pointers wrap around. -/
example : beginRead ⟨8, 2, true⟩ (2 ^ 64 - 2) 2 2 = .ptr 6 := by decide

/-- An empty queue, from which lots of items can be read. -/
theorem C35_fails_overflow : (⟨8, 2, true⟩ : Cfg).Ok ∧ availRead 0 0 = 0 ∧
    beginRead ⟨8, 2, true⟩ 0 0 (2 ^ 63) = .ptr 0 :=
  ⟨⟨by decide, by decide, by decide, by decide⟩, by decide, by decide⟩

/-- One item in the queue, gbinder_fmq_read goes past the end of the ring. -/
theorem C35_fails_copy : (⟨9, 3, true⟩ : Cfg).Ok ∧
    beginRead ⟨9, 3, true⟩ 0 3 6148914691236517206 = .ptr 0 ∧
    12 < copied ⟨9, 3, true⟩ (availReadCont ⟨9, 3, true⟩ 0 3 / 3) 6148914691236517206 ∧
    9 ≤ pos ⟨9, 3, true⟩ 0 (availReadCont ⟨9, 3, true⟩ 0 3 / 3) 6148914691236517206 12 :=
  ⟨⟨by decide, by decide, by decide, by decide⟩, by decide, by decide, by decide⟩

/-- The peer moves the read pointer back between gbinder_fmq_begin_read and
gbinder_fmq_available_to_read_contiguous. -/
theorem C35_fails_peer : (⟨4, 1, true⟩ : Cfg).Ok ∧ beginRead ⟨4, 1, true⟩ 3 7 4 = .ptr 3 ∧
    4 ≤ pos ⟨4, 1, true⟩ 3 (availReadCont ⟨4, 1, true⟩ 0 7 / 1) 4 1 :=
  ⟨⟨by decide, by decide, by decide, by decide⟩, by decide, by decide⟩

/-- A queue with room for 2^32 + 3 items. -/
def large : Cfg := ⟨2 ^ 32 + 3, 1, true⟩

theorem write_one {s : State} (h1 : s.rp = s.wp) (h2 : s.wp < 2 ^ 32 + 2) (h3 : s.writer = none)
    (h4 : s.reader = none) :
    ∃ s', exec (step large) s [.wBegin [0] 1, .wPlan, .wCopy, .wEnd] = .ok s' ∧
      s'.wp = s.wp + 1 ∧ s'.rp = s.rp ∧ s'.writer = none ∧ s'.reader = none := by
  have ha : availWrite large s.rp s.wp = 3 := by
    have : sub64 s.wp s.wp = 0 := by unfold sub64; omega
    simp only [availWrite, availRead, h1, this]
    decide
  have hb : beginWrite large s.rp s.wp 1 = some s.wp := by
    unfold beginWrite
    rw [ha, if_neg (by decide), if_neg (by simp [large]; omega)]
    simp [large]; omega
  have hc : 1 ≤ availWriteCont large s.rp s.wp / large.item := by
    have h32 : large.size32 = 3 := by decide
    simp only [availWriteCont, ha, h32, show large.item = 1 from rfl]
    split <;> omega
  have hp : pos large s.wp (availWriteCont large s.rp s.wp / large.item) 1 0 = s.wp := by
    unfold pos; rw [if_neg (by omega)]; rfl
  have hd : large.size ≠ 0 := by decide
  have hd2 : large.size32 ≠ 0 := by decide
  have hl : s.wp < large.size := by simp [large]; omega
  have he : endWrite large s.wp 1 = s.wp + 1 := by
    simp [endWrite, large]; omega
  refine ⟨{ s with ring := upd s.ring s.wp 0, wp := s.wp + 1, sent := s.sent ++ [0] }, ?_, rfl, rfl, h3, h4⟩
  rw [show large.item = 1 from rfl, Nat.div_one] at hp
  simp [exec, step, h3, hb, hd, hd2, hp, hl, he, show large.item = 1 from rfl]

theorem read_one {s : State} (h1 : s.rp + 1 = s.wp) (h2 : s.rp < 2 ^ 32 + 2) (h3 : s.writer = none)
    (h4 : s.reader = none) :
    ∃ s', exec (step large) s [.rBegin 1, .rPlan, .rCopy, .rEnd] = .ok s' ∧
      s'.wp = s.wp ∧ s'.rp = s.rp + 1 ∧ s'.writer = none ∧ s'.reader = none := by
  have ha : sub64 s.wp s.rp = 1 := by unfold sub64; omega
  have hb : beginRead large s.rp s.wp 1 = .ptr s.rp := by
    unfold beginRead
    rw [ha, if_neg (by simp [large]; omega), if_neg (by decide), if_neg (by decide)]
    simp [large]; omega
  have hc : 1 ≤ availReadCont large s.rp s.wp / large.item := by
    have hsz : large.size = 2 ^ 32 + 3 := rfl
    have := Nat.mod_lt s.rp (show 0 < large.size by decide)
    simp only [availReadCont, ha, show large.item = 1 from rfl]
    split <;> omega
  have hp : pos large s.rp (availReadCont large s.rp s.wp / large.item) 1 0 = s.rp := by
    unfold pos; rw [if_neg (by omega)]; rfl
  have hd : large.size ≠ 0 := by decide
  have hl : s.rp < large.size := by simp [large]; omega
  have he : endRead large s.rp s.wp 1 = s.rp + 1 := by
    simp [endRead, ha, large]; omega
  refine ⟨{ s with rp := s.rp + 1, reads := s.reads ++ [(s.rp, [s.ring s.rp])] }, ?_, rfl, rfl, h3, h4⟩
  rw [show large.item = 1 from rfl, Nat.div_one] at hp
  simp [exec, step, h4, hb, hd, hp, hl, he, show large.item = 1 from rfl]

theorem reach_both {n : Nat} (hn : n ≤ 2 ^ 32 + 2) :
    ∃ s, Reach (step large) {} s ∧ s.rp = n ∧ s.wp = n ∧ s.writer = none ∧ s.reader = none := by
  induction n with
  | zero => exact ⟨{}, Reach.init, rfl, rfl, rfl, rfl⟩
  | succ n ih =>
    obtain ⟨s, ⟨ls, hls⟩, h1, h2, h3, h4⟩ := ih (by omega)
    obtain ⟨s1, e1, w1, r1, a1, b1⟩ := write_one (by omega) (by omega) h3 h4
    obtain ⟨s2, e2, w2, r2, a2, b2⟩ := read_one (s := s1) (by omega) (by omega) a1 b1
    refine ⟨s2, ⟨ls ++ ([.wBegin [0] 1, .wPlan, .wCopy, .wEnd] ++ [.rBegin 1, .rPlan, .rCopy, .rEnd]), ?_⟩,
      by omega, by omega, a2, b2⟩
    rw [exec_append, hls]
    simp only
    rw [exec_append, e1]
    exact e2

/-- A queue which is larger than 4G: after some number of items have been written and read one by
one, writing two items at once goes past the end of the ring. -/
theorem C35_fails_large : config 1 (2 ^ 32 + 3) true none = some large ∧
    ∃ ls, exec (step large) {} ls = .ub := by
  refine ⟨by decide, ?_⟩
  obtain ⟨s, ⟨ls, hls⟩, h1, h2, h3, h4⟩ := reach_both (n := 2 ^ 32 + 2) (Nat.le_refl _)
  refine ⟨ls ++ [.wBegin [0, 0] 2, .wPlan, .wCopy, .wCopy], ?_⟩
  rw [exec_append, hls]
  have hb : beginWrite large (2 ^ 32 + 2) (2 ^ 32 + 2) 2 = some (2 ^ 32 + 2) := by decide
  have hc : availWriteCont large (2 ^ 32 + 2) (2 ^ 32 + 2) / large.item = 3 := by decide
  have hd : ¬ (large.item = 0 ∨ large.size = 0) := by decide
  have hd2 : ¬ (large.item = 0 ∨ large.size32 = 0) := by decide
  have hp : pos large (2 ^ 32 + 2) 3 2 0 = 2 ^ 32 + 2 := by decide
  have hp1 : pos large (2 ^ 32 + 2) 3 2 1 = 2 ^ 32 + 3 := by decide
  have hl : large.size = 2 ^ 32 + 3 := rfl
  have hi : large.item = 1 := rfl
  simp only [exec, step, h1, h2, h3, hi, List.length_cons, List.length_nil, hb]
  simp only [hc, hp, hp1, hl, hd2, hi]
  simp
  simp [hi] at hc
  simp [hc]
  rw [if_neg (by simpa [hi] using hd2)]
  simp
  simp at hp hp1
  simp [hp, hp1]

end Gb.C35
