import Verif.Lemmas.Fmq
/-
C34: a synchronized fast message queue with one reader and one writer is a FIFO, under every
interleaving of the two sides.

The size of the queue must fit in 32 bits: gbinder_fmq_available_to_write_bytes has it in a guint32,
`C34_fails_size` is what happens otherwise. Also the number of bytes which have gone through the
queue doesn't exceed the range of its 64 bit counters.
-/
set_option autoImplicit false

namespace Gb.C34
open Gb.Fmq

/-- What has been read by successful gbinder_fmq_read calls. -/
def got (s : State) : Bytes := s.reads.flatMap (·.2)

/-- Nothing is lost, duplicated or reordered: what has been read is the beginning of what has been
written. -/
theorem C34_fifo_partial {c : Cfg} (hc : c.Ok) (hy : c.sync = true) {s : State}
    (h : Reach (step c) {} s) (hb : s.sent.length < 2 ^ 64) : got s <+: s.sent := by
  rw [got, (inv_reach hc hy h hb).got]
  exact List.take_prefix _ _

theorem len_of {c : Cfg} {s : State}
    (hi : Inv c s) : (got s).length = s.rp := by
  rw [got, hi.got, List.length_take]
  have := hi.le
  have := hi.wp
  omega

theorem got_length {c : Cfg} (hc : c.Ok) (hy : c.sync = true) {s : State}
    (h : Reach (step c) {} s) (hb : s.sent.length < 2 ^ 64) : (got s).length = s.rp :=
  len_of (inv_reach hc hy h hb)

/-- Everything that hasn't been read yet is in the ring. There's never more unread data than there
is room in the ring. -/
theorem C34_unread_partial {c : Cfg} (hc : c.Ok) (hy : c.sync = true) {s : State}
    (h : Reach (step c) {} s) (hb : s.sent.length < 2 ^ 64) :
    s.sent.length ≤ (got s).length + c.size ∧
      ∀ k, (got s).length ≤ k → k < s.sent.length → s.sent[k]? = some (s.ring (k % c.size)) := by
  have hi := inv_reach hc hy h hb
  rw [got_length hc hy h hb, ← hi.wp]
  exact ⟨hi.full, hi.unread⟩

theorem write_of {c : Cfg} (hc : c.Ok) (hy : c.sync = true) {s : State}
    (hi : Inv c s) (hb : s.sent.length < 2 ^ 64) (hw : s.writer = none) {data : Bytes}
    {n : Nat} (hn : 0 < n) (hd : data.length = n * c.item) :
    ∃ s', step c s (.wBegin data n) = .ok s' ∧ s'.sent = s.sent ∧
      (s'.writer ≠ none ↔ s.sent.length + data.length ≤ (got s).length + c.size) := by
  have hle := hi.le
  have hwp := hi.wp
  have hf := hi.full
  have h1 := hc.item
  have h2 := hc.size
  have hs64 : sub64 s.wp s.rp = s.wp - s.rp := sub64_eq hi.le (by omega)
  have ha64 : availWrite c s.rp s.wp = c.size - (s.wp - s.rp) := by
    have := hc.small
    simp only [availWrite, availRead, hs64, hc.size32]
    exact sub64_eq (by omega) (by omega)
  rw [len_of hi, ← hi.wp]
  simp only [step, hw, hn, hd, and_self, if_true]
  rw [if_neg (by omega)]
  have hm : s.wp % c.item = 0 := Nat.mod_eq_zero_of_dvd hi.wdvd
  by_cases hroom : s.wp + n * c.item ≤ s.rp + c.size
  · have h3 : n ≤ availWrite c s.rp s.wp / c.item := (Nat.le_div_iff_mul_le h1).2 (by omega)
    have h4 : n ≤ c.size / c.item := (Nat.le_div_iff_mul_le h1).2 (by omega)
    have h5 : beginWrite c s.rp s.wp n = some (s.wp % c.size) := by
      unfold beginWrite
      rw [if_neg (by omega), if_neg (by omega)]
    rw [h5]
    exact ⟨_, rfl, rfl, by simp [hroom]⟩
  · have h3 : availWrite c s.rp s.wp / c.item < n := (Nat.div_lt_iff_lt_mul h1).2 (by omega)
    have h5 : beginWrite c s.rp s.wp n = none := by
      unfold beginWrite
      rw [if_pos (.inl ⟨hy, h3⟩)]
    rw [h5]
    exact ⟨_, rfl, rfl, by simp [hroom, hw]⟩

/-- A write is accepted exactly when there's enough room for all of it. -/
theorem C34_write_partial {c : Cfg} (hc : c.Ok) (hy : c.sync = true) {s : State}
    (h : Reach (step c) {} s) (hb : s.sent.length < 2 ^ 64) (hw : s.writer = none) {data : Bytes}
    {n : Nat} (hn : 0 < n) (hd : data.length = n * c.item) :
    ∃ s', step c s (.wBegin data n) = .ok s' ∧ s'.sent = s.sent ∧
      (s'.writer ≠ none ↔ s.sent.length + data.length ≤ (got s).length + c.size) :=
  write_of hc hy (inv_reach hc hy h hb) hb hw hn hd

theorem read_of {c : Cfg} (hc : c.Ok) {s : State}
    (hi : Inv c s) (hb : s.sent.length < 2 ^ 64) (hr : s.reader = none)
    {n : Nat} (hn : 0 < n) (h64 : n * c.item < 2 ^ 64) :
    ∃ s', step c s (.rBegin n) = .ok s' ∧ s'.sent = s.sent ∧ got s' = got s ∧ s'.rp = s.rp ∧
      (s'.reader ≠ none ↔ (got s).length + n * c.item ≤ s.sent.length) := by
  have hle := hi.le
  have hwp := hi.wp
  have hf := hi.full
  have h1 := hc.item
  have h2 := hc.size
  have hs64 : sub64 s.wp s.rp = s.wp - s.rp := sub64_eq hi.le (by omega)
  rw [len_of hi, ← hi.wp]
  simp only [step, hr, hn, h64, and_self, if_true]
  rw [if_neg (by omega)]
  have hm : s.wp % c.item = 0 := Nat.mod_eq_zero_of_dvd hi.wdvd
  have hm2 : s.rp % c.item = 0 := Nat.mod_eq_zero_of_dvd hi.rdvd
  by_cases hroom : s.rp + n * c.item ≤ s.wp
  · have h5 : beginRead c s.rp s.wp n = .ptr (s.rp % c.size) := by
      unfold beginRead
      rw [hs64, Nat.mod_eq_of_lt h64, if_neg (by omega), if_neg (by omega), if_neg (by omega)]
    rw [h5]
    exact ⟨_, rfl, rfl, rfl, rfl, by simp [hroom]⟩
  · have h5 : beginRead c s.rp s.wp n = .null := by
      unfold beginRead
      rw [hs64, Nat.mod_eq_of_lt h64, if_neg (by omega), if_neg (by omega), if_pos (by omega)]
    rw [h5]
    exact ⟨_, rfl, rfl, rfl, rfl, by simp [hroom, hr]⟩

/-- A read is accepted exactly when there's as much unread data, and nothing is skipped. -/
theorem C34_read_partial {c : Cfg} (hc : c.Ok) (hy : c.sync = true) {s : State}
    (h : Reach (step c) {} s) (hb : s.sent.length < 2 ^ 64) (hr : s.reader = none)
    {n : Nat} (hn : 0 < n) (h64 : n * c.item < 2 ^ 64) :
    ∃ s', step c s (.rBegin n) = .ok s' ∧ s'.sent = s.sent ∧ got s' = got s ∧ s'.rp = s.rp ∧
      (s'.reader ≠ none ↔ (got s).length + n * c.item ≤ s.sent.length) :=
  read_of hc (inv_reach hc hy h hb) hb hr hn h64

theorem safe_of {c : Cfg} (hc : c.Ok) {s : State}
    (hi : Inv c s) (l : Label) : step c s l ≠ .ub := by
  have h1 := hc.item
  have h2 := hc.size
  have h3 := hc.size32
  cases l with
  | wCopy =>
    simp only [step]
    split
    · rename_i o ho
      have hwo := hi.writer o ho
      split
      · rename_i cont b hcont hb'
        have hil : o.i < o.data.length := by
          rcases Nat.lt_or_ge o.i o.data.length with h | h
          · exact h
          · rw [List.getElem?_eq_none h] at hb'; cases hb'
        rw [hwo.plan cont hcont o.i hil, if_pos (Nat.mod_lt _ h2)]
        exact fun h => by cases h
      · exact fun h => by cases h
    · exact fun h => by cases h
  | rCopy =>
    simp only [step]
    split
    · rename_i o ho
      have hro := hi.reader o ho
      split
      · rename_i cont hcont
        split
        · rename_i hl
          rw [hro.plan cont hcont _ hl, if_pos (Nat.mod_lt _ h2)]
          exact fun h => by cases h
        · exact fun h => by cases h
      · exact fun h => by cases h
    · exact fun h => by cases h
  | _ =>
    simp only [step]
    repeat' split
    all_goals first | (intro h; cases h; done) | omega

/-- No access is out of bounds and nothing is divided by zero. -/
theorem C34_safe_partial {c : Cfg} (hc : c.Ok) (hy : c.sync = true) {s : State}
    (h : Reach (step c) {} s) (hb : s.sent.length < 2 ^ 64) (l : Label) : step c s l ≠ .ub :=
  safe_of hc (inv_reach hc hy h hb) l

theorem progress_of {c : Cfg} (hc : c.Ok) {s : State}
    (hi : Inv c s) :
    (s.writer ≠ none → ∃ l s', l ∈ [Label.wPlan, .wCopy, .wEnd] ∧ step c s l = .ok s') ∧
    (s.reader ≠ none → ∃ l s', l ∈ [Label.rPlan, .rCopy, .rEnd] ∧ step c s l = .ok s') := by
  have h1 := hc.item
  have h2 := hc.size
  have h3 := hc.size32
  refine ⟨fun hw => ?_, fun hr => ?_⟩
  · obtain ⟨o, ho⟩ := Option.ne_none_iff_exists'.1 hw
    have hwo := hi.writer o ho
    match hcont : o.cont with
    | none =>
      refine ⟨.wPlan, ?_⟩
      simp only [step, ho, hcont, if_true]
      rw [if_neg (by omega)]
      exact ⟨_, by simp, rfl⟩
    | some cont =>
      by_cases hl : o.i < o.data.length
      · refine ⟨.wCopy, ?_⟩
        simp only [step, ho, hcont, List.getElem?_eq_getElem hl]
        rw [hwo.plan cont hcont o.i hl, if_pos (Nat.mod_lt _ h2)]
        exact ⟨_, by simp, rfl⟩
      · refine ⟨.wEnd, ?_⟩
        have := hwo.i
        simp only [step, ho, hcont]
        rw [if_pos ⟨by simp, by omega⟩]
        exact ⟨_, by simp, rfl⟩
  · obtain ⟨o, ho⟩ := Option.ne_none_iff_exists'.1 hr
    have hro := hi.reader o ho
    match hcont : o.cont with
    | none =>
      refine ⟨.rPlan, ?_⟩
      simp only [step, ho, hcont, if_true]
      rw [if_neg (by omega)]
      exact ⟨_, by simp, rfl⟩
    | some cont =>
      by_cases hl : o.buf.length < o.items * c.item
      · refine ⟨.rCopy, ?_⟩
        simp only [step, ho, hcont, if_pos hl]
        rw [hro.plan cont hcont _ hl, if_pos (Nat.mod_lt _ h2)]
        exact ⟨_, by simp, rfl⟩
      · refine ⟨.rEnd, ?_⟩
        have := hro.len
        simp only [step, ho, hcont]
        rw [if_pos ⟨by simp, by omega⟩]
        exact ⟨_, by simp, rfl⟩

/-- A read or a write which has been accepted can always be continued, until it's done. -/
theorem C34_progress_partial {c : Cfg} (hc : c.Ok) (hy : c.sync = true) {s : State}
    (h : Reach (step c) {} s) (hb : s.sent.length < 2 ^ 64) :
    (s.writer ≠ none → ∃ l s', l ∈ [Label.wPlan, .wCopy, .wEnd] ∧ step c s l = .ok s') ∧
    (s.reader ≠ none → ∃ l s', l ∈ [Label.rPlan, .rCopy, .rEnd] ∧ step c s l = .ok s') :=
  progress_of hc (inv_reach hc hy h hb)

/-- The reader and the writer never access the same byte of the ring at the same time. -/
theorem C34_race_partial {c : Cfg} (hc : c.Ok) (hy : c.sync = true) {s : State}
    (h : Reach (step c) {} s) (hb : s.sent.length < 2 ^ 64) {w : WriteOp} {r : ReadOp}
    (hw : s.writer = some w) (hr : s.reader = some r) {a b : Nat} (ha : w.cont = some a)
    (hb : r.cont = some b) {i j : Nat} (hi : i < w.data.length) (hj : j < r.items * c.item) :
    pos c w.base a w.items i ≠ pos c r.base b r.items j := by
  have hI := inv_reach hc hy h (by assumption)
  have hwo := hI.writer w hw
  have hro := hI.reader r hr
  rw [hwo.plan a ha i hi, hro.plan b hb j hj]
  have h1 := hwo.room
  have h2 := hro.room
  exact (mod_ne (by omega) (by omega)).symm

/-- A queue of three items of two bytes. -/
def demo : Cfg := ⟨6, 2, true⟩

example : config 2 3 true none = some demo := by decide
example : demo.Ok := ⟨by decide, by decide, by decide, by decide⟩

def write (n : Nat) (data : Bytes) : List Label :=
  [.wBegin data n, .wPlan] ++ List.replicate data.length .wCopy ++ [.wEnd]

def read (item n : Nat) : List Label :=
  [.rBegin n, .rPlan] ++ List.replicate (n * item) .rCopy ++ [.rEnd]

/-- Both sides wrap around, and are interleaved. -/
example : (exec (step demo) {} (write 2 [1, 2, 3, 4] ++ read 2 1 ++
    [.wBegin [5, 6, 7, 8] 2, .rBegin 1, .wPlan, .wCopy, .rPlan, .wCopy, .rCopy, .wCopy, .rCopy, .rEnd, .wCopy,
      .wEnd] ++ read 2 2)).holds
      (fun s => got s == [1, 2, 3, 4, 5, 6, 7, 8] && s.sent == got s && s.rp == 8 && s.wp == 8) := by
  decide

/-- There's no room. -/
example : (exec (step demo) {} (write 2 [1, 2, 3, 4] ++ [.wBegin [5, 6, 7, 8] 2])).holds
    (fun s => s.writer == none) := by decide

/-- A queue of 4G: the size becomes zero, nothing can be written although the queue is empty. -/
theorem C34_fails_size : config 1 (2 ^ 32) true none = some ⟨2 ^ 32, 1, true⟩ ∧
    ∀ data n, ¬ ∃ s', step ⟨2 ^ 32, 1, true⟩ {} (.wBegin data n) = .ok s' ∧ s'.writer ≠ none := by
  refine ⟨by decide, ?_⟩
  rintro data n ⟨s', hs, hw⟩
  have h0 : availWrite ⟨2 ^ 32, 1, true⟩ 0 0 = 0 := by decide
  simp only [step, beginWrite, h0] at hs
  split at hs
  · rename_i h1
    rw [if_neg (by omega), if_pos (.inl ⟨trivial, by omega⟩)] at hs
    cases hs
    exact hw rfl
  · cases hs

end Gb.C34
