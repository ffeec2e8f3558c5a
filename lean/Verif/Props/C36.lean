import Verif.Lemmas.FmqUnsync
/-
C36: after a successful gbinder_fmq_write on an unsynchronized queue the last written items in ring
order are exactly the items passed; a reader that was overrun skips to the write position instead
of returning torn data.

As stated this is not true (`C36_fails_*`): if something has been read from the same queue, the data
may be split at a wrong place, and an overrun which happens in the middle of gbinder_fmq_read
doesn't make it fail. `C36_*_partial` assume `Alone` (Spec/Fmq.lean).
-/
set_option autoImplicit false

namespace Gb.C36
open Gb.Fmq

/-- The ring contains the last items that have been written, as many as there's room for. -/
theorem C36_write_partial {c : Cfg} (hc : c.Ok) (hy : c.sync = false) {s : State}
    (h : ReachIf (step c) (Alone c) {} s) (hb : s.sent.length < 2 ^ 64) (hw : s.writer = none) :
    s.wp = s.sent.length ∧
    ∀ k, k < s.sent.length → s.sent.length ≤ k + c.size → s.sent[k]? = some (s.ring (k % c.size)) := by
  have hi := uinv_reach hc hy h hb
  refine ⟨hi.wp, ?_⟩
  rw [← hi.wp]
  intro k h1 h2
  exact hi.kept k h1 (by simp only [State.cur, hw]; omega)

/-- Each successful write appends its data. -/
theorem C36_sent {c : Cfg} {s s' : State} {o : WriteOp} (ho : s.writer = some o)
    (h : step c s .wEnd = .ok s') : s'.sent = s.sent ++ o.data ∧ s'.writer = none := by
  simp only [step, ho] at h
  split at h
  · cases h; exact ⟨rfl, rfl⟩
  · cases h

/-- What is read is a piece of what has been written. -/
theorem C36_read_partial {c : Cfg} (hc : c.Ok) (hy : c.sync = false) {s : State}
    (h : ReachIf (step c) (Alone c) {} s) (hb : s.sent.length < 2 ^ 64) {p : Nat} {b : Bytes}
    (hr : (p, b) ∈ s.reads) : b = (s.sent.drop p).take b.length := by
  have hi := uinv_reach hc hy h hb
  have h1 := hi.got p b hr
  have h2 := hi.gotLe p b hr
  have h3 := hi.wp
  apply List.ext_getElem?
  intro j
  by_cases hj : j < b.length
  · rw [h1 j hj, List.getElem?_take_of_lt hj, List.getElem?_drop]
  · rw [List.getElem?_eq_none (by omega), List.getElem?_eq_none]
    simp; omega

/-- A reader which has been overrun doesn't read anything, and continues with what is written
next. -/
theorem C36_skip {c : Cfg} (hc : c.Ok) {s : State} (hr : s.reader = none) {n : Nat} (hn : 0 < n)
    (h64 : n * c.item < 2 ^ 64) (hw : s.wp < 2 ^ 64) (hle : s.rp ≤ s.wp) (hrd : c.item ∣ s.rp)
    (hwd : c.item ∣ s.wp) (ho : s.rp + c.size < s.wp) :
    step c s (.rBegin n) = .ok { s with rp := s.wp } := by
  have h1 := hc.item
  have h2 := hc.size
  have hm : s.wp % c.item = 0 := Nat.mod_eq_zero_of_dvd hwd
  have hm2 : s.rp % c.item = 0 := Nat.mod_eq_zero_of_dvd hrd
  have h5 : beginRead c s.rp s.wp n = .skip := by
    unfold beginRead
    rw [sub64_eq hle hw, if_neg (by omega), if_pos (by omega)]
  simp only [step, hr, hn, h64, and_self, if_true, h5]
  rw [if_neg (by omega)]

/-- That's always the case for the reader which has been overrun. -/
theorem C36_overrun_partial {c : Cfg} (hc : c.Ok) (hy : c.sync = false) {s : State}
    (h : ReachIf (step c) (Alone c) {} s) (hb : s.sent.length < 2 ^ 64) (hr : s.reader = none)
    {n : Nat} (hn : 0 < n) (h64 : n * c.item < 2 ^ 64) (ho : s.rp + c.size < s.sent.length) :
    ∃ s', step c s (.rBegin n) = .ok s' ∧ s'.reader = none ∧ s'.reads = s.reads ∧
      s'.rp = s.sent.length ∧ s'.sent = s.sent := by
  have hi := uinv_reach hc hy h hb
  have hwp := hi.wp
  exact ⟨_, C36_skip hc hr hn h64 (by omega) hi.le hi.rdvd hi.wdvd (by omega), hr, rfl, hwp, rfl⟩

/-- Writes are never refused, as long as the data fits in the ring. -/
theorem C36_accepted_partial {c : Cfg} (hc : c.Ok) (hy : c.sync = false) {s : State}
    (h : ReachIf (step c) (Alone c) {} s) (hb : s.sent.length < 2 ^ 64) (hw : s.writer = none)
    {data : Bytes} {n : Nat} (hn : 0 < n) (hd : data.length = n * c.item) :
    ∃ s', step c s (.wBegin data n) = .ok s' ∧ (s'.writer ≠ none ↔ data.length ≤ c.size) := by
  have hi := uinv_reach hc hy h hb
  have h1 := hc.item
  have h2 := hc.size
  have hm : s.wp % c.item = 0 := Nat.mod_eq_zero_of_dvd hi.wdvd
  simp only [step, hw, hn, hd, and_self, if_true]
  rw [if_neg (by omega)]
  by_cases hs : n * c.item ≤ c.size
  · have h4 : n ≤ c.size / c.item := (Nat.le_div_iff_mul_le h1).2 hs
    have h5 : beginWrite c s.rp s.wp n = some (s.wp % c.size) := by
      unfold beginWrite
      rw [if_neg (by simp [hy]; omega), if_neg (by omega)]
    rw [h5]
    exact ⟨_, rfl, by simp [hs]⟩
  · have h4 : c.size / c.item < n := (Nat.div_lt_iff_lt_mul h1).2 (by omega)
    have h5 : beginWrite c s.rp s.wp n = none := by
      unfold beginWrite
      rw [if_pos (.inr h4)]
    rw [h5]
    exact ⟨_, rfl, by simp [hs, hw]⟩

/-- A queue of four bytes. -/
def demo : Cfg := ⟨4, 1, false⟩

example : config 1 4 false none = some demo := by decide
theorem demo_ok : demo.Ok := ⟨by decide, by decide, by decide, by decide⟩

def write (n : Nat) (data : Bytes) : List Label :=
  [.wBegin data n, .wPlan] ++ List.replicate data.length .wCopy ++ [.wEnd]

def read (item n : Nat) : List Label :=
  [.rBegin n, .rPlan] ++ List.replicate (n * item) .rCopy ++ [.rEnd]

def ring4 (s : State) : Bytes := [s.ring 0, s.ring 1, s.ring 2, s.ring 3]

/-- The writer doesn't wait for the reader. -/
example : (exec (step demo) {} (write 3 [1, 2, 3] ++ write 3 [4, 5, 6])).holds
    (fun s => ring4 s == [5, 6, 3, 4] && s.wp == 6 && s.sent == [1, 2, 3, 4, 5, 6]) := by decide

/-- The first read fails, the second one gets what has been written since then. -/
example : (exec (step demo) {} (write 3 [1, 2, 3] ++ write 3 [4, 5, 6] ++ [.rBegin 1] ++
    write 2 [7, 8] ++ read 1 2)).holds (fun s => s.reads == [(6, [7, 8])] && s.rp == 8) := by decide

/-- An execution in which nothing is read. -/
theorem reachIf_exec {ls : List Label} : ∀ {s s' : State}, ReachIf (step demo) (Alone demo) {} s →
    exec (step demo) s ls = .ok s' →
    (∀ l, l ∈ ls → l = .wPlan ∨ l = .wCopy ∨ l = .wEnd ∨ ∃ d n, l = .wBegin d n) →
    s.rp = 0 → s.reader = none → ReachIf (step demo) (Alone demo) {} s' := by
  induction ls with
  | nil => intro s s' h he _ _ _; cases he; exact h
  | cons l ls ih =>
    intro s s' h he hl hr hrd
    simp only [exec] at he
    split at he
    · rename_i s1 h1
      have hal : Alone demo s l := by
        rcases hl l (List.mem_cons_self ..) with h | h | h | ⟨d, n, h⟩ <;> subst h
        · exact fun o ho => .inl hr
        · trivial
        · trivial
        · exact hrd
      refine ih (h.step l hal h1) he
        (fun l h => hl l (List.mem_cons_of_mem _ h)) ?_ ?_
      all_goals
        rcases hl l (List.mem_cons_self ..) with h | h | h | ⟨d, n, h⟩ <;> subst h <;>
        simp only [step] at h1 <;> (repeat' split at h1) <;> first | cases h1 | skip
      all_goals first | exact hr | exact hrd
    · cases he
    · cases he

/-- The hypotheses hold after such writes. -/
example : ∃ s, ReachIf (step demo) (Alone demo) {} s ∧ s.sent = [1, 2, 3, 4, 5, 6] ∧
    s.writer = none ∧ s.reader = none ∧ s.rp + demo.size < s.sent.length := by
  have h : (exec (step demo) {} (write 3 [1, 2, 3] ++ write 3 [4, 5, 6])).holds
    (fun s => s.sent == [1, 2, 3, 4, 5, 6] && s.writer == none && s.reader == none && s.rp == 0) := by decide
  generalize he : exec (step demo) {} (write 3 [1, 2, 3] ++ write 3 [4, 5, 6]) = o at h
  match o, h with
  | .ok s, h =>
    simp only [Out.holds, Bool.and_eq_true, beq_iff_eq] at h
    refine ⟨s, reachIf_exec .init he ?_ rfl rfl, h.1.1.1, h.1.1.2, h.1.2, ?_⟩
    · intro l hl
      simp [write] at hl
      rcases hl with h | h | h | h | h | h | h | h <;> simp [h]
    · rw [h.1.1.1, h.2]; decide

/-- Four bytes are written and one is read, then three more bytes are written. The first one of those
is overwritten by the second one. -/
theorem C36_fails_write : (exec (step demo) {} (write 4 [1, 2, 3, 4] ++ read 1 1 ++ write 3 [5, 6, 7])).holds
    (fun s => s.sent == [1, 2, 3, 4, 5, 6, 7] && s.wp == 7 && ring4 s == [6, 7, 3, 4]) := by decide

/-- The reader is overrun after gbinder_fmq_begin_read. It returns TRUE and something that has never
been written to the queue in this order. -/
theorem C36_fails_torn : (exec (step demo) {} (write 4 [1, 2, 3, 4] ++ [.rBegin 4, .rPlan, .rCopy, .rCopy] ++
    write 4 [5, 6, 7, 8] ++ [.rCopy, .rCopy, .rEnd])).holds
    (fun s => s.reads == [(0, [1, 2, 7, 8])] && s.sent == [1, 2, 3, 4, 5, 6, 7, 8]) := by decide

end Gb.C36
