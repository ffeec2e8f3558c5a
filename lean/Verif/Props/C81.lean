import Verif.Lemmas.FmqPeer
import Verif.Props.C34
/-
C81: a synchronized fast message queue shared with a process which follows the rules is a FIFO too, whatever that
process does otherwise. The rules are in Spec/FmqPeer, those of Android's libfmq are stricter.

As in C34, the size of the queue fits in 32 bits (`Cfg.Ok`) and no more than 2^64 bytes go through it.
-/
set_option autoImplicit false

namespace Gb.C81
open Gb.Fmq Gb.FmqPeer
open Gb.C34 (got)

/-! ### Reading what the other end writes -/

/-- What gbinder_fmq_read returns is what the other end has added to the queue, in the same order. -/
theorem C81_received {c : Cfg} (hc : c.Ok) (hy : c.sync = true) {s : State}
    (h : Reach (stepIn c) {} s) (hb : s.sent.length < 2 ^ 64) : got s <+: s.sent := by
  rw [got, (in_reach hc hy h hb).1.got]
  exact List.take_prefix _ _

/-- A read is accepted exactly when the other end has added enough, and nothing is skipped. -/
theorem C81_read {c : Cfg} (hc : c.Ok) (hy : c.sync = true) {s : State}
    (h : Reach (stepIn c) {} s) (hb : s.sent.length < 2 ^ 64) (hr : s.reader = none)
    {n : Nat} (hn : 0 < n) (h64 : n * c.item < 2 ^ 64) :
    ∃ s', stepIn c s (.own (.rBegin n)) = .ok s' ∧ got s' = got s ∧ s'.rp = s.rp ∧
      (s'.reader ≠ none ↔ (got s).length + n * c.item ≤ s.sent.length) := by
  obtain ⟨s', h1, _, h3, h4, h5⟩ := C34.read_of hc (in_reach hc hy h hb).1 hb hr hn h64
  exact ⟨s', h1, h3, h4, h5⟩

/-- A read which has been accepted is finished no matter what the other end does meanwhile: it can always be
continued. -/
theorem C81_read_progress {c : Cfg} (hc : c.Ok) (hy : c.sync = true) {s : State}
    (h : Reach (stepIn c) {} s) (hb : s.sent.length < 2 ^ 64) (hr : s.reader ≠ none) :
    ∃ l s', l ∈ [Label.rPlan, .rCopy, .rEnd] ∧ stepIn c s (.own l) = .ok s' := by
  obtain ⟨l, s', hl, hs⟩ := (C34.progress_of hc (in_reach hc hy h hb).1).2 hr
  refine ⟨l, s', hl, ?_⟩
  have : reads l = true := by
    simp only [List.mem_cons, List.not_mem_nil, or_false] at hl
    rcases hl with rfl | rfl | rfl <;> rfl
  simp only [stepIn, this, if_true]
  exact hs

/-- Reading follows the rules: the ring and the write counter aren't touched, the read counter never goes beyond the
write counter or back. -/
theorem C81_reader {c : Cfg} (hc : c.Ok) (hy : c.sync = true) {s s' : State}
    (h : Reach (stepIn c) {} s) (hb : s.sent.length < 2 ^ 64) {l : Label}
    (hs : stepIn c s (.own l) = .ok s') :
    s'.ring = s.ring ∧ s'.wp = s.wp ∧ s.rp ≤ s'.rp ∧ s'.rp ≤ s'.wp ∧ c.item ∣ s'.rp := by
  have hi := in_reach hc hy h hb
  have hs0 := hs
  simp only [stepIn] at hs
  split at hs
  case isFalse => cases hs
  rename_i hl
  have hsame : s'.ring = s.ring ∧ s'.wp = s.wp ∧ s'.sent = s.sent := by
    cases l <;> first | cases hl | skip
    all_goals simp only [step] at hs; (repeat' split at hs) <;> cases hs <;> exact ⟨rfl, rfl, rfl⟩
  have hi' := (in_step hc hy hi.1 hi.2 hs0 (by rw [hsame.2.2]; exact hb)).1
  refine ⟨hsame.1, hsame.2.1, ?_, hi'.le, hi'.rdvd⟩
  have hg : (got s).length ≤ (got s').length := by
    cases l <;> first | cases hl | skip
    all_goals
      simp only [step] at hs
      (repeat' split at hs) <;> cases hs <;> simp [got]
  rw [C34.len_of hi.1, C34.len_of hi'] at hg
  exact hg

/-- No access is out of bounds. -/
theorem C81_read_safe {c : Cfg} (hc : c.Ok) (hy : c.sync = true) {s : State}
    (h : Reach (stepIn c) {} s) (hb : s.sent.length < 2 ^ 64) (m : Move) : stepIn c s m ≠ .ub := by
  cases m with
  | own l =>
    simp only [stepIn]
    split
    · exact C34.safe_of hc (in_reach hc hy h hb).1 l
    · simp
  | put p b => simp only [stepIn]; split <;> simp
  | publish n => simp only [stepIn]; split <;> simp
  | take n => simp [stepIn]

/-! ### Writing what the other end reads -/

/-- What the other end takes from the queue is what was passed to successful gbinder_fmq_write calls, in the same
order. -/
theorem C81_sent {c : Cfg} (hc : c.Ok) (hy : c.sync = true) {s : State}
    (h : Reach (stepOut c) {} s) (hb : s.sent.length < 2 ^ 64) : got s <+: s.sent := by
  rw [got, (out_reach hc hy h hb).1.got]
  exact List.take_prefix _ _

/-- The other end can take everything there is, and that's what comes next. -/
theorem C81_taken {c : Cfg} (hc : c.Ok) (hy : c.sync = true) {s : State}
    (h : Reach (stepOut c) {} s) (hb : s.sent.length < 2 ^ 64) {n : Nat}
    (hn : (got s).length + n * c.item ≤ s.sent.length) :
    ∃ s', stepOut c s (.take n) = .ok s' ∧ got s' = s.sent.take ((got s).length + n * c.item) := by
  have hi := (out_reach hc hy h hb).1
  have hl := C34.len_of hi
  have hw := hi.wp
  have hs : stepOut c s (.take n) =
      .ok { s with rp := (s.rp + n * c.item) % 2 ^ 64,
                   reads := s.reads ++ [(s.rp, window c s s.rp (n * c.item))] } := by
    simp only [stepOut]
    rw [if_pos (by omega)]
  refine ⟨_, hs, ?_⟩
  have hi' := (out_step hc hy hi (out_reach hc hy h hb).2 hs hb).1
  have := hi'.got
  simp only [got] at this ⊢
  rw [this, Nat.mod_eq_of_lt (by omega)]
  congr 1
  simp only [got] at hl
  omega

/-- A write is accepted exactly when the other end has taken enough. -/
theorem C81_write {c : Cfg} (hc : c.Ok) (hy : c.sync = true) {s : State}
    (h : Reach (stepOut c) {} s) (hb : s.sent.length < 2 ^ 64) (hw : s.writer = none) {data : Bytes}
    {n : Nat} (hn : 0 < n) (hd : data.length = n * c.item) :
    ∃ s', stepOut c s (.own (.wBegin data n)) = .ok s' ∧
      (s'.writer ≠ none ↔ s.sent.length + data.length ≤ (got s).length + c.size) := by
  obtain ⟨s', h1, _, h3⟩ := C34.write_of hc hy (out_reach hc hy h hb).1 hb hw hn hd
  exact ⟨s', h1, h3⟩

/-- A write which has been accepted can always be continued. -/
theorem C81_write_progress {c : Cfg} (hc : c.Ok) (hy : c.sync = true) {s : State}
    (h : Reach (stepOut c) {} s) (hb : s.sent.length < 2 ^ 64) (hw : s.writer ≠ none) :
    ∃ l s', l ∈ [Label.wPlan, .wCopy, .wEnd] ∧ stepOut c s (.own l) = .ok s' := by
  obtain ⟨l, s', hl, hs⟩ := (C34.progress_of hc (out_reach hc hy h hb).1).1 hw
  refine ⟨l, s', hl, ?_⟩
  have : reads l = false := by
    simp only [List.mem_cons, List.not_mem_nil, or_false] at hl
    rcases hl with rfl | rfl | rfl <;> rfl
  simp only [stepOut, this]
  exact hs

/-- Writing follows the rules: the other end may look at what is unread at any time, it doesn't change; the read
counter isn't touched, and the write counter neither goes back nor too far. -/
theorem C81_writer {c : Cfg} (hc : c.Ok) (hy : c.sync = true) {s s' : State}
    (h : Reach (stepOut c) {} s) {l : Label}
    (hs : stepOut c s (.own l) = .ok s') (hb : s'.sent.length < 2 ^ 64) :
    (∀ k, s.rp ≤ k → k < s.wp → s'.ring (k % c.size) = s.ring (k % c.size)) ∧
      s'.rp = s.rp ∧ s.wp ≤ s'.wp ∧ s'.wp ≤ s'.rp + c.size ∧ c.item ∣ s'.wp := by
  have hm := out_mono hs
  have hb0 : s.sent.length < 2 ^ 64 := by have := hm.length_le; omega
  have hi := out_reach hc hy h hb0
  have hi' := (out_step hc hy hi.1 hi.2 hs hb).1
  simp only [stepOut] at hs
  split at hs
  case isTrue => cases hs
  rename_i hl
  have hr := reader_of_writes (by simpa using hl) hs
  have hle : s.wp ≤ s'.wp := by rw [hi.1.wp, hi'.wp]; exact hm.length_le
  refine ⟨?_, hr.2.1, hle, hi'.full, hi'.wdvd⟩
  intro k h1 h2
  have e1 := hi.1.unread k h1 h2
  have e2 := hi'.unread k (by rw [hr.2.1]; exact h1) (by omega)
  obtain ⟨t, ht⟩ := hm
  rw [← ht, List.getElem?_append_left (by rw [← hi.1.wp]; exact h2), e1] at e2
  exact (Option.some.inj e2).symm

/-- No access is out of bounds. -/
theorem C81_write_safe {c : Cfg} (hc : c.Ok) (hy : c.sync = true) {s : State}
    (h : Reach (stepOut c) {} s) (hb : s.sent.length < 2 ^ 64) (m : Move) : stepOut c s m ≠ .ub := by
  cases m with
  | own l =>
    simp only [stepOut]
    split
    · simp
    · exact C34.safe_of hc (out_reach hc hy h hb).1 l
  | put p b => simp [stepOut]
  | publish n => simp [stepOut]
  | take n => simp only [stepOut]; split <;> simp

/-! ### Examples -/

/-- The other end stores two messages out of order, changes its mind about one of the bytes, and adds them one by
one while the first one is being read; then it wraps around. -/
example : (exec (stepIn C34.demo) {} ([.put 2 3, .put 3 9, .put 0 1, .put 1 2, .publish 1, .own (.rBegin 1), .put 3 4,
      .own .rPlan, .own .rCopy, .publish 1, .own .rCopy, .own .rEnd, .put 0 7, .put 5 6, .put 4 5, .put 1 8,
      .publish 2] ++ (C34.read 2 3).map .own)).holds
    (fun s => got s == [1, 2, 3, 4, 5, 6, 7, 8] && s.sent == got s && s.rp == 8 && s.wp == 8) := by
  decide

/-- It doesn't follow the rules if it stores something where there's unread data, or adds too much. -/
example : (match exec (stepIn C34.demo) {} [.put 0 1, .put 1 2, .publish 1, .put 1 3] with | .no => true | _ => false) = true ∧
    (match exec (stepIn C34.demo) {} [.publish 4] with | .no => true | _ => false) = true := by
  decide

/-- The other end takes messages while they are being written. -/
example : (exec (stepOut C34.demo) {} ((C34.write 2 [1, 2, 3, 4]).map .own ++
      [.take 1, .own (.wBegin [5, 6, 7, 8] 2), .own .wPlan, .own .wCopy, .take 1, .own .wCopy, .own .wCopy, .own .wCopy,
        .own .wEnd, .take 2])).holds
    (fun s => got s == [1, 2, 3, 4, 5, 6, 7, 8] && s.sent == got s && s.rp == 8 && s.wp == 8) := by
  decide

end Gb.C81
