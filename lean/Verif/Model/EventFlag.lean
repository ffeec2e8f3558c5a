import Verif.Basic.Lts
/-
src/gbinder_fmq.c: event flags.

A step is an atomic operation on the flag word or a system call. The kernel puts the thread to sleep
only if the word has the expected value (atomically), and FUTEX_WAKE_BITSET only wakes up those
whose bit mask has something in common with that of the call.
-/
set_option autoImplicit false

namespace Gb.EventFlag

/-- What a thread is doing (gbinder_fmq.c:596-686). -/
inductive Thread
  | idle
  /-- gbinder_fmq_wait, about to go to sleep: the old value and the bit mask. -/
  | checked (old mask : BitVec 32)
  | sleeping (mask : BitVec 32)
  | woken (mask : BitVec 32)
  /-- gbinder_fmq_wake, about to wake up the sleeping threads. -/
  | waking (mask : BitVec 32)
  deriving DecidableEq, Repr

/-- What is observed by the callers: gbinder_fmq_wake is called, gbinder_fmq_wait has returned
some of the bits, or gbinder_fmq_wait has checked the bits and hasn't found any
(gbinder_fmq.c:596-686). -/
inductive Ev
  | wake (mask : BitVec 32)
  | got (mask bits : BitVec 32)
  | none (mask : BitVec 32)
  deriving DecidableEq, Repr

/-- *event_flag_ptr (gbinder_fmq.c:54-61), and where the threads are in gbinder_fmq.c:596-686. -/
structure State where
  word : BitVec 32 := 0
  thread : Nat → Thread := fun _ => .idle
  log : List Ev := []

/-- gbinder_fmq.c:596-686: what happens next, see `step`. -/
inductive Label
  | wake (t : Nat) (mask : BitVec 32)
  /-- `who` is the thread which is woken up by the kernel, if it only wakes up one. -/
  | futexWake (t : Nat) (who : Option Nat)
  | wait (t : Nat) (mask : BitVec 32) (now : Bool)
  | futexWait (t : Nat)
  /-- The timeout expires or a signal arrives. -/
  | interrupt (t : Nat)
  | resume (t : Nat)
  deriving DecidableEq, Repr

/-- gbinder_fmq.c:596-653 `gbinder_fmq_wait_timeout`: the checks. -/
def waitCheck (self state flagPtr : Bool) (mask : BitVec 32) : Option Int :=
  if state = false ∨ self = false then some (-22)
  else if flagPtr = false then some (-38)
  else if mask = 0 then some (-22)
  else none

/-- The kernel: everyone or someone (`who`) who's interested in any of these bits wakes up
(FUTEX_WAKE_BITSET called at gbinder_fmq.c:655-687). -/
def wakeUp (all : Bool) (thread : Nat → Thread) (mask : BitVec 32) (who : Option Nat) : Nat → Thread :=
  fun u =>
    match thread u with
    | .sleeping m => if m &&& mask ≠ 0 ∧ (all = true ∨ who = some u) then .woken m else .sleeping m
    | x => x

/-- gbinder_fmq.c:596-653 `gbinder_fmq_wait_timeout`, 655-687 `gbinder_fmq_wake`. `all` is what the
number of threads passed to FUTEX_WAKE_BITSET means to the kernel. It's G_MAXUINT32, which is -1 as
a signed integer, and Linux stops when it has woken up at least that many threads, i.e. the first
one. It would have to be G_MAXINT to wake them all up. -/
def step (all : Bool) (s : State) : Label → Out State
  -- __atomic_fetch_or, line 670
  | .wake t mask =>
    if s.thread t = .idle ∧ mask ≠ 0 then
      .ok { s with
        word := s.word ||| mask
        thread := if ~~~s.word &&& mask ≠ 0 then upd s.thread t (.waking mask) else s.thread
        log := s.log ++ [.wake mask] }
    else .no
  -- FUTEX_WAKE_BITSET, line 674
  | .futexWake t who =>
    match s.thread t with
    | .waking mask =>
      .ok { s with thread := upd (wakeUp all s.thread mask who) t .idle }
    | _ => .no
  -- __atomic_fetch_and, line 610
  | .wait t mask now =>
    if s.thread t = .idle ∧ mask ≠ 0 then
      let bits := s.word &&& mask
      if bits ≠ 0 then
        .ok { s with word := s.word &&& ~~~mask, log := s.log ++ [.got mask bits] }
      else
        .ok { s with
          word := s.word &&& ~~~mask
          thread := if now then s.thread else upd s.thread t (.checked s.word mask)
          log := s.log ++ [.none mask] }
    else .no
  -- FUTEX_WAIT_BITSET, lines 636, 639. EAGAIN if the value has changed.
  | .futexWait t =>
    match s.thread t with
    | .checked old mask =>
      .ok { s with thread := upd s.thread t (if s.word = old then .sleeping mask else .idle) }
    | _ => .no
  -- ETIMEDOUT or EINTR
  | .interrupt t =>
    match s.thread t with
    | .sleeping _ => .ok { s with thread := upd s.thread t .idle }
    | _ => .no
  -- __atomic_fetch_and, line 646
  | .resume t =>
    match s.thread t with
    | .woken mask =>
      let bits := s.word &&& mask
      .ok { s with
        word := s.word &&& ~~~mask
        thread := upd s.thread t .idle
        log := s.log ++ [if bits ≠ 0 then .got mask bits else .none mask] }
    | _ => .no

end Gb.EventFlag
