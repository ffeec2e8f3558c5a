import Verif.Basic.Lts
/-
src/gbinder_ipc.c, src/gbinder_driver.c: what the thread of a looper does between transactions, and how it's stopped.

Transactions are handled in one step here, see Verif/Model/LooperTx.lean and Verif/Model/Loopers.lean for what happens
then. That gbinder_driver_read reads again if there's an incomplete command in the buffer is in Verif/Model/Driver.lean.
That the descriptor may be closed between the moment when it has been loaded from `self->fd` and the call of the kernel is in
Verif/Model/DeviceCalls.lean.
-/
set_option autoImplicit false

namespace Gb.LooperPoll

/-- POLLIN of poll.h -/
def pollin : BitVec 32 := 1

/-- gbinder_ipc.c:769-856: where the thread is. `pipe` is pipefd.revents being non-zero, `res` is what
gbinder_driver_poll has returned. -/
inductive Phase
  /-- there's no such thread -/
  | none
  /-- gbinder_ipc.c:786-791: it has entered the looper -/
  | started
  /-- gbinder_driver.c:989 -/
  | polling
  /-- gbinder_ipc.c:793, the condition of the loop is about to be evaluated -/
  | check (res : BitVec 32) (pipe : Bool)
  /-- gbinder_driver.c:1208, waiting for the kernel -/
  | reading (pipe : Bool)
  /-- gbinder_driver.c:1211, something has been read -/
  | busy (pipe : Bool)
  /-- gbinder_ipc.c:808, `ok` is ret >= 0 (or nothing was to be read) -/
  | handled (ok pipe : Bool)
  /-- gbinder_ipc.c:821, after the loop -/
  | leaving
  /-- gbinder_ipc.c:855 -/
  | ended
  deriving DecidableEq, Repr

/-- gbinder_ipc.c:156-171, gbinder_driver.c:79-88 -/
structure State where
  phase : Nat → Phase := fun _ => .none
  /-- looper->exit -/
  exit : Nat → Bool := fun _ => false
  /-- there's something in looper->pipefd -/
  pipe : Nat → Bool := fun _ => false
  /-- looper->joined -/
  joined : Nat → Bool := fun _ => false
  /-- the device is open (self->fd isn't -1) -/
  isOpen : Bool := true
  /-- the number of incoming transactions which no thread has got yet. Any looper gets them. -/
  work : Nat := 0

/-- gbinder_ipc.c:769-1005, each step has its own lines below. -/
inductive Label
  /-- a thread is created and enters the looper -/
  | create (x : Nat)
  /-- a transaction arrives -/
  | arrive
  /-- the first call of poll -/
  | poll (x : Nat)
  /-- poll returns -/
  | polled (x : Nat) (res : BitVec 32) (pipe : Bool)
  /-- the condition of the loop -/
  | test (x : Nat)
  /-- the kernel gives a transaction to the thread -/
  | take (x : Nat)
  /-- the read returns because the device has been closed -/
  | flushed (x : Nat) (ok : Bool)
  /-- the read fails -/
  | fails (x : Nat)
  /-- whatever has been read has been handled -/
  | done (x : Nat)
  /-- the end of the loop -/
  | again (x : Nat)
  /-- the thread ends -/
  | finish (x : Nat)
  /-- the looper is told to exit -/
  | stop (x : Nat)
  /-- and woken up -/
  | wake (x : Nat)
  /-- the thread hasn't ended in time -/
  | timeout (x : Nat)
  /-- pthread_join returns -/
  | join (x : Nat)
  deriving DecidableEq, Repr

/-- The thread goes on. -/
def State.go (s : State) (x : Nat) (p : Phase) : State := { s with phase := upd s.phase x p }

/-- poll(2), gbinder_driver.c:980-1000: it returns -1 if it has been interrupted by a signal, in that case
pipefd->revents is zero; otherwise at least one of the descriptors is ready. The kernel reports POLLIN if there's a transaction
to be read. A descriptor which is negative is ignored; but the one which is closed while it's being polled reports POLLIN, since
closing it wakes up the threads. -/
def State.ready (s : State) (x : Nat) (res : BitVec 32) (pipe : Bool) : Bool :=
  (res == BitVec.allOnes 32 && !pipe) ||
    (pipe == s.pipe x && (res != 0 || pipe) && (!s.isOpen || (decide (res &&& pollin ≠ 0) == decide (0 < s.work))))

/-- gbinder_ipc.c:769-1005 -/
def step (s : State) : Label → Out State
  -- gbinder_ipc.c:777-787
  | .create x => if s.phase x = .none then .ok (s.go x .started) else .no
  | .arrive => if s.isOpen then .ok { s with work := s.work + 1 } else .no
  -- gbinder_ipc.c:792
  | .poll x => if s.phase x = .started then .ok (s.go x .polling) else .no
  -- gbinder_driver.c:989-1000
  | .polled x res pipe => if s.phase x = .polling ∧ s.ready x res pipe = true then .ok (s.go x (.check res pipe)) else .no
  -- gbinder_ipc.c:793-803: the read fails at once if the descriptor is -1 (EBADF)
  | .test x =>
    match s.phase x with
    | .check res pipe =>
      .ok (s.go x (
        if s.exit x then .leaving
        else if res &&& pollin ≠ 0 then if s.isOpen then .reading pipe else .handled false pipe
        else if res = 0 then .handled true pipe
        else .leaving))
    | _ => .no
  -- gbinder_driver.c:1208
  | .take x =>
    match s.phase x with
    | .reading pipe => if s.isOpen ∧ 0 < s.work then .ok { s.go x (.busy pipe) with work := s.work - 1 } else .no
    | _ => .no
  -- gbinder_driver.c:1208: there's nothing (but BR_NOOP) in the buffer, or an error
  | .flushed x ok =>
    match s.phase x with
    | .reading pipe => if s.isOpen then .no else .ok (s.go x (.handled ok pipe))
    | _ => .no
  -- gbinder_driver.c:1208-1209
  | .fails x =>
    match s.phase x with
    | .reading pipe => .ok (s.go x (.handled false pipe))
    | _ => .no
  -- gbinder_driver.c:1211-1222
  | .done x =>
    match s.phase x with
    | .busy pipe => .ok (s.go x (.handled true pipe))
    | _ => .no
  -- gbinder_ipc.c:808-818
  | .again x =>
    match s.phase x with
    | .handled ok pipe => .ok (s.go x (if ok = false ∨ pipe = true ∨ s.exit x = true then .leaving else .polling))
    | _ => .no
  -- gbinder_ipc.c:821-855
  | .finish x => if s.phase x = .leaving then .ok (s.go x .ended) else .no
  -- gbinder_ipc.c:939. There has to be a thread.
  | .stop x => if s.phase x ≠ .none then .ok { s with exit := upd s.exit x true } else .no
  -- gbinder_ipc.c:940-945, unless it's the looper's own thread
  | .wake x => if s.exit x then .ok { s with pipe := upd s.pipe x true } else .no
  -- gbinder_ipc.c:988-999: 500 ms after the looper has been woken up
  | .timeout x =>
    if s.pipe x = true ∧ s.joined x = false ∧ s.phase x ≠ .ended then .ok { s with isOpen := false } else .no
  -- gbinder_ipc.c:985, 1001-1003
  | .join x =>
    if s.pipe x = true ∧ s.joined x = false ∧ s.phase x = .ended then .ok { s with joined := upd s.joined x true } else .no

end Gb.LooperPoll
