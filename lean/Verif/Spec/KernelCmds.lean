import Verif.Spec.Kernel
import Verif.Model.Driver
/-
Specification: how the binder driver of the Linux kernel (`binder_thread_write` of drivers/android/binder.c, not part
of the repository) understands the commands other than BC_TRANSACTION and BC_REPLY. The command words are those of
src/binder.h:160-201, as numbers.
-/
set_option autoImplicit false

namespace Gb.Kernel

/-- What the kernel is asked to do. -/
inductive Cmd
  /-- BC_INCREFS, BC_ACQUIRE, BC_RELEASE, BC_DECREFS -/
  | ref (inc strong : Bool) (handle : Nat)
  /-- BC_INCREFS_DONE, BC_ACQUIRE_DONE -/
  | refDone (strong : Bool) (ptr cookie : Nat)
  /-- BC_REQUEST_DEATH_NOTIFICATION, BC_CLEAR_DEATH_NOTIFICATION -/
  | death (request : Bool) (handle cookie : Nat)
  /-- BC_DEAD_BINDER_DONE -/
  | deathDone (cookie : Nat)
  | freeBuffer (addr : Nat)
  | registerLooper
  | enterLooper
  | exitLooper
  deriving DecidableEq, Repr

/-- The command word and the structure that follows, which must be all there is. The size of a structure is a part of
the command word, which is why some of these depend on the size of a pointer. -/
def parseCmd (io : Io) (b : Bytes) : Option Cmd :=
  let p := word io
  let cmd := fieldAt b 0 4
  let sized (n : Nat) (x : Cmd) := if b.length = 4 + n then some x else none
  if cmd = 0x40046304 then sized 4 (.ref true false (fieldAt b 4 4))
  else if cmd = 0x40046305 then sized 4 (.ref true true (fieldAt b 4 4))
  else if cmd = 0x40046306 then sized 4 (.ref false true (fieldAt b 4 4))
  else if cmd = 0x40046307 then sized 4 (.ref false false (fieldAt b 4 4))
  else if cmd = 0x630b then sized 0 .registerLooper
  else if cmd = 0x630c then sized 0 .enterLooper
  else if cmd = 0x630d then sized 0 .exitLooper
  else match io with
    | .io32 =>
      if cmd = 0x40046303 then sized 4 (.freeBuffer (fieldAt b 4 p))
      else if cmd = 0x40086308 then sized 8 (.refDone false (fieldAt b 4 p) (fieldAt b (4 + p) p))
      else if cmd = 0x40086309 then sized 8 (.refDone true (fieldAt b 4 p) (fieldAt b (4 + p) p))
      else if cmd = 0x4008630e then sized 8 (.death true (fieldAt b 4 4) (fieldAt b 8 p))
      else if cmd = 0x4008630f then sized 8 (.death false (fieldAt b 4 4) (fieldAt b 8 p))
      else if cmd = 0x40046310 then sized 4 (.deathDone (fieldAt b 4 p))
      else none
    | .io64 =>
      if cmd = 0x40086303 then sized 8 (.freeBuffer (fieldAt b 4 p))
      else if cmd = 0x40106308 then sized 16 (.refDone false (fieldAt b 4 p) (fieldAt b (4 + p) p))
      else if cmd = 0x40106309 then sized 16 (.refDone true (fieldAt b 4 p) (fieldAt b (4 + p) p))
      else if cmd = 0x400c630e then sized 12 (.death true (fieldAt b 4 4) (fieldAt b 8 p))
      else if cmd = 0x400c630f then sized 12 (.death false (fieldAt b 4 4) (fieldAt b 8 p))
      else if cmd = 0x40086310 then sized 8 (.deathDone (fieldAt b 4 p))
      else none

/-- The words the kernel writes. -/
def brCode : Io → Driver.BR → Nat
  | _, .error => 0x80047200
  | _, .ok => 0x7201
  | .io32, .transaction => 0x80287202
  | .io64, .transaction => 0x80407202
  | .io32, .reply => 0x80287203
  | .io64, .reply => 0x80407203
  | _, .acquireResult => 0x80047204
  | _, .deadReply => 0x7205
  | _, .transactionComplete => 0x7206
  | .io32, .increfs => 0x80087207
  | .io64, .increfs => 0x80107207
  | .io32, .acquire => 0x80087208
  | .io64, .acquire => 0x80107208
  | .io32, .release => 0x80087209
  | .io64, .release => 0x80107209
  | .io32, .decrefs => 0x8008720a
  | .io64, .decrefs => 0x8010720a
  | .io32, .attemptAcquire => 0x800c720b
  | .io64, .attemptAcquire => 0x8018720b
  | _, .noop => 0x720c
  | _, .spawnLooper => 0x720d
  | _, .finished => 0x720e
  | .io32, .deadBinder => 0x8004720f
  | .io64, .deadBinder => 0x8008720f
  | .io32, .clearDeathNotificationDone => 0x80047210
  | .io64, .clearDeathNotificationDone => 0x80087210
  | _, .failedReply => 0x7211

end Gb.Kernel
