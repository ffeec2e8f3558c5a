import Verif.Model.Nested
/-
src/gbinder_driver.c: nested calls with read buffers. Each gbinder_driver_transact (and each gbinder_driver_read) has a read buffer of
its own. The kernel may store several commands there, and those which haven't been handled stay there while the handler of a transaction
is running (which makes calls with buffers of their own).
-/
set_option autoImplicit false

namespace Gb.NestedBuf
open Nested (Frame Work Tx Ev react)

/-- Model/Nested, where `todo` is what the kernel has for a thread, and the read buffers of each thread, the innermost first
(GBinderDriverContext, gbinder_driver.c:95-106, 1203, 1236). The last one is that of gbinder_driver_read (it's just empty if the thread
isn't one of those which handle transactions). -/
structure State where
  base : Nested.State := {}
  bufs : Nat → List (List Work) := fun _ => [[]]

/-- What may happen next (see `step`, gbinder_driver.c:517-597, 754-854, 1197-1313). -/
inductive Label
  | base (l : Nested.Label)
  | fetch (t n : Nat)
  | take (t : Nat)
  deriving DecidableEq, Repr

/-- gbinder_driver_transact has a read buffer of its own (gbinder_driver.c:1235-1251). -/
def begin_ (s : State) (t : Nat) : Nat → List (List Work) := upd s.bufs t ([] :: s.bufs t)

/-- Whether gbinder_driver_transact returns when this isn't done anymore (gbinder_driver.c:1284-1307). The one who waits until its reply
is handled (gbinder_driver.c:584-590) uses the buffer of whoever has received the transaction. -/
def isContext : Frame → Bool
  | .call _ | .oneway => true
  | _ => false

/-- The thread has nothing left in its read buffer, if it isn't doing anything: it's waiting in the kernel, or it isn't one of those which
handle transactions (gbinder_driver.c:1197-1223). -/
def idle (s : State) (t : Nat) : Bool := !(s.base.frames t).isEmpty || s.bufs t == [[]]

/-- One step (gbinder_driver.c:517-597, 754-854, 1197-1313). What calls leave behind in their buffers when they have got a result would
be handled by gbinder_driver_handle_commands (gbinder_driver.c:1293-1307), which ignores replies. That's undefined here. -/
def step (s : State) : Label → Out State
  | .base (.read _) => .no
  | .base l =>
    match l with
    | .call t _ | .callTo t _ _ | .callFails t | .oneway t | .onewayFails t =>
      if idle s t then
        match Nested.step s.base l with
        | .ok b => .ok { base := b, bufs := begin_ s t }
        | .no => .no
        | .ub => .ub
      else .no
    | .pick t _ =>
      if idle s t then
        match Nested.step s.base l with
        | .ok b => .ok { s with base := b }
        | .no => .no
        | .ub => .ub
      else .no
    | .die t =>
      match Nested.step s.base l with
      | .ok b => .ok { base := b, bufs := upd s.bufs t [[]] }
      | .no => .no
      | .ub => .ub
    | _ =>
      match Nested.step s.base l with
      | .ok b => .ok { s with base := b }
      | .no => .no
      | .ub => .ub
  -- gbinder_driver.c:1285, 585, 1208, 1213: ioctl(BINDER_WRITE_READ). How many commands that is depends on the kernel.
  | .fetch t n =>
    if s.base.dead t then .no else
      match s.base.frames t, s.bufs t with
      | .handle _ :: _, _ => .no
      | _, b :: bs =>
        .ok {
          base := { s.base with todo := upd s.base.todo t ((s.base.todo t).drop n) }
          bufs := upd s.bufs t ((b ++ (s.base.todo t).take n) :: bs) }
      | _, [] => .ub
  -- gbinder_driver.c:787-850, 754-772: the next command
  | .take t =>
    if s.base.dead t then .no else
      match s.base.frames t, s.bufs t with
      | .handle _ :: _, _ => .no
      | fs, (w :: b) :: bs =>
        let base := { s.base with frames := upd s.base.frames t (react t fs w).1, log := s.base.log ++ (react t fs w).2 }
        if (react t fs w).1.countP isContext < fs.countP isContext then
          if b = [] then .ok { base, bufs := upd s.bufs t bs } else .ub
        else .ok { base, bufs := upd s.bufs t (b :: bs) }
      | _, _ => .no

end Gb.NestedBuf
