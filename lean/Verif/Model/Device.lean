import Verif.Model.Io
import Verif.Basic.Lts
/-
src/gbinder_driver.c: opening and closing of binder devices, and who keeps them open. There may be any number of them.

Drivers, loopers and buffers are numbered, i.e. the memory is not reused. The references to a driver are those
who have them; the code only counts them.
-/
set_option autoImplicit false

namespace Gb.Device

/-- Who has a reference to a GBinderDriver: the GBinderIpc (gbinder_ipc.c:1880, 2152), its loopers (449, 883) and the
received buffers (gbinder_buffer.c:73, 88). -/
inductive Holder
  | ipc
  | looper (n : Nat)
  | buffer (n : Nat)
  deriving DecidableEq, Repr

/-- gbinder_driver.c:79-88 struct gbinder_driver. `fd` is `none` for -1, `vm` is the number of the mapping, `none` for
NULL. -/
structure Drv where
  refs : List Holder
  fd : Option Nat
  vm : Option Nat
  io : Io
  deriving DecidableEq, Repr

/-- What the kernel says: open, ioctl(BINDER_VERSION), mmap, ioctl(BINDER_SET_MAX_THREADS)
(gbinder_driver.c:868, 872, 888, 903; gbinder_system.c:41-83). `none` if it has failed. -/
structure Answers where
  fd : Option Nat
  version : Option Int
  vm : Option Nat
  threads : Bool
  deriving DecidableEq, Repr

/-- What is observable: system calls (gbinder_system.c:41-83) of the library, descriptors of the application and the
results of gbinder_driver_new (gbinder_driver.c:863-925). -/
inductive Ev
  | opened (fd : Nat)
  /-- close(fd), `none` being -1 -/
  | closed (fd : Option Nat)
  | ioctl (fd : Option Nat)
  | mapped (vm : Nat)
  | unmapped (vm : Nat)
  | appOpened (fd : Nat)
  | appClosed (fd : Nat)
  | created (d : Nat) (io : Io)
  | refused
  | freed (d : Nat)
  deriving DecidableEq, Repr

/-- The process. `fds` and `maps` are descriptors and mappings of the process. -/
structure State where
  drv : Nat → Option Drv := fun _ => none
  next : Nat := 0
  /-- the driver a received buffer belongs to (gbinder_buffer.c:39-45) -/
  buf : Nat → Option Nat := fun _ => none
  fds : Nat → Bool := fun _ => false
  maps : Nat → Bool := fun _ => false
  log : List Ev := []

/-- gbinder_driver.c:876-884; the versions are gbinder_io.c:612 and binder.h:95-99. -/
def ioFor (version : Int) : Option Io :=
  if version = 7 then some .io32 else if version = 8 then some .io64 else none

/-- open (gbinder_system.c:41-47) -/
def sysOpen (s : State) (fd : Nat) : State :=
  { s with fds := upd s.fds fd true, log := s.log ++ [.opened fd] }

/-- close (gbinder_system.c:49-54); -1 isn't a descriptor -/
def sysClose (s : State) (fd : Option Nat) : State :=
  match fd with
  | some n => { s with fds := upd s.fds n false, log := s.log ++ [.closed fd] }
  | none => { s with log := s.log ++ [.closed fd] }

/-- gbinder_driver.c:863-925 `gbinder_driver_new`. The kernel gives out neither descriptors nor
addresses which are in use. A failure of BINDER_SET_MAX_THREADS is only reported. -/
def open_ (s : State) (a : Answers) : Out State :=
  match a.fd with
  | none => .ok { s with log := s.log ++ [.refused] }
  | some fd =>
    if s.fds fd then .no
    else
      let s := sysOpen s fd
      let s := { s with log := s.log ++ [.ioctl (some fd)] }
      let fail := sysClose s (some fd)
      let fail := { fail with log := fail.log ++ [.refused] }
      match a.version with
      | none => .ok fail
      | some v =>
        match ioFor v with
        | none => .ok fail
        | some io =>
          match a.vm with
          | none => .ok fail
          | some vm =>
            if s.maps vm then .no
            else .ok { s with
              maps := upd s.maps vm true
              drv := upd s.drv s.next (some { refs := [.ipc], fd := some fd, vm := some vm, io := io })
              next := s.next + 1
              log := s.log ++ [.mapped vm, .ioctl (some fd), .created s.next io] }

/-- gbinder_driver.c:948-960 `gbinder_driver_close`, as one step: nobody reads the number of the descriptor between close and
the assignment of -1. (Those who have read it before are in Model/DeviceCalls.) -/
def close (s : State) (d : Nat) (x : Drv) : State :=
  match x.vm with
  | none => s
  | some vm =>
    let s := { s with maps := upd s.maps vm false, log := s.log ++ [.unmapped vm] }
    let s := sysClose s x.fd
    { s with drv := upd s.drv d (some { x with fd := none, vm := none }) }

/-- gbinder_driver.c:936-946 `gbinder_driver_unref`. -/
def unref (s : State) (d : Nat) (h : Holder) : Out State :=
  match s.drv d with
  | none => .ub
  | some x =>
    if h ∈ x.refs then
      let x' := { x with refs := x.refs.erase h }
      if x'.refs = [] then
        let s := close { s with drv := upd s.drv d (some x') } d x'
        .ok { s with drv := upd s.drv d none, log := s.log ++ [.freed d] }
      else .ok { s with drv := upd s.drv d (some x') }
    else .no

/-- gbinder_io.c:61-92 with gbinder_system.c:56-66: anything the driver is told or asked. -/
def use (s : State) (d : Nat) : Out State :=
  match s.drv d with
  | none => .ub
  | some x => .ok { s with log := s.log ++ [.ioctl x.fd] }

/-- Access to the contents of a buffer, which is in the mapping of the driver (gbinder_driver.c:887-890). -/
def access (s : State) (n : Nat) : Out State :=
  match s.buf n with
  | none => .no
  | some d =>
    match s.drv d with
    | none => .ub
    | some x => if x.vm = none then .ub else .ok s

/-- What may happen. -/
inductive Label
  /-- gbinder_ipc.c:1873, under the lock (1863-1895) -/
  | open (a : Answers)
  /-- a looper is created (gbinder_ipc.c:883) by the GBinderIpc -/
  | looper (d n : Nat)
  /-- and freed (gbinder_ipc.c:449) -/
  | looperFree (d n : Nat)
  /-- something has been received (gbinder_driver.c:537, 817; gbinder_buffer.c:59-75) by `h` -/
  | received (d n : Nat) (h : Holder)
  /-- the contents is looked at by those who have the buffer -/
  | access (n : Nat)
  /-- the last reference to the buffer is dropped; `objects` if there are any (gbinder_buffer.c:77-90) -/
  | release (n : Nat) (objects : Bool)
  /-- BINDER_WRITE_READ by someone who has a reference (gbinder_io.c:61-92) -/
  | use (d : Nat) (h : Holder)
  /-- gbinder_ipc.c:968-999: a looper doesn't terminate -/
  | stuck (d : Nat)
  /-- gbinder_ipc.c:2152 -/
  | finalize (d : Nat)
  /-- other descriptors of the process -/
  | appOpen (fd : Nat)
  | appClose (fd : Nat)
  deriving DecidableEq, Repr

/-- Has `h` got a reference? (gbinder_driver.c:927-934: the number of references isn't zero) -/
def holds (s : State) (d : Nat) (h : Holder) : Bool :=
  match s.drv d with
  | some x => decide (h ∈ x.refs)
  | none => false

/-- gbinder_driver.c:927-934 `gbinder_driver_ref`, for someone who hasn't got a reference yet. -/
def ref (s : State) (d : Nat) (h : Holder) : Out State :=
  match s.drv d with
  | none => .ub
  | some x => if h ∈ x.refs then .no else .ok { s with drv := upd s.drv d (some { x with refs := h :: x.refs }) }

/-- One step (see `Label`). -/
def step (s : State) : Label → Out State
  | .open a => open_ s a
  | .looper d n => if holds s d .ipc then ref s d (.looper n) else .no
  | .looperFree d n => if holds s d (.looper n) then unref s d (.looper n) else .no
  | .received d n h =>
    if holds s d h ∧ s.buf n = none then
      (use s d).andThen fun s => (ref s d (.buffer n)).andThen fun s => .ok { s with buf := upd s.buf n (some d) }
    else .no
  | .access n => access s n
  | .release n objects =>
    match s.buf n with
    | none => .no
    | some d =>
      (if objects then access s n else .ok s).andThen fun s => (use s d).andThen fun s =>
        (unref s d (.buffer n)).andThen fun s => .ok { s with buf := upd s.buf n none }
  | .use d h => if holds s d h then use s d else .no
  | .stuck d =>
    if holds s d .ipc then
      match s.drv d with
      | none => .ub
      | some x => .ok (close s d x)
    else .no
  | .finalize d => if holds s d .ipc then unref s d .ipc else .no
  | .appOpen fd => if s.fds fd then .no else .ok { s with fds := upd s.fds fd true, log := s.log ++ [.appOpened fd] }
  | .appClose fd =>
    if s.fds fd then .ok { s with fds := upd s.fds fd false, log := s.log ++ [.appClosed fd] } else .no

end Gb.Device
