import Verif.Model.Device
/-
Calls of the kernel, on top of Model/Device: there's time between reading the number of the descriptor and the system call.
-/
set_option autoImplicit false

namespace Gb.DeviceCalls

open Device (Holder Drv Ev)

/-- A thread has got the number of the descriptor (gbinder_driver.c:239, 285, 980: `self->fd`) of the driver `dev`, being `by` one of
those who have a reference to it, and is going to call ioctl (gbinder_system.c:56-66) or poll (gbinder_driver.c:989) with it. -/
structure Call where
  dev : Nat
  by_ : Holder
  fd : Option Nat
  deriving DecidableEq, Repr

/-- Model/Device, and the calls which are about to be made (gbinder_driver.c:239, 285, 980). -/
structure State where
  dev : Device.State := {}
  calls : List Call := []

/-- What may happen. -/
inductive Label
  /-- see Model/Device -/
  | dev (l : Device.Label)
  /-- gbinder_driver.c:239, 285, 980: the number is read -/
  | load (d : Nat) (h : Holder)
  /-- gbinder_system.c:56-66, gbinder_driver.c:989: the kernel is called. If that has been interrupted by a signal, ioctl is
  called once again with the same number (`again`, gbinder_system.c:64). -/
  | call (c : Call) (again : Bool)
  deriving DecidableEq, Repr

/-- Whoever is about to call keeps the reference meanwhile (gbinder_ipc.c:449 is the last thing a looper's thread does,
gbinder_buffer.c:88 follows the call at gbinder_buffer.c:87, GBinderIpc is referred to by those who use it). -/
def kept (s : Device.State) (calls : List Call) : Bool := calls.all fun c => Device.holds s c.dev c.by_

/-- One step (see `Label`). The rest of the calls (in Model/Device) are made at once. gbinder_driver.c:239, 285, 980. -/
def step (s : State) : Label → Out State
  | .dev l =>
    match Device.step s.dev l with
    | .ok t => if kept t s.calls then .ok { s with dev := t } else .no
    | .no => .no
    | .ub => .ub
  | .load d h =>
    if Device.holds s.dev d h then
      match s.dev.drv d with
      | none => .ub
      | some x => .ok { s with calls := ⟨d, h, x.fd⟩ :: s.calls }
    else .no
  | .call c again =>
    if c ∈ s.calls then
      .ok { dev := { s.dev with log := s.dev.log ++ [.ioctl c.fd] }, calls := if again then s.calls else s.calls.erase c }
    else .no

end Gb.DeviceCalls
