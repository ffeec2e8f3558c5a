import Verif.Model.RemoteObj
/-
What handles refer to: remote objects (Model/RemoteObj), the buffers from which handles are read
(src/gbinder_io.c, src/gbinder_reader.c), and the kernel, which forgets what a handle refers to when
there are no more strong references from this process and then gives the same number to something
else.

The kernel isn't a part of /repo. It's modelled the way Linux does it (binder_get_ref_for_node_olocked,
binder_dec_ref_olocked, binder_cleanup_ref_olocked, BC_CLEAR_DEATH_NOTIFICATION), as far as strong
references are concerned; libgbinder doesn't take weak ones. BR_DEAD_BINDER which has been queued is
delivered even if the notification is cleared after that (BINDER_WORK_DEAD_BINDER_AND_CLEAR).

`nodes` are what the others have (binder_node), a node has a number of its own which is never reused.
The same node may have more than one handle here, that doesn't happen but doesn't make any difference.

Handle zero (the service manager) always refers to the service manager. It may die and come back, see
C31. It's not counted here.
-/
set_option autoImplicit false

namespace Gb.HandleRefs

/-- The library, and what the kernel knows about handles of this process
(gbinder_driver.c:1043-1128, gbinder_io.c:525-566). -/
structure State where
  lib : RemoteObj.State := {}
  /-- binder_ref::node, for each handle -/
  node : Nat → Option Nat := fun _ => none
  /-- BC_ACQUIRE minus BC_RELEASE -/
  acquired : Nat → Nat := fun _ => 0
  /-- Received buffers which contain the handle and haven't been freed. -/
  buffers : Nat → Nat := fun _ => 0
  /-- The process which has this node is gone. -/
  gone : Nat → Bool := fun _ => false
  /-- What the handle referred to when the object was created. -/
  names : Nat → Option Nat := fun _ => none

/-- What happens next, see `step` (gbinder_remote_object.c:65-305, gbinder_io.c:525-566). -/
inductive Label
  | lib (l : RemoteObj.Label)
  | receive (h n : Nat)
  | freeBuffer (h : Nat)
  | read (h : Nat) (c : RemoteObj.Create) (id : Nat)
  | die (n : Nat)
  | deadBinder (h : Nat)
  deriving DecidableEq, Repr

/-- The end of binder_dec_ref_olocked (BC_RELEASE, gbinder_driver.c:1121-1128, or BC_FREE_BUFFER,
gbinder_driver.c:1156-1178): the handle is forgotten when there are no references. -/
def State.drop (s : State) (h : Nat) : State :=
  if s.acquired h + s.buffers h = 0 then { s with node := upd s.node h none } else s

/-- What the kernel does with a command (gbinder_driver.c:1112-1128). It ignores those for the handles
which it doesn't know. -/
def State.kernel (s : State) : RemoteObj.Ev → State
  | .drv _ .acquire h =>
    if h ≠ 0 ∧ s.node h ≠ none then { s with acquired := upd s.acquired h (s.acquired h + 1) } else s
  | .drv _ .release h =>
    if h ≠ 0 ∧ 0 < s.acquired h then { s with acquired := upd s.acquired h (s.acquired h - 1) }.drop h else s
  | _ => s

/-- The library has done something, and the kernel handles the commands which it has written
(gbinder_driver.c:1043-1128). -/
def State.wrote (s : State) (lib : RemoteObj.State) : State :=
  (lib.log.drop s.lib.log.length).foldl State.kernel { s with lib }

/-- What doesn't happen on its own. Objects other than the service manager (gbinder_ipc.c:1396-1403) are
created by `read`; BR_DEAD_BINDER is sent by the kernel; and an object is declared dead without that
only after BR_DEAD_REPLY (gbinder_proxy_object.c:214-221), i.e. if it's dead. -/
def State.excluded (s : State) : RemoteObj.Label → Bool
  | .lookup h c _ => decide (h ≠ 0 ∧ c ≠ .no)
  | .deadBinder _ => true
  | .suicide p =>
    match s.names p with
    | some n => !s.gone n
    | none => false
  | _ => false

/-- gbinder_remote_object.c:65-305, gbinder_io.c:525-566 and the kernel, each step has its own lines
below. -/
def step (s : State) : Label → Out State
  -- The rest of what the library does, see Model/RemoteObj
  | .lib l =>
    if s.excluded l then .no
    else
      match RemoteObj.step s.lib l with
      | .ok lib => .ok (s.wrote lib)
      | .no => .no
      | .ub => .ub
  -- The handle is received in a buffer (gbinder_driver.c:532-547, 809-827)
  | .receive h n =>
    if h ≠ 0 ∧ (s.node h = none ∨ s.node h = some n) then
      .ok { s with node := upd s.node h (some n), buffers := upd s.buffers h (s.buffers h + 1) }
    else .no
  -- gbinder_driver_free_buffer (gbinder_driver.c:1156-1178)
  | .freeBuffer h =>
    if 0 < s.buffers h then .ok ({ s with buffers := upd s.buffers h (s.buffers h - 1) }.drop h) else .no
  -- The handle is read from a buffer (gbinder_io.c:536-546), or a buffer is being converted
  -- (gbinder_proxy_object.c:107-128). The one who does that has the buffer.
  | .read h c id =>
    if 0 < s.buffers h ∧ (c = .acquired ∨ c = .alive) then
      match RemoteObj.step s.lib (.lookup h c id) with
      | .ok lib =>
        .ok ({ s with names := if s.lib.table h = none then upd s.names id (s.node h) else s.names }.wrote lib)
      | .no => .no
      | .ub => .ub
    else .no
  | .die n => .ok { s with gone := upd s.gone n true }
  -- The kernel sends BR_DEAD_BINDER
  | .deadBinder h =>
    if h = 0 ∨ (s.node h).map s.gone = some true then
      match RemoteObj.step s.lib (.deadBinder h) with
      | .ok lib => .ok (s.wrote lib)
      | .no => .no
      | .ub => .ub
    else .no

end Gb.HandleRefs
