import Verif.Model.LocalObj
/-
A local object which is used by other processes: the library (Model/LocalObj, which is about the
object, the table and what the threads do with it), threads which send the object in requests and
replies (src/gbinder_driver.c, src/gbinder_writer.c), and the kernel, which counts references.

The kernel isn't a part of /repo. It's modelled the way Linux does it (binder_inc_node_nilocked,
binder_dec_node_nilocked, binder_inc_ref_olocked, binder_dec_ref_olocked, the BINDER_WORK_NODE part
of binder_thread_read, and binder_node_inc/dec for BC_ACQUIRE_DONE in drivers/android/binder.c), as
far as strong references are concerned. Weak references don't keep anything alive.

It's about a single address `p`. There may be an object at this address or not, it may be freed and
then there may be another one.

Not modelled: ioctl failing after the kernel has taken the transaction (it doesn't, until the device
is closed); processes which terminate (as far as the others are concerned, it's the same as releasing
everything).
-/
set_option autoImplicit false

namespace Gb.Sharing

/-- What a thread of the owner gets from the kernel, in this order: BR_ACQUIRE, BR_RELEASE,
BR_TRANSACTION_COMPLETE (gbinder_driver.c:665-692, 798-802); or, while it's in the kernel, the node
itself (binder_node::work, on the list of the thread). -/
inductive Item
  | node
  | acquire
  | release
  | complete
  deriving DecidableEq, Repr

/-- Where the kernel has queued the node (binder_node::work): nowhere, on the list of a thread, or on
that of the process. What's read from there is handled at gbinder_driver.c:665-692. -/
inductive Loc
  | nowhere
  | thread (t : Nat)
  | proc
  deriving DecidableEq, Repr

/-- The library, the kernel, and those who use the object (gbinder_driver.c:90-106, 1225-1312). -/
structure State where
  obj : LocalObj.State := {}
  /-- Requests and replies with this object which are going to be sent. -/
  parcels : Nat := 0
  /-- Threads which are waiting for BR_TRANSACTION_COMPLETE, having sent one. -/
  sent : List Nat := []
  /-- What they have read and not handled yet (GBinderDriverReadBuf). -/
  inbox : List (Nat × Item) := []
  /-- binder_thread::todo -/
  todo : List (Nat × Item) := []
  work : Loc := .nowhere
  /-- binder_node::internal_strong_refs -/
  internal : Nat := 0
  /-- binder_node::local_strong_refs -/
  localRefs : Nat := 0
  /-- binder_node::has_strong_ref -/
  has : Bool := false
  /-- binder_node::pending_strong_ref -/
  pending : Bool := false
  /-- BC_ACQUIRE minus BC_RELEASE sent by another process. -/
  acquired : Nat → Nat := fun _ => 0
  /-- Buffers of another process which contain references to this object. -/
  buffers : Nat → Nat := fun _ => 0
  /-- Buffers of the owner for incoming transactions which are addressed to this object, or contain
  references to it. -/
  incoming : Nat := 0

/-- What happens next, see `step` (gbinder_driver.c:515-597, 642-692, 1225-1312). -/
inductive Label
  | obj (l : LocalObj.Label)
  | append
  | discard
  | send (t c : Nat)
  | read (t : Nat)
  | readProc (t : Nat)
  | take (t : Nat)
  | acquire (c : Nat)
  | release (c : Nat)
  | free (c : Nat)
  | give (c c' : Nat)
  | call (c : Nat)
  | freeIncoming
  deriving DecidableEq, Repr

/-- The first thing for this thread, and the rest (what the thread reads or handles next,
gbinder_driver.c:418-438). -/
def pop (t : Nat) : List (Nat × Item) → Option (Item × List (Nat × Item))
  | [] => none
  | x :: l => if x.1 = t then some (x.2, l) else (pop t l).map fun r => (r.1, x :: r.2)

/-- Strong references of another process (binder_ref_data::strong): acquired with BC_ACQUIRE
(gbinder_driver.c:1112-1119) and those of the buffers. -/
def State.strong (s : State) (c : Nat) : Nat := s.acquired c + s.buffers c

/-- binder_inc_node_nilocked, strong and internal. `t` is the thread of the owner that's sending the
object (gbinder_driver.c:1225-1312, 515-597); there's none if another process does that. -/
def State.incNode (s : State) (t : Option Nat) : State :=
  let s := { s with internal := s.internal + 1 }
  match t with
  | some t =>
    if s.has then s
    else { s with todo := s.todo.filter (·.2 ≠ .node) ++ [(t, .node)], work := .thread t }
  | none => s

/-- binder_inc_ref_olocked for a buffer of that process (which is freed by
gbinder_driver.c:1156-1178 there). -/
def State.incRef (s : State) (c : Nat) (t : Option Nat) : State :=
  let s := if s.strong c = 0 then s.incNode t else s
  { s with buffers := upd s.buffers c (s.buffers c + 1) }

/-- The end of binder_dec_node_nilocked, strong: if there are no references anymore then the owner
has to know (gbinder_driver.c:680-692). -/
def State.unused (s : State) : State :=
  if s.internal = 0 ∧ s.localRefs = 0 ∧ s.has = true ∧ s.work = .nowhere then { s with work := .proc } else s

/-- The end of binder_dec_ref_olocked, after the counter has been decremented (BC_RELEASE,
gbinder_driver.c:1121-1128, or BC_FREE_BUFFER, gbinder_driver.c:1156-1178, in another process). -/
def State.decRef (s : State) (c : Nat) : State :=
  if s.strong c = 0 then { s with internal := s.internal - 1 }.unused else s

/-- BC_ACQUIRE_DONE (gbinder_driver.c:1024-1041, 678). -/
def State.ack (s : State) : State := { s with pending := false, localRefs := s.localRefs - 1 }.unused

/-- binder_thread_read, BINDER_WORK_NODE: what's delivered to gbinder_driver.c:665-692. -/
def State.readNode (s : State) (t : Nat) : State :=
  if 0 < s.internal + s.localRefs then
    if s.has then s
    else { s with
      has := true, pending := true, localRefs := s.localRefs + 1, inbox := s.inbox ++ [(t, .acquire)] }
  else if s.has then { s with has := false, inbox := s.inbox ++ [(t, .release)] }
  else s

/-- The object is looked up and the command is handled (gbinder_driver.c:665-692). Nothing that other
threads do between these two makes any difference to it, because there's a reference. -/
def State.found (s : State) (p : Nat) (k : LocalObj.Kind) : Out State :=
  match LocalObj.step s.obj (.getLocal p) with
  | .ok o =>
    match LocalObj.step o (.handle k p) with
    | .ok o => .ok { s with obj := o }
    | .no => .no
    | .ub => .ub
  | .no => .no
  | .ub => .ub

/-- gbinder_driver.c:515-597, 642-692, 1225-1312 and the kernel, each step has its own lines below. -/
def step (p : Nat) (s : State) : Label → Out State
  -- Something else that the owner does (Model/LocalObj). BR_ACQUIRE and BR_RELEASE are below.
  -- BC_ACQUIRE_DONE is sent by gbinder_local_object_acquire_done (gbinder_local_object.c:341-353)
  | .obj l =>
    if l = .handle .acquire p ∨ l = .handle .release p then .no
    else
      match LocalObj.step s.obj l with
      | .ok o =>
        let s := { s with obj := o }
        .ok (if l = .done ⟨.acquire, p, true⟩ then s.ack else s)
      | .no => .no
      | .ub => .ub
  -- gbinder_writer_data_append_local_object (gbinder_writer.c:1164-1184) is called by someone who
  -- has a reference. No reference is taken.
  | .append => if 0 < s.obj.user p then .ok { s with parcels := s.parcels + 1 } else .no
  -- Freed without having been sent (gbinder_local_request.c:155-166)
  | .discard => if 0 < s.parcels then .ok { s with parcels := s.parcels - 1 } else .no
  -- BC_TRANSACTION or BC_REPLY (gbinder_driver.c:1276-1291, 576-579), the kernel takes it. It may be
  -- the process which gets the request, or the one that gets the reply.
  | .send t c =>
    if 0 < s.parcels then
      let s := s.incRef c (some t)
      .ok { s with parcels := s.parcels - 1, sent := t :: s.sent, todo := s.todo ++ [(t, .complete)] }
    else .no
  -- The thread reads from the kernel (gbinder_driver.c:584-590, 1284-1291)
  | .read t =>
    match pop t s.todo with
    | some (.node, l) => .ok ({ s with todo := l, work := .nowhere }.readNode t)
    | some (x, l) => .ok { s with todo := l, inbox := s.inbox ++ [(t, x)] }
    | none => .no
  | .readProc t => if s.work = .proc then .ok ({ s with work := .nowhere }.readNode t) else .no
  | .take t =>
    match pop t s.inbox with
    -- 665-679
    | some (.acquire, l) =>
      let s := { s with inbox := l }
      if p ≠ 0 ∧ s.obj.table p then s.found p .acquire else .ok s.ack
    -- 680-692
    | some (.release, l) =>
      let s := { s with inbox := l }
      if p ≠ 0 ∧ s.obj.table p then s.found p .release else .ok s
    -- 798-802, or 584-590. Until that the parcel isn't freed.
    | some (.complete, l) => .ok { s with inbox := l, sent := s.sent.erase t }
    | some (.node, _) => .no
    | none => .no
  -- Another process: BC_ACQUIRE, while it has a reference
  | .acquire c =>
    if 0 < s.strong c then .ok { s with acquired := upd s.acquired c (s.acquired c + 1) } else .no
  -- BC_RELEASE
  | .release c =>
    if 0 < s.acquired c then
      .ok ({ s with acquired := upd s.acquired c (s.acquired c - 1) }.decRef c)
    else .no
  -- BC_FREE_BUFFER
  | .free c =>
    if 0 < s.buffers c then .ok ({ s with buffers := upd s.buffers c (s.buffers c - 1) }.decRef c)
    else .no
  -- The object is passed on
  | .give c c' => if 0 < s.strong c then .ok (s.incRef c' none) else .no
  -- BR_TRANSACTION is on its way to the owner (gbinder_driver.c:515-547)
  | .call c =>
    if 0 < s.strong c then .ok { s with localRefs := s.localRefs + 1, incoming := s.incoming + 1 } else .no
  -- BC_FREE_BUFFER sent by the owner (gbinder_driver.c:1156-1178)
  | .freeIncoming =>
    if 0 < s.incoming then
      .ok { s with localRefs := s.localRefs - 1, incoming := s.incoming - 1 }.unused
    else .no

end Gb.Sharing
