import Verif.Model.Sharing
/-
What happens to an object which is passed through a bridge (src/gbinder_proxy_object.c): a handle is
received from one device and another process, which uses another device, gets a proxy instead of it.
Calls made to the proxy are sent to the handle. It's about the references which keep the handle valid:
those of the received buffers (src/gbinder_buffer.c), which are kept by messages being forwarded, and
the one taken by the proxy when it's acquired by those who got it (src/gbinder_local_object.c:580-606).

It's about one handle `h` and one proxy for it at a time; the proxy may be freed and then there may be
another one. Other handles, proxies and objects have the same kind of references, as far as this handle is
concerned that's `other` and `loose`. Remote objects (GBinderRemoteObject) aren't here: a proxy has one
of its own, which is found by the handle while it's alive (C29, C50); whether the proxy is found or a
new one has to be created, is arbitrary here.

The kernel isn't a part of /repo. It's modelled as in Model/Sharing (the device of the proxy), and as in
Model/HandleRefs (the device of the handle).

If several threads have references to the contents of the same buffer then it counts as that many buffers
(the kernel's reference to what the handle refers to goes with the last one).
-/
set_option autoImplicit false

namespace Gb.Bridged
open Sharing (Item pop)

/-- What's being forwarded (gbinder_proxy_object.c:237-282 or 188-223). -/
inductive Kind
  | request
  | reply
  deriving DecidableEq, Repr

/-- What the main thread is going to do, in this order: sources of the same priority are dispatched in
the order in which they have been attached (gbinder_eventloop.c:193-202). `acquired` is the second
half of `acquire` (gbinder_local_object.c:330-353), the boolean tells whether it has a buffer
with the handle; `done` is the end of a forwarded request (gbinder_ipc.c:1505-1516, 1559-1573). -/
inductive Task
  | acquire (kept : Bool)
  | acquired (kept : Bool)
  | release
  | done
  deriving DecidableEq, Repr

/-- The proxy, what refers to it, and what both kernels know (gbinder_proxy_object.c:53-64,
gbinder_driver.c:90-106). -/
structure State where
  /-- What the handle refers to (binder_ref::node). -/
  node : Option Nat := none
  /-- BC_ACQUIRE minus BC_RELEASE sent by the proxy. -/
  acq : Nat := 0
  /-- The same for everything else in this process. -/
  other : Nat := 0
  /-- References to buffers with the handle that others have. -/
  loose : Nat := 0
  /-- The proxy is there. -/
  live : Bool := false
  /-- GBinderProxyObjectPriv::acquired -/
  acquired : Bool := false
  /-- GBinderProxyObjectPriv::dropped -/
  dropped : Bool := false
  /-- GBinderRemoteObject::dead -/
  dead : Bool := false
  /-- GBinderLocalObject::strong_refs -/
  strong : Nat := 0
  /-- Forwarded messages which haven't been sent yet. -/
  built : List Kind := []
  /-- Those which are being sent, by which thread. -/
  sent : List (Nat × Kind) := []
  /-- Those which have been sent and haven't been freed. -/
  waiting : List Kind := []
  tasks : List Task := []
  /-- What the threads have read and not handled yet (GBinderDriverReadBuf). -/
  inbox : List (Nat × Item) := []
  /-- binder_thread::todo -/
  todo : List (Nat × Item) := []
  /-- The node is on the list of the process. -/
  proc : Bool := false
  /-- Strong references that other processes have to the proxy. -/
  peers : Nat := 0
  /-- binder_node::local_strong_refs -/
  localRefs : Nat := 0
  /-- binder_node::has_strong_ref -/
  has : Bool := false
  /-- Calls made to the proxy: those which haven't been received. The booleans tell whether there's any data. -/
  arriving : List Bool := []
  /-- Received by a looper and waiting for the main thread. -/
  calls : List Bool := []
  /-- Handled by the main thread. -/
  served : List Bool := []
  /-- Loopers which have freed the request and not the reference to the proxy. -/
  leaving : Nat := 0
  /-- What those who have the proxy now, or have called it, think it is: that's what the handle
  referred to when they got it. -/
  told : List Nat := []
  deriving DecidableEq, Repr

/-- What happens next, see `step` (gbinder_proxy_object.c:107-386, gbinder_driver.c:515-597,
665-692). -/
inductive Label
  | receive (n : Nat)
  | unrefBuffer
  | otherAcquire
  | otherRelease
  | create (k : Kind)
  | find (k : Kind)
  | discard (k : Kind)
  | send (t : Nat) (k : Kind)
  | read (t : Nat)
  | readProc (t : Nat)
  | take (t : Nat)
  | finish (k : Kind)
  | run
  | more
  | less
  | call (d : Bool)
  | accept (d : Bool)
  | handle (d : Bool)
  | answered (d : Bool)
  | leave
  | die
  | drop
  | free
  deriving DecidableEq, Repr

/-- Does the task have a buffer with the handle (gbinder_local_object.c:602,
gbinder_proxy_object.c:225-235)? -/
def Task.keeps : Task → Bool
  | .acquire k => k
  | .acquired k => k
  | .release => false
  | .done => true

/-- References to buffers with the handle: the messages (gbinder_writer.c:104-106), and the tasks. -/
def State.holds (s : State) : Nat :=
  s.loose + s.built.length + s.sent.length + s.waiting.length + s.tasks.countP Task.keeps

/-- References to the proxy: the messages (gbinder_writer.c:143-145), the tasks
(gbinder_local_object.c:289, 601), strong_refs (gbinder_local_object.c:324), loopers
(gbinder_driver.c:533). -/
def State.refs (s : State) : Nat :=
  s.built.length + s.sent.length + s.waiting.length + s.tasks.length + s.strong + s.calls.length +
    s.served.length + s.leaving

/-- The kernel forgets the handle when there are no references to it (BC_RELEASE, gbinder_driver.c:1121-1128,
or BC_FREE_BUFFER, gbinder_driver.c:1156-1178). -/
def State.settle (s : State) : State :=
  if s.holds + s.acq + s.other = 0 then { s with node := none } else s

/-- Strong references to the proxy which aren't from this process (binder_node, see Model/Sharing). -/
def State.shared (s : State) : Nat := s.peers + s.localRefs

/-- The end of binder_dec_node_nilocked (what's delivered to gbinder_driver.c:680-692). -/
def State.unused (s : State) : State :=
  if s.shared = 0 ∧ s.has = true then { s with proc := true } else s

/-- Nobody has the proxy, and there are no calls. -/
def State.forget (s : State) : State :=
  if s.peers = 0 ∧ s.arriving = [] ∧ s.calls = [] then { s with told := [] } else s

/-- binder_inc_node_nilocked, when `t` is sending (gbinder_driver.c:574-590, 1276-1291). -/
def State.incNode (s : State) (t : Nat) : State :=
  if s.has then { s with peers := s.peers + 1 }
  else { s with
    peers := s.peers + 1, proc := false, todo := s.todo.filter (·.2 ≠ .node) ++ [(t, .node)] }

/-- BC_ACQUIRE_DONE (gbinder_driver.c:1024-1041, 678). -/
def State.ack (s : State) : State := { s with localRefs := s.localRefs - 1 }.unused

/-- binder_thread_read, BINDER_WORK_NODE: what's delivered to gbinder_driver.c:665-692. -/
def State.readNode (s : State) (t : Nat) : State :=
  if 0 < s.shared then
    if s.has then s
    else { s with has := true, localRefs := s.localRefs + 1, inbox := s.inbox ++ [(t, .acquire)] }
  else if s.has then { s with has := false, inbox := s.inbox ++ [(t, .release)] }
  else s

/-- Each step has its own lines below (gbinder_proxy_object.c:107-386, gbinder_driver.c:515-597, 665-692). -/
def step (s : State) : Label → Out State
  -- A buffer with the handle is received (gbinder_driver.c:532-547, 809-827)
  | .receive n =>
    if s.node = none ∨ s.node = some n then .ok { s with node := some n, loose := s.loose + 1 } else .no
  -- gbinder_buffer_contents_unref (gbinder_buffer.c:103-113, 77-90)
  | .unrefBuffer => if 0 < s.loose then .ok { s with loose := s.loose - 1 }.settle else .no
  -- BC_ACQUIRE and BC_RELEASE sent by others (gbinder_remote_object.c:118-119, 192, 81, 154, 301)
  | .otherAcquire => if s.node ≠ none then .ok { s with other := s.other + 1 } else .no
  | .otherRelease => if 0 < s.other then .ok { s with other := s.other - 1 }.settle else .no
  -- gbinder_proxy_object.c:120-123, the buffer is being converted
  | .create k =>
    if 0 < s.loose ∧ s.live = false then
      .ok { s with live := true, acquired := false, dropped := false, dead := false, built := [k] }
    else .no
  -- gbinder_proxy_object.c:117-118
  | .find k => if 0 < s.loose ∧ s.live = true then .ok { s with built := s.built ++ [k] } else .no
  -- The message isn't sent, or the kernel doesn't take it
  | .discard k => if k ∈ s.built then .ok { s with built := s.built.erase k }.settle else .no
  -- BC_TRANSACTION or BC_REPLY (gbinder_driver.c:1276-1291, 576-579), the kernel takes it
  | .send t k =>
    if k ∈ s.built ∧ ∀ x ∈ s.sent, x.1 ≠ t then
      let s := s.incNode t
      .ok { s with
        built := s.built.erase k, sent := s.sent ++ [(t, k)], todo := s.todo ++ [(t, .complete)]
        told := s.told ++ s.node.toList }
    else .no
  -- The thread reads from the kernel (gbinder_driver.c:584-590, 1284-1291)
  | .read t =>
    match pop t s.todo with
    | some (.node, l) => .ok ({ s with todo := l }.readNode t)
    | some (x, l) => .ok { s with todo := l, inbox := s.inbox ++ [(t, x)] }
    | none => .no
  | .readProc t => if s.proc then .ok ({ s with proc := false }.readNode t) else .no
  | .take t =>
    match pop t s.inbox with
    -- 665-679. Only context->bufs are kept (gbinder_local_object.c:602), there are no requests among those.
    | some (.acquire, l) =>
      let s := { s with inbox := l }
      .ok (if s.live then { s with tasks := s.tasks ++ [.acquire ((t, .reply) ∈ s.sent)] } else s.ack)
    -- 680-692. What's done after clearing the command queue (gbinder_driver.c:610-619, 409-416) is done at once.
    | some (.release, l) =>
      let s := { s with inbox := l }
      .ok (if s.live then { s with tasks := s.tasks ++ [.release] } else s)
    -- 798-802, 809-827, or 584-590
    | some (.complete, l) =>
      .ok { s with
        inbox := l, sent := s.sent.filter (·.1 ≠ t), waiting := s.waiting ++ (s.sent.filter (·.1 = t)).map (·.2) }
    | some (.node, _) => .no
    | none => .no
  -- The request is done with (gbinder_ipc.c:1706-1722), or the looper frees the reply and context->bufs
  -- (gbinder_driver.c:593-596, 409-416)
  | .finish k =>
    if k ∈ s.waiting then
      let s := { s with waiting := s.waiting.erase k }
      .ok (if k = .request then { s with tasks := s.tasks ++ [.done] } else s.settle)
    else .no
  -- The main thread
  | .run =>
    match s.tasks with
    -- gbinder_proxy_object.c:295-310, the kernel ignores BC_ACQUIRE if there's no such handle
    | .acquire kept :: l =>
      let s := { s with tasks := .acquired kept :: l, strong := s.strong + 1 }
      .ok (if s.dead = false ∧ s.dropped = false ∧ s.acquired = false then
          { s with acquired := true, acq := if s.node = none then s.acq else s.acq + 1 }
        else s)
    -- gbinder_local_object.c:341-353
    | .acquired _ :: l => .ok { s with tasks := l }.ack.settle
    -- gbinder_local_object.c:355-368
    | .release :: l => .ok { s with tasks := l, strong := s.strong - 1 }
    -- gbinder_ipc.c:1559-1573, gbinder_proxy_object.c:225-235. The proxy is unreferenced before the buffer.
    | .done :: l => .ok { s with tasks := l }.settle
    | [] => .no
  -- Other processes: one more reference (BC_ACQUIRE, or it's passed on), and one less
  | .more => if 0 < s.peers then .ok { s with peers := s.peers + 1 } else .no
  | .less => if 0 < s.peers then .ok { s with peers := s.peers - 1 }.unused.forget else .no
  -- BR_TRANSACTION is on its way
  | .call d =>
    if 0 < s.peers then .ok { s with localRefs := s.localRefs + 1, arriving := s.arriving ++ [d] } else .no
  -- gbinder_driver.c:532-547: if there's no data then the buffer is freed right away
  | .accept d =>
    if d ∈ s.arriving then
      let s := { s with arriving := s.arriving.erase d }
      .ok (if s.live then
          let s := { s with calls := s.calls ++ [d] }
          if d then s else { s with localRefs := s.localRefs - 1 }.unused
        else { s with localRefs := s.localRefs - 1 }.unused.forget)
    else .no
  -- gbinder_proxy_object.c:237-282, see `forwardsTo`
  | .handle d =>
    if d ∈ s.calls then .ok { s with calls := s.calls.erase d, served := s.served ++ [d] }.forget else .no
  -- gbinder_driver.c:594
  | .answered d =>
    if d ∈ s.served then
      let s := { s with served := s.served.erase d, leaving := s.leaving + 1 }
      .ok (if d then { s with localRefs := s.localRefs - 1 }.unused else s)
    else .no
  -- gbinder_driver.c:596
  | .leave => if 0 < s.leaving then .ok { s with leaving := s.leaving - 1 } else .no
  -- gbinder_remote_object.c:65-90, 138-161
  | .die => .ok { s with dead := true }
  -- gbinder_proxy_object.c:312-322
  | .drop => .ok { s with dropped := true }
  -- gbinder_proxy_object.c:359-386: the last reference is gone
  | .free =>
    if s.live = true ∧ s.refs = 0 then
      let s := { s with live := false }
      .ok (if s.acquired then { s with acquired := false, acq := s.acq - 1 }.settle else s)
    else .no

/-- gbinder_proxy_object.c:250-280: where the main thread sends what the proxy has been called with, when it
handles the call: to whatever the handle refers to. It's refused if the proxy is dropped or the
remote object is dead. -/
def State.forwardsTo (s : State) : Option (Option Nat) :=
  if s.dropped = false ∧ s.dead = false then some s.node else none

end Gb.Bridged
