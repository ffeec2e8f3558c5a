import Verif.Basic.Lts
/-
Incoming one-way transactions: src/gbinder_driver.c, src/gbinder_ipc.c, src/gbinder_remote_request.c, src/gbinder_buffer.c, and the
kernel, which doesn't deliver the next one-way transaction to the same object before the buffer of the previous one has been
freed (binder_proc_transaction and binder_free_buf of drivers/android/binder.c, not in /repo).

There are any number of loopers and any number of objects. Transactions are numbered in the order in which the kernel gets
them. See Verif/Model/LooperTx.lean for how a looper and the main thread cooperate, and Verif/Model/Buffers.lean for the references
to the received buffers; they are those who refer, here.
-/
set_option autoImplicit false

namespace Gb.Oneway

/-- Where the transaction is, for the kernel (gbinder_driver.c:1156-1178 is the last change). -/
inductive Kern
  /-- it hasn't been sent yet -/
  | unsent
  /-- async_todo of the node: it has to wait -/
  | waiting
  /-- any looper may get it -/
  | queued
  /-- BR_TRANSACTION has been read by a looper -/
  | delivered
  /-- BC_FREE_BUFFER has been received -/
  | freed
  deriving DecidableEq, Repr

/-- What has become of it: gbinder_driver.c:549-572, gbinder_ipc.c:132-139, 477-552, 650-767. -/
inductive Work
  /-- nothing yet -/
  | none
  /-- gbinder_driver.c:568-571, gbinder_ipc.c:664-668 -/
  | refused
  /-- the main thread is going to handle it (gbinder_ipc.c:675-677) -/
  | scheduled
  /-- the handler is running, on the looper's own thread if `own` -/
  | running (own : Bool)
  /-- GBINDER_IPC_LOOPER_TX_BLOCKED -/
  | blocked
  /-- it has been handled -/
  | ended
  /-- the callback has been destroyed (gbinder_ipc.c:745) -/
  | cancelled
  deriving DecidableEq, Repr

/-- The transaction (gbinder_io.h GBinderIoTxData), its GBinderRemoteRequest and its GBinderIpcLooperTx
(gbinder_ipc.c:141-154). -/
structure Tx where
  node : Nat := 0
  /-- there's no data: tx.size is zero -/
  empty : Bool := false
  kern : Kern := .unsent
  work : Work := .none
  /-- `req` of gbinder_driver_handle_transaction (gbinder_driver.c:532) -/
  looper : Bool := false
  /-- `req` of GBinderIpcLooperTx (gbinder_ipc.c:149) -/
  tx : Bool := false
  /-- references to the request which belong to the application (gbinder_remote_request_ref) -/
  held : Nat := 0
  /-- other references to the buffer: context->bufs (gbinder_driver.c:542), those of GBinderBuffer
  (gbinder_buffer.c:157-174) and of objects being acquired (gbinder_local_object.c:580-640) -/
  parts : Nat := 0
  deriving DecidableEq, Repr

/-- The request exists (gbinder_remote_request.c:196-221: its reference count isn't zero). -/
def Tx.alive (t : Tx) : Bool := t.looper || t.tx || decide (0 < t.held)

/-- What is seen by those who have sent the transaction, and by the application (gbinder_local_object.c:532-567). -/
inductive Ev
  /-- the handler has been called for the transaction to this object -/
  | started (i node : Nat)
  /-- it has returned or, if the request has been blocked, it has been completed -/
  | ended (i : Nat)
  deriving DecidableEq, Repr

/-- The kernel (`sent`, `busy`, `async`), the transactions and what has been seen (gbinder_driver.c:515-597). -/
structure State where
  sent : Nat := 0
  /-- has_async_transaction of a node -/
  busy : Nat → Bool := fun _ => false
  /-- async_todo of a node -/
  async : Nat → List Nat := fun _ => []
  tx : Nat → Tx := fun _ => {}
  log : List Ev := []

/-- Changes of one transaction (gbinder_driver.c:515-597 etc.). -/
def State.put (s : State) (i : Nat) (t : Tx) : State := { s with tx := upd s.tx i t }

/-- BC_FREE_BUFFER (gbinder_driver.c:1156-1178), in the kernel: the next one to the same object is queued. -/
def State.free (s : State) (i : Nat) : State :=
  let n := (s.tx i).node
  let s := s.put i { s.tx i with kern := .freed }
  match s.async n with
  | [] => { s with busy := upd s.busy n false }
  | j :: r => { s.put j { s.tx j with kern := .queued } with async := upd s.async n r }

/-- A reference is gone. gbinder_remote_request.c:121-138: the request which is blocked is completed when it's freed.
gbinder_buffer.c:77-90: BC_FREE_BUFFER when nothing refers to the buffer. -/
def State.settle (s : State) (i : Nat) : State :=
  let t := s.tx i
  if t.alive then s
  else
    let s := if t.work = .blocked then { s.put i { t with work := .ended } with log := s.log ++ [.ended i] } else s
    if t.parts = 0 ∧ t.kern = .delivered then s.free i else s

/-- What may happen. -/
inductive Label
  /-- someone sends a one-way transaction to the object -/
  | send (node : Nat) (empty : Bool)
  /-- a looper gets it -/
  | take (i : Nat)
  /-- the object handles it on the looper's thread -/
  | direct (i : Nat)
  /-- it's passed to the main thread -/
  | schedule (i : Nat)
  /-- it's not supported -/
  | refuse (i : Nat)
  /-- the main thread handles it -/
  | begin (i : Nat)
  /-- the handler returns -/
  | ret (i : Nat)
  /-- the handler returns after gbinder_remote_request_block -/
  | block (i : Nat)
  /-- gbinder_remote_request_complete -/
  | complete (i : Nat)
  /-- GBinderIpcLooperTx is freed -/
  | fin (i : Nat)
  /-- the looper doesn't wait anymore (maybe because it has to exit) -/
  | leave (i : Nat)
  /-- the callback is destroyed before it has been called -/
  | cancel (i : Nat)
  /-- gbinder_remote_request_ref and gbinder_remote_request_unref -/
  | hold (i : Nat)
  | drop (i : Nat)
  /-- other references to the buffer -/
  | holdPart (i : Nat)
  | dropPart (i : Nat)
  deriving DecidableEq, Repr

/-- One step, each has its lines below (gbinder_driver.c:515-597, gbinder_ipc.c:477-766). -/
def step (s : State) : Label → Out State
  -- the kernel
  | .send n e =>
    let t : Tx := { node := n, empty := e }
    .ok (if s.busy n then
        { s.put s.sent { t with kern := .waiting } with sent := s.sent + 1, async := upd s.async n (s.async n ++ [s.sent]) }
      else { s.put s.sent { t with kern := .queued } with sent := s.sent + 1, busy := upd s.busy n true })
  -- gbinder_driver.c:530-547: what's empty is freed at once
  | .take i =>
    let t := s.tx i
    if t.kern = .queued then
      let s := s.put i { t with kern := .delivered, looper := true }
      .ok (if t.empty then s.free i else s)
    else .no
  -- gbinder_driver.c:552-555
  | .direct i =>
    let t := s.tx i
    if t.looper ∧ t.work = .none then
      .ok { s.put i { t with work := .running true } with log := s.log ++ [.started i t.node] }
    else .no
  -- gbinder_driver.c:556-567, gbinder_ipc.c:668-677
  | .schedule i =>
    let t := s.tx i
    if t.looper ∧ t.work = .none then .ok (s.put i { t with work := .scheduled, tx := true }) else .no
  -- gbinder_driver.c:568-571, gbinder_ipc.c:664-668
  | .refuse i =>
    let t := s.tx i
    if t.looper ∧ t.work = .none then .ok (s.put i { t with work := .refused }) else .no
  -- gbinder_ipc.c:477-500
  | .begin i =>
    let t := s.tx i
    if t.work = .scheduled then
      if t.tx then .ok { s.put i { t with work := .running false } with log := s.log ++ [.started i t.node] } else .ub
    else .no
  -- gbinder_ipc.c:504-514, gbinder_driver.c:553
  | .ret i =>
    let t := s.tx i
    match t.work with
    | .running _ => .ok { s.put i { t with work := .ended } with log := s.log ++ [.ended i] }
    | _ => .no
  -- gbinder_ipc.c:515-518, 527-539
  | .block i =>
    let t := s.tx i
    if t.work = .running false then .ok ((s.put i { t with work := .blocked, tx := false }).settle i) else .no
  -- gbinder_ipc.c:389-429
  | .complete i =>
    let t := s.tx i
    if t.work = .blocked ∧ 0 < t.held then
      .ok { s.put i { t with work := .ended } with log := s.log ++ [.ended i] }
    else .no
  -- gbinder_ipc.c:301-342, 554-560, 735
  | .fin i =>
    let t := s.tx i
    if t.work = .ended ∧ t.tx then .ok ((s.put i { t with tx := false }).settle i) else .no
  -- gbinder_ipc.c:679-743, gbinder_driver.c:594; the list of contents in the context remains (gbinder_driver.c:410-416, 542)
  | .leave i =>
    let t := s.tx i
    if t.looper ∧ t.work ≠ .none ∧ t.work ≠ .running true then
      .ok ((s.put i { t with looper := false, parts := t.parts + 1 }).settle i)
    else .no
  -- gbinder_ipc.c:745
  | .cancel i =>
    let t := s.tx i
    if t.work = .scheduled then .ok ((s.put i { t with work := .cancelled, tx := false }).settle i) else .no
  | .hold i =>
    let t := s.tx i
    if t.alive then .ok (s.put i { t with held := t.held + 1 }) else .no
  | .drop i =>
    let t := s.tx i
    if 0 < t.held then .ok ((s.put i { t with held := t.held - 1 }).settle i) else .no
  | .holdPart i =>
    let t := s.tx i
    if t.alive ∨ 0 < t.parts then .ok (s.put i { t with parts := t.parts + 1 }) else .no
  | .dropPart i =>
    let t := s.tx i
    if 0 < t.parts then .ok ((s.put i { t with parts := t.parts - 1 }).settle i) else .no

end Gb.Oneway
