import Verif.Basic.Lts
/-
src/gbinder_driver.c: calls which are made while others are being handled. A thread which waits for a reply handles incoming
transactions meanwhile, so gbinder_driver_transact and gbinder_driver_handle_transaction are nested to any depth.

The kernel (drivers/android/binder.c of Linux) is a part of the model: a call which is made by a thread while it's handling another
one belongs to the same chain of calls, only the last call of a chain is being handled, and the kernel passes a call to a thread which
waits for another call of the same chain rather than to an idle one. There's any number of chains. Threads are numbered.
-/
set_option autoImplicit false

namespace Gb.Nested

/-- What a thread of the process is doing, see `State.frames`. -/
inductive Frame
  /-- gbinder_driver_transact waits for the reply (gbinder_driver.c:1284-1291, `reply` isn't NULL) -/
  | call (i : Nat)
  /-- gbinder_driver_transact waits until a one-way transaction is handled (gbinder_driver.c:1284-1291, `reply` is NULL) -/
  | oneway
  /-- the object is handling the transaction (gbinder_driver.c:549-572) -/
  | handle (i : Nat)
  /-- gbinder_driver_handle_transaction waits until its reply is handled (gbinder_driver.c:584-590) -/
  | replied
  deriving DecidableEq, Repr

/-- What the kernel has for a thread (the commands which are handled at gbinder_driver.c:797-849): BR_TRANSACTION_COMPLETE,
BR_TRANSACTION, BR_REPLY, and BR_DEAD_REPLY or BR_FAILED_REPLY. It's known which call that is about, but the thread isn't told. -/
inductive Work
  | complete
  | transaction (i : Nat)
  | reply (i : Nat)
  | error (i : Option Nat)
  deriving DecidableEq, Repr

/-- A call which hasn't been replied to (struct binder_transaction in Linux; gbinder_driver.c:1226-1313 is waiting for it). There's no
thread `to` while it's waiting for an idle one. -/
structure Tx where
  id : Nat
  src : Nat
  to : Option Nat := none
  deriving DecidableEq, Repr

/-- What happens (gbinder_driver.c:574-590, 797-849, 1284-1291). -/
inductive Ev
  /-- the thread makes the call (gbinder_driver.c:1226) -/
  | made (t i : Nat)
  /-- the object has replied to the call (gbinder_driver.c:576-582) -/
  | answered (i : Nat)
  /-- the thread `t` takes the reply to the call `i` for the reply to the call `k` (gbinder_driver.c:809-846) -/
  | result (t k i : Nat)
  /-- the thread `t` is told that the call `i` (if it's about one) has failed, and takes it for the call `k` (gbinder_driver.c:803-808) -/
  | failed (t k : Nat) (i : Option Nat)
  /-- the reply to the call (or the error) is dropped (gbinder_driver.c:803-846 with no `reply`, gbinder_driver.c:725-728) -/
  | lost (t i : Nat)
  deriving DecidableEq, Repr

/-- Threads, what the kernel has for them, and the chains of calls (the last call of a chain is the first in the list).
gbinder_driver.c:517-597, 776-854, 1226-1313. -/
structure State where
  next : Nat := 0
  dead : Nat → Bool := fun _ => false
  /-- What the thread is doing, the innermost first. -/
  frames : Nat → List Frame := fun _ => []
  todo : Nat → List Work := fun _ => []
  chain : Nat → List Tx := fun _ => []
  log : List Ev := []

/-- gbinder_driver.c:776-854 `gbinder_driver_txstatus` and (if the thread isn't waiting for anything) gbinder_driver.c:754-772
`gbinder_driver_handle_commands`: what the thread `t` does about one command, and what's observed. -/
def react (t : Nat) : List Frame → Work → List Frame × List Ev
  -- gbinder_driver.c:798-802, `reply` is NULL
  | .oneway :: fs, .complete => (fs, [])
  | .replied :: fs, .complete => (fs, [])
  -- gbinder_driver.c:798-802, `reply` isn't NULL; gbinder_driver.c:725-728
  | fs, .complete => (fs, [])
  -- gbinder_driver.c:847-849, 517
  | fs, .transaction i => (.handle i :: fs, [])
  -- gbinder_driver.c:809-846
  | .call k :: fs, .reply i => (fs, [.result t k i])
  | .oneway :: fs, .reply i => (fs, [.lost t i])
  | .replied :: fs, .reply i => (fs, [.lost t i])
  | fs, .reply i => (fs, [.lost t i])
  -- gbinder_driver.c:803-808
  | .call k :: fs, .error i => (fs, [.failed t k i])
  | .oneway :: fs, .error i => (fs, (i.map (Ev.lost t)).toList)
  | .replied :: fs, .error i => (fs, (i.map (Ev.lost t)).toList)
  | fs, .error i => (fs, (i.map (Ev.lost t)).toList)

/-- What may happen next (see `step`, gbinder_driver.c:517-597, 776-854, 1226-1313). -/
inductive Label
  | call (t h : Nat)
  | callTo (t h u : Nat)
  | callFails (t : Nat)
  | oneway (t : Nat)
  | onewayFails (t : Nat)
  | pick (u h : Nat)
  | read (t : Nat)
  | reply (t h : Nat) (ok : Bool)
  | die (t : Nat)
  | reap (h : Nat)
  deriving DecidableEq, Repr

/-- The last call is over because of an error (binder_send_failed_reply in Linux): the one who is told, and the rest of the chain. If
the thread which has made the call is gone, those who have called that thread are told instead. What they do about it is
gbinder_driver.c:803-808. -/
def unwind (dead : Nat → Bool) : List Tx → List Tx × Option (Nat × Nat)
  | [] => ([], none)
  | x :: c => if dead x.src then unwind dead c else (c, some (x.src, x.id))

/-- The kernel has got something for the thread (which is going to see that at gbinder_driver.c:1285 or 588). -/
def State.post (s : State) (t : Nat) (w : Work) : State := { s with todo := upd s.todo t (s.todo t ++ [w]) }

/-- The thread starts doing something (gbinder_driver.c:517, 584, 1226). -/
def State.push (s : State) (t : Nat) (f : Frame) : State := { s with frames := upd s.frames t (f :: s.frames t) }

/-- The thread isn't waiting for anything, and may call: it's handling the last call of the chain (gbinder_driver.c:549-572), or it
isn't doing anything, and the chain is a new one (gbinder_driver.c:1226). -/
def State.mayCall (s : State) (t h : Nat) : Bool :=
  !s.dead t && match s.frames t, s.chain h with
    | .handle i :: _, x :: _ => x.to == some t && x.id == i
    | [], [] => (s.todo t).isEmpty
    | _, _ => false

/-- The same, no matter which chain that is (gbinder_driver.c:549-572, 1226). -/
def State.free (s : State) (t : Nat) : Bool :=
  !s.dead t && match s.frames t with
    | .handle _ :: _ => true
    | [] => (s.todo t).isEmpty
    | _ => false

/-- The error is passed on to whoever is concerned, see `unwind` (gbinder_driver.c:803-808). -/
def State.abort (s : State) (h : Nat) : State :=
  match unwind s.dead (s.chain h) with
  | (c, none) => { s with chain := upd s.chain h c }
  | (c, some (u, i)) => ({ s with chain := upd s.chain h c }).post u (.error (some i))

/-- One step. What the kernel does is simplified: it has no other commands for threads which wait, and BR_FROZEN_REPLY is left out
(see C72). gbinder_driver.c:517-597, 776-854, 1226-1313. -/
def step (s : State) : Label → Out State
  -- gbinder_driver.c:1284-1291: BC_TRANSACTION, the call waits for an idle thread
  | .call t h =>
    if s.mayCall t h then
      .ok (({ s with
        next := s.next + 1, chain := upd s.chain h (⟨s.next, t, none⟩ :: s.chain h)
        log := s.log ++ [Ev.made t s.next] }.push t (.call s.next)).post t .complete)
    else .no
  -- the same, the call is for a thread which waits for another call of the chain
  | .callTo t h u =>
    if s.mayCall t h ∧ u ≠ t ∧ s.dead u = false ∧ u ∈ (s.chain h).map (·.src) then
      .ok ((({ s with
        next := s.next + 1, chain := upd s.chain h (⟨s.next, t, some u⟩ :: s.chain h)
        log := s.log ++ [Ev.made t s.next] }.push t (.call s.next)).post t .complete).post u (.transaction s.next))
    else .no
  -- the same, there's nobody to call (or there's no space for the transaction)
  | .callFails t =>
    if s.free t then
      .ok (({ s with next := s.next + 1, log := s.log ++ [Ev.made t s.next] }.push t (.call s.next)).post t (.error (some s.next)))
    else .no
  -- gbinder_driver.c:1284-1291 with no `reply`
  | .oneway t => if s.free t then .ok ((s.push t .oneway).post t .complete) else .no
  | .onewayFails t => if s.free t then .ok ((s.push t .oneway).post t (.error none)) else .no
  -- an idle thread gets BR_TRANSACTION
  | .pick u h =>
    if s.dead u = false ∧ s.frames u = [] ∧ s.todo u = [] then
      match s.chain h with
      | [] => .no
      | x :: c =>
        if x.to = none then
          .ok ({ s with chain := upd s.chain h ({ x with to := some u } :: c) }.post u (.transaction x.id))
        else .no
    else .no
  -- gbinder_driver.c:787-850, 754-772: the next command
  | .read t =>
    match s.todo t with
    | [] => .no
    | w :: ws =>
      if s.dead t then .no else
        match s.frames t with
        | .handle _ :: _ => .no
        | fs =>
          .ok { s with
            todo := upd s.todo t ws
            frames := upd s.frames t (react t fs w).1
            log := s.log ++ (react t fs w).2 }
  -- gbinder_driver.c:574-590: BC_REPLY. It may fail, and the one who has called may be gone.
  | .reply t h ok =>
    if s.dead t then .no else
      match s.frames t, s.chain h with
      | .handle i :: fs, x :: c =>
        if x.to = some t ∧ x.id = i then
          let s' := { s with frames := upd s.frames t (.replied :: fs) }.post t .complete
          if ok && !s.dead x.src then
            .ok ({ s' with chain := upd s.chain h c, log := s.log ++ [Ev.answered i] }.post x.src (.reply i))
          else .ok (s'.abort h)
        else .no
      | _, _ => .no
  -- the thread (or its process) is gone
  | .die t => .ok { s with dead := upd s.dead t true, frames := upd s.frames t [], todo := upd s.todo t [] }
  -- the kernel notices that whoever was handling (or going to handle) the last call of a chain is gone
  | .reap h =>
    match s.chain h with
    | [] => .no
    | x :: _ =>
      match x.to with
      | none => .ok (s.abort h)
      | some t => if s.dead t then .ok (s.abort h) else .no

end Gb.Nested
