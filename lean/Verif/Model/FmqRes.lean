import Verif.Model.FmqLayout
/-
src/gbinder_fmq.c: memory, mappings and file descriptors of fast message queues.

What the system calls return is arbitrary.
-/
set_option autoImplicit false

namespace Gb.FmqRes
open Fmq

/-- Pages which are mapped (gbinder_fmq.c:174-183). -/
structure Region where
  base : Nat
  pages : Nat
  deriving DecidableEq, Repr

/-- What is allocated (gbinder_fmq.c:136, 264, 295, 310, 328). -/
inductive What
  | self | fds | grantors | desc | counter
  deriving DecidableEq, Repr

/-- A pointer which isn't NULL: into shared memory, or the block which is allocated by gbinder_fmq.c:328. -/
inductive Ptr
  | shared (addr : Nat)
  | heap
  deriving DecidableEq, Repr

/-- gbinder_fmq.c:54-61 `GBinderFmq`; type is a field of the descriptor (313). -/
structure Queue where
  refs : Nat
  type : Nat
  parts : List Grantor
  readPtr : Option Ptr
  writePtr : Option Ptr
  ring : Option Ptr
  flag : Option Ptr
  deriving DecidableEq, Repr

/-- What's seen (gbinder_fmq.c:244-395). -/
inductive Ev
  | refused
  | failed
  | new (k : Nat)
  | ref (k : Nat)
  | unref (k : Nat)
  | freed (k : Nat)
  deriving DecidableEq, Repr

/-- The queues are numbered, their memory isn't reused (gbinder_fmq.c:54-61, 264). -/
structure State where
  n : Nat := 0
  live : Nat → Option Queue := fun _ => none
  /-- memory which has been allocated and hasn't been freed -/
  blocks : List (Nat × What) := []
  maps : List Region := []
  /-- file descriptors which have been created and haven't been closed -/
  fds : List Nat := []
  log : List Ev := []

/-- Adds to the log; no code in gbinder_fmq.c:244-395 corresponds to it. -/
def State.see (s : State) (e : Ev) : State := { s with log := s.log ++ [e] }

/-- g_slice_new0, g_malloc0, g_new0 (gbinder_fmq.c:136, 264, 295, 310, 328) -/
def State.alloc (s : State) (k : Nat) (w : What) : State := { s with blocks := (k, w) :: s.blocks }

/-- g_slice_free, g_free (gbinder_fmq.c:213, 225-228, 230) -/
def State.free (s : State) (k : Nat) (w : What) : Out State :=
  if (k, w) ∈ s.blocks then .ok { s with blocks := s.blocks.erase (k, w) } else .ub

/-- The arguments of gbinder_fmq_new (gbinder_fmq.c:245-251). `buffer` is the size of the buffer if there's one, i.e. if fd isn't -1. -/
structure Args where
  itemSize : Nat
  numItems : Nat
  /-- GBINDER_FMQ_TYPE_SYNC_READ_WRITE is 1, GBINDER_FMQ_TYPE_UNSYNC_WRITE is 2 (include/gbinder_fmq.h) -/
  type : Nat
  eventFlag : Bool
  noReset : Bool
  buffer : Option Nat
  deriving DecidableEq, Repr

/-- What the system returns (gbinder_fmq.c:178, 289, 291): a file descriptor from memfd_create, whether ftruncate has
succeeded, and the addresses from mmap. -/
structure Sys where
  memfd : Option Nat
  truncated : Bool
  mmap : Nat → Option Nat

/-- The number of pages (mmap and munmap work with whole pages, gbinder_fmq.c:178, 202). -/
def pages (page len : Nat) : Nat := (len + page - 1) / page

/-- gbinder_fmq.c:165-188 `gbinder_fmq_map_grantor_descriptor`. mmap doesn't map nothing. -/
def State.map (page : Nat) (s : State) (parts : List Grantor) (i : Nat) (r : Option Nat) : State × Option Ptr :=
  match parts[i]?, r with
  | some g, some base =>
    let m := mapping page g
    if m.length = 0 then (s, none)
    else ({ s with maps := ⟨base, pages page m.length⟩ :: s.maps }, some (.shared (base + m.at_)))
  | _, _ => (s, none)

/-- gbinder_fmq.c:190-204 `gbinder_fmq_unmap_grantor_descriptor`. It's an error to unmap what's not mapped, or more than that. -/
def State.unmap (page : Nat) (s : State) (parts : List Grantor) (i : Nat) : Option Ptr → Out State
  | none => .ok s
  | some p =>
    match parts[i]? with
    | none => .ok s
    | some g =>
      match p with
      | .heap => .ub
      | .shared addr =>
        let rem := g.offset % page
        let r : Region := ⟨addr - rem, pages page (rem + g.extent)⟩
        if r ∈ s.maps then .ok { s with maps := s.maps.erase r } else .ub

/-- gbinder_fmq.c:328 the read pointer: the one in the shared memory, or the one which isn't shared. -/
def State.counter (page : Nat) (s : State) (k type : Nat) (parts : List Grantor) (sys : Sys) : State × Option Ptr :=
  if type = 1 then s.map page parts 0 (sys.mmap 0) else (s.alloc k .counter, some .heap)

/-- gbinder_fmq.c:341-347: are the pointers written to, although one of them is NULL? -/
def crashes (a : Args) (rp wp : Option Ptr) : Bool :=
  if !a.noReset then rp.isNone || wp.isNone else a.type ≠ 1 && rp.isNone

/-- gbinder_fmq.c:264-371, the arguments are all right: `gbinder_fmq_new` -/
def create (page : Nat) (s : State) (a : Args) (c : Cfg) (sys : Sys) : Out State :=
  let k := s.n
  let s := { s.alloc k .self with n := k + 1 }
  match sys.memfd with
  | none => (s.free k .self).andThen fun s => .ok (s.see .failed)
  | some fd =>
    let s := { s with fds := fd :: s.fds }
    if sys.truncated then
      let parts := grantors c.size a.buffer.isNone a.eventFlag
      let s := ((s.alloc k .fds).alloc k .grantors).alloc k .desc
      let (s, rp) := s.counter page k a.type parts sys
      let (s, wp) := s.map page parts 1 (sys.mmap 1)
      if crashes a rp wp then .ub
      else
        let (s, ring) := s.map page parts 2 (sys.mmap 2)
        let (s, flag) := s.map page parts 3 (sys.mmap 3)
        .ok (State.see { s with live := upd s.live k (some ⟨1, a.type, parts, rp, wp, ring, flag⟩) } (.new k))
    else (s.free k .self).andThen fun s => .ok (s.see .failed)

/-- gbinder_fmq.c:212-219: the read pointer is freed or unmapped. -/
def State.dropCounter (page : Nat) (s : State) (k : Nat) (q : Queue) : Out State :=
  if q.type = 2 then
    match q.readPtr with
    | none => .ok s
    | some .heap => s.free k .counter
    | some (.shared _) => .ub
  else s.unmap page q.parts 0 q.readPtr

/-- gbinder_fmq.c:206-231 `gbinder_fmq_free` of a queue which has the descriptor -/
def destroy (page : Nat) (s : State) (k : Nat) (q : Queue) : Out State :=
  (s.dropCounter page k q).andThen fun s =>
  (s.unmap page q.parts 1 q.writePtr).andThen fun s =>
  (s.unmap page q.parts 2 q.ring).andThen fun s =>
  (s.unmap page q.parts 3 q.flag).andThen fun s =>
  (s.free k .grantors).andThen fun s =>
  (s.free k .fds).andThen fun s =>
  (s.free k .desc).andThen fun s =>
  (s.free k .self).andThen fun s =>
  .ok (State.see { s with live := upd s.live k none } (.freed k))

/-- gbinder_fmq.c:244-395: what happens next, see `step`. -/
inductive Label
  | new (a : Args) (sys : Sys)
  | ref (k : Nat)
  | unref (k : Nat)

/-- gbinder_fmq.c:244-395, each step has its own lines below. Those who call gbinder_fmq_ref and gbinder_fmq_unref have a reference. -/
def step (page : Nat) (s : State) : Label → Out State
  /- gbinder_fmq.c:253-265, 371 -/
  | .new a sys =>
    match config a.itemSize a.numItems (a.type = 1) a.buffer with
    | none => .ok (s.see .refused)
    | some c => create page s a c sys
  /- gbinder_fmq.c:374-383 `gbinder_fmq_ref` -/
  | .ref k =>
    match s.live k with
    | none => .no
    | some q => .ok (State.see { s with live := upd s.live k (some { q with refs := q.refs + 1 }) } (.ref k))
  /- gbinder_fmq.c:385-395 `gbinder_fmq_unref` -/
  | .unref k =>
    match s.live k with
    | none => .no
    | some q =>
      if q.refs = 1 then destroy page (s.see (.unref k)) k q
      else .ok (State.see { s with live := upd s.live k (some { q with refs := q.refs - 1 }) } (.unref k))

end Gb.FmqRes
