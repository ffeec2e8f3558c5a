import Verif.Basic.Lts
import Verif.Model.WriterOps
/-
What has to be released together with a parcel: src/gbinder_cleanup.c and its users.

Requests and replies being built (GBinderLocalRequest and GBinderLocalReply) are called parcels
here and are numbered in the order of creation. A step is a call or one callback of
gbinder_cleanup_free or gbinder_cleanup_reset, so that anything may happen between the callbacks,
including calls made by them. Memory and descriptors are shared by the parcels and the application;
the numbers of those which have been released are used again.
-/
set_option autoImplicit false

namespace Gb

/-- gbinder_writer.c:650-677: the descriptor returned by fcntl. -/
def WOp.dup : WOp → List Nat
  | .fd _ (some d) => [d]
  | _ => []

/-- The callback and its argument passed to gbinder_writer_add_cleanup (gbinder_writer.c:1381-1394)
or gbinder_local_request_cleanup (gbinder_local_request.c:198-211), the call is ignored if there's no
callback. -/
def WOp.callback : WOp → List CleanupItem
  | .addCleanup 0 _ => []
  | .addCleanup (f + 1) p => [.user (f + 1) p]
  | _ => []

namespace Parcels

/-- What may be owned: memory (gbinder_writer.c:1321-1338) and descriptors (gbinder_writer.c:638-677). -/
inductive Kind
  | mem
  | fd
  deriving DecidableEq, Repr

/-- What's observed. `none` is the application
(gbinder_cleanup.c:51-106, gbinder_writer.c:638-677, 1321-1394). -/
inductive Ev
  /-- g_malloc has returned the address, fcntl or open has returned the descriptor -/
  | get (k : Kind) (p : Option Nat) (a : Nat)
  /-- g_free, close -/
  | put (k : Kind) (p : Option Nat) (a : Nat)
  /-- There's something to do when the parcel is gone: a callback has been passed in or a reference
  taken. There's no parcel if it's NULL. -/
  | reg (p : Option Nat) (c : CleanupItem)
  /-- It's done. -/
  | ran (p : Option Nat) (c : CleanupItem)
  /-- The last reference has been dropped, or the contents is about to be replaced. -/
  | ending (p : Nat)
  /-- The parcel has been freed, or its old contents is gone. -/
  | done (p : Nat)
  deriving DecidableEq, Repr

/-- Where the loop of g_array_set_size or g_array_free is, if any
(gbinder_cleanup.c:71-87, `clear_func` of GArray). -/
inductive Phase
  | idle
  /-- g_array_set_size(0): the next one, and how many there were in the beginning -/
  | resetting (i n : Nat)
  /-- g_array_free: the next one -/
  | freeing (i : Nat)
  deriving DecidableEq, Repr

/-- gbinder_local_request.c:41-44, gbinder_local_reply.c:42-47. Memory of the writer isn't used.
GBinderLocalReply's `contents` is left out (see `Buffers`). -/
structure Parcel where
  refs : Nat
  w : Writer
  phase : Phase := .idle

/-- Parcels (gbinder_local_request.c:41-44, gbinder_local_reply.c:42-47), the heap and the descriptors
of the process. -/
structure State where
  /-- The number of parcels created so far. -/
  no : Nat := 0
  parcel : Nat → Option Parcel := fun _ => none
  mem : Mem := []
  fds : List Nat := []
  log : List Ev := []

/-- Stores to the fields of a parcel (gbinder_local_request.c:155-195 etc.). -/
def State.set (s : State) (p : Nat) (x : Option Parcel) : State := { s with parcel := upd s.parcel p x }

/-- Events are observed (no code of its own, gbinder_cleanup.c). -/
def State.see (s : State) (l : List Ev) : State := { s with log := s.log ++ l }

/-- g_free (called at gbinder_cleanup.c:58, registered at gbinder_writer.c:1321-1338). Undefined if
there is no such block. -/
def State.free (s : State) (who : Option Nat) (a : Nat) : Out State :=
  if a = 0 then .ok s
  else if a ∈ s.mem.map (·.1) then
    .ok ({ s with mem := s.mem.eraseP (·.1 == a) }.see [.put .mem who a])
  else .ub

/-- gbinder_writer.c:638-648 `gbinder_writer_data_close_fd`. Closing what isn't open (and could be opened by
somebody else in the meantime) is treated as undefined behaviour. -/
def State.close (s : State) (who : Option Nat) (d : Nat) : Out State :=
  if d ∈ s.fds then .ok ({ s with fds := s.fds.erase d }.see [.put .fd who d]) else .ub

/-- gbinder_cleanup.c:51-59 `gbinder_cleanup_destroy_func` -/
def State.destroy (s : State) (p : Nat) : CleanupItem → Out State
  | .free a => s.free (some p) a
  | .closeFd d => s.close (some p) d
  | c => .ok (s.see [.ran (some p) c])

/-- gbinder_writer.c:117-134: the reference to the local object which the converter has returned for the
handle at the offset, if any. -/
def refOf (src : RxBuffer) (convert : Option (Nat → Option LocalRef)) (o : Nat) : Option CleanupItem :=
  match convert with
  | none => none
  | some f =>
    match Writer.decodeBinderHandle src.data o with
    | .ok (some h) => (f h).map fun x => .unrefLocal x.addr
    | _ => none

/-- gbinder_writer.c:104-134: the references taken by gbinder_writer_data_append_contents: that to the
buffer, and those to the local objects which the converter has returned. -/
def refsOf (src : RxBuffer) (convert : Option (Nat → Option LocalRef)) : List CleanupItem :=
  .unrefBuffer src.id :: src.objects.filterMap (refOf src convert)

/-- What's been allocated (gbinder_writer.c:1321-1379): those in front of the `n` old blocks. -/
def newBlocks (m : Mem) (n : Nat) : List Nat := (m.take (m.length - n)).map (·.1)

/-- Steps, with the lines below (gbinder_cleanup.c:61-106, gbinder_local_request.c:74-211,
gbinder_local_reply.c:70-179, gbinder_writer.c:76-161, 638-677, 1321-1394). -/
inductive Label
  /-- gbinder_local_request_new, gbinder_local_reply_new -/
  | new (io : Io) (proto : Protocol)
  | ref (p : Nat)
  | unref (p : Nat)
  /-- Any function of the writer, gbinder_local_request_cleanup or gbinder_local_reply_cleanup. -/
  | op (p : Nat) (o : WOp)
  /-- gbinder_writer_data_append_contents -/
  | contents (p : Nat) (src : RxBuffer) (off : Nat) (convert : Option (Nat → Option LocalRef))
  /-- gbinder_writer_data_set_contents begins, it goes on with `run` and `contents`. -/
  | reset (p : Nat)
  /-- The next callback, or the end of the loop. -/
  | run (p : Nat)
  /-- gbinder_local_request_cleanup with NULL -/
  | requestNull (f x : Nat)
  /-- gbinder_writer_add_cleanup with NULL -/
  | writerNull (f x : Nat)
  /-- The application allocates and frees memory, opens and closes files. -/
  | alloc (d : Bytes)
  | free (a : Nat)
  | opens (d : Nat)
  | close (d : Nat)

/-- One step. A parcel without references mustn't be used by anyone
(gbinder_cleanup.c:61-106 etc., the lines are given with each label). -/
def step (e : Env) (s : State) : Label → Out State
  -- gbinder_local_request.c:74-109, gbinder_local_reply.c:73-98
  | .new io proto => .ok (({ s with no := s.no + 1 } : State).set s.no (some { refs := 1, w := { io := io, protocol := proto } }))
  -- gbinder_local_request.c:168-177, gbinder_local_reply.c:129-138
  | .ref p =>
    match s.parcel p with
    | none => .ub
    | some x => if x.refs = 0 then .ub else .ok (s.set p (some { x with refs := x.refs + 1 }))
  -- gbinder_local_request.c:155-166, 179-189, gbinder_local_reply.c:115-127, 140-150
  | .unref p =>
    match s.parcel p with
    | none => .ub
    | some x =>
      match x.refs with
      | 0 => .ub
      | 1 =>
        match x.phase with
        | .idle => .ok ((s.set p (some { x with refs := 0, phase := .freeing 0 })).see [.ending p])
        -- the array is freed in the middle of g_array_set_size
        | _ => .ub
      | n + 2 => .ok (s.set p (some { x with refs := n + 1 }))
  -- gbinder_writer.c:232-1394
  | .op p o =>
    match s.parcel p with
    | none => .ub
    | some x =>
      if x.refs = 0 then .ub
      else match o with
        | .memory _ => .no
        | o =>
          -- fcntl returns what isn't in use
          if o.dup.any (fun d => d ∈ s.fds) then .no
          else match o.run e { x.w with mem := s.mem } with
            | .error _ => .ub
            | .ok w => .ok (({ s with mem := w.mem, fds := o.dup ++ s.fds } : State).set p
                (some { x with w := { w with mem := [] } }) |>.see
                ((newBlocks w.mem s.mem.length).map (.get .mem (some p)) ++
                  o.dup.map (.get .fd (some p)) ++ o.callback.map (.reg (some p))))
  -- gbinder_writer.c:89-161
  | .contents p src off convert =>
    match s.parcel p with
    | none => .ub
    | some x =>
      if x.refs = 0 then .ub
      else match x.w.appendContents e src off convert with
        | .error _ => .ub
        | .ok w => .ok ((s.set p (some { x with w := w })).see ((refsOf src convert).map (.reg (some p))))
  -- gbinder_writer.c:76-87, gbinder_cleanup.c:71-78
  | .reset p =>
    match s.parcel p with
    | none => .ub
    | some x =>
      match x.refs, x.phase with
      | _ + 1, .idle => .ok ((s.set p (some { x with
          w := { x.w with bytes := [], offsets := [], buffersSize := 0 }
          phase := .resetting 0 x.w.cleanup.length })).see [.ending p])
      -- the nested call runs the same callbacks again
      | _, _ => .ub
  -- gbinder_cleanup.c:71-87
  | .run p =>
    match s.parcel p with
    | none => .no
    | some x =>
      match x.phase with
      | .idle => .no
      | .resetting i n =>
        if i < n then
          match x.w.cleanup[i]? with
          | none => .ub
          | some c => (s.set p (some { x with phase := .resetting (i + 1) n })).destroy p c
        else .ok ((s.set p (some { x with
            w := { x.w with cleanup := x.w.cleanup.drop n }, phase := .idle })).see [.done p])
      | .freeing i =>
        match x.w.cleanup[i]? with
        | some c => (s.set p (some { x with phase := .freeing (i + 1) })).destroy p c
        | none => .ok ((s.set p none).see [.done p])
  -- gbinder_local_request.c:198-211, gbinder_local_reply.c:166-179
  | .requestNull f x =>
    if f = 0 then .ok s else .ok (s.see [.reg none (.user f x), .ran none (.user f x)])
  -- gbinder_writer.c:1381-1394
  | .writerNull f x => if f = 0 then .ok s else .ok (s.see [.reg none (.user f x)])
  | .alloc d =>
    .ok ({ s with mem := (e.alloc s.mem d.length, d) :: s.mem }.see [.get .mem none (e.alloc s.mem d.length)])
  | .free a => s.free none a
  | .opens d => if d ∈ s.fds then .no else .ok ({ s with fds := d :: s.fds }.see [.get .fd none d])
  | .close d => s.close none d

end Parcels
end Gb
