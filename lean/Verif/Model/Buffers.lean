import Verif.Basic.Lts
/-
Ownership of the buffers received from the kernel: src/gbinder_buffer.c and everything which holds
references to GBinderBufferContents.

Contents are numbered in the order of delivery, other objects in the order of creation, i.e. the
memory is not reused. The addresses (of the kernel's buffers) are reused. A step is a call; reference
counts are atomic and an object can only be used by those who hold a reference to it, so the calls
made by different threads have the effect of one being made after another.
-/
set_option autoImplicit false

namespace Gb.Buffers

/-- gbinder_buffer.c:39-45 `GBinderBufferContents`. `objs` is whether `objects` is not NULL. The
reference to the driver is left out. -/
structure Con where
  refs : Nat
  addr : Nat
  objs : Bool
  deriving DecidableEq, Repr

/-- Everything that refers to GBinderBufferContents: gbinder_buffer.c:39-50, 115-118, gbinder_remote_request.c:47-56, gbinder_remote_reply.c:42-45, gbinder_local_reply.c:42-47. -/
inductive Obj
  /-- gbinder_buffer.c:47-50 `GBinderBuffer` -/
  | buffer (con : Option Nat)
  /-- gbinder_remote_request.c:47-56, gbinder_remote_reply.c:42-45 `GBinderRemoteRequest`,
  `GBinderRemoteReply`: the reference count and data.buffer -/
  | remote (refs : Nat) (buf : Option Nat)
  /-- gbinder_local_reply.c:42-47 `GBinderLocalReply` and `GBinderLocalRequest` (which has no
  contents): the reference count, contents, and those in data.cleanup -/
  | parcel (refs : Nat) (con : Option Nat) (cleanup : List Nat)
  /-- gbinder_buffer.c:115-118 `GBinderBufferContentsList`: context->bufs of the driver and data->bufs
  of gbinder_local_object_handle_acquire -/
  | list (l : List Nat)
  deriving DecidableEq, Repr

/-- What the kernel can see, and closing of the received descriptors
(gbinder_driver.c:1130-1178, 515-540). -/
inductive Ev
  /-- BR_TRANSACTION or BR_REPLY, the n-th one, with data at the address, with or without objects -/
  | deliver (n addr : Nat) (objs : Bool)
  /-- gbinder_driver_close_fds for the objects in the buffer at the address -/
  | close (addr : Nat)
  /-- BC_FREE_BUFFER -/
  | free (addr : Nat)
  deriving DecidableEq, Repr

/-- The objects of `Con` and `Obj` (gbinder_buffer.c:39-50 etc.), and the side of the kernel which isn't a part of the library. -/
structure State where
  /-- The number of buffers received so far. -/
  nc : Nat := 0
  con : Nat → Option Con := fun _ => none
  /-- The number of objects created so far. -/
  no : Nat := 0
  obj : Nat → Option Obj := fun _ => none
  /-- Buffers owned by the application. -/
  app : List Nat := []
  /-- Addresses which are in use by the kernel. -/
  kern : Nat → Bool := fun _ => false
  log : List Ev := []

/-- Nothing happens after undefined behaviour (gbinder_buffer.c, no code of its own). -/
def andThen (o : Out State) (f : State → Out State) : Out State :=
  match o with
  | .ok s => f s
  | .no => .no
  | .ub => .ub

/-- gbinder_driver.c:1156-1178 `gbinder_driver_free_buffer` -/
def State.freeBuffer (s : State) (addr : Option Nat) : State :=
  match addr with
  | none => s
  | some a => { s with log := s.log ++ [.free a], kern := fun x => if x = a then false else s.kern x }

/-- gbinder_buffer.c:77-90 `gbinder_buffer_contents_free` -/
def State.conFree (s : State) (c : Nat) (k : Con) : State :=
  let s := if k.objs then { s with log := s.log ++ [.close k.addr] } else s
  let s := s.freeBuffer (some k.addr)
  { s with con := upd s.con c none }

/-- gbinder_buffer.c:92-101 `gbinder_buffer_contents_ref` -/
def State.conRef (s : State) (c : Option Nat) : Out State :=
  match c with
  | none => .ok s
  | some c =>
    match s.con c with
    | none => .ub
    | some k => .ok { s with con := upd s.con c (some { k with refs := k.refs + 1 }) }

/-- gbinder_buffer.c:103-113 `gbinder_buffer_contents_unref` -/
def State.conUnref (s : State) (c : Option Nat) : Out State :=
  match c with
  | none => .ok s
  | some c =>
    match s.con c with
    | none => .ub
    | some k =>
      match k.refs with
      | 0 => .ub
      | 1 => .ok (s.conFree c k)
      | r + 2 => .ok { s with con := upd s.con c (some { k with refs := r + 1 }) }

/-- g_slist_free_full in gbinder_buffer.c:148-154 `gbinder_buffer_contents_list_free`, and
g_array_set_size in gbinder_cleanup.c:67-73 -/
def State.conUnrefAll (s : State) : List Nat → Out State
  | [] => .ok s
  | c :: l => andThen (s.conUnref (some c)) fun s => s.conUnrefAll l

/-- gbinder_buffer.c:130-146 `gbinder_buffer_contents_list_dup`, the references -/
def State.conRefAll (s : State) : List Nat → Out State
  | [] => .ok s
  | c :: l => andThen (s.conRef (some c)) fun s => s.conRefAll l

/-- Stores to the fields of an object, see the users below (gbinder_remote_request.c:159-185 etc.). -/
def State.setObj (s : State) (i : Nat) (o : Option Obj) : State := { s with obj := upd s.obj i o }

/-- A new object (g_slice_new0 e.g. at gbinder_buffer.c:167). -/
def State.newObj (s : State) (o : Obj) : State :=
  { s with no := s.no + 1, obj := upd s.obj s.no (some o) }

/-- `gbinder_buffer_contents` (gbinder_buffer.c:277-282) of data.buffer of a request or reply; none if
it's been freed. -/
def State.contents (s : State) (buf : Option Nat) : Option (Option Nat) :=
  match buf with
  | none => some none
  | some b =>
    match s.obj b with
    | some (.buffer c) => some c
    | _ => none

/-- gbinder_buffer.c:176-186 `gbinder_buffer_free` -/
def State.bufFree (s : State) (buf : Option Nat) : Out State :=
  match buf with
  | none => .ok s
  | some b =>
    match s.obj b with
    | some (.buffer c) => andThen (s.conUnref c) fun s => .ok (s.setObj b none)
    | _ => .ub

/-- gbinder_buffer.c:59-75, 188-198 `gbinder_buffer_new` and `gbinder_buffer_contents_new`: the driver
is not NULL. -/
def State.bufNew (s : State) (c addr : Nat) (objs : Bool) : State :=
  { s with con := upd s.con c (some { refs := 1, addr, objs }) }.newObj (.buffer (some c))

/-- gbinder_buffer.c:120-128 `gbinder_buffer_contents_list_add`, to the list `x`. -/
def State.listAdd (s : State) (x : Nat) (c : Option Nat) : Out State :=
  match s.obj x with
  | some (.list l) =>
    match c with
    | none => .ok s
    | some c => andThen (s.conRef (some c)) fun s => .ok (s.setObj x (some (.list (c :: l))))
  | _ => .no

/-- gbinder_remote_request.c:159-185 gbinder_remote_request_set_data, gbinder_remote_reply.c:71-82
gbinder_remote_reply_set_data -/
def State.setData (s : State) (r b : Nat) : Out State :=
  match s.obj r with
  | some (.remote _ buf) =>
    andThen (s.bufFree buf) fun s =>
      match s.obj r with
      | some (.remote n _) => .ok (s.setObj r (some (.remote n (some b))))
      | _ => .ub
  | _ => .ub

/-- gbinder_driver.c:537-543, 817-823: what's been received is passed to the request or reply `r` and
added to the list `x`. -/
def State.receive (s : State) (x r c addr : Nat) (objs : Bool) : Out State :=
  let b := s.no
  andThen ((s.bufNew c addr objs).setData r b) fun s =>
    match s.contents (some b) with
    | some c => s.listAdd x c
    | none => .ub

/-- gbinder_writer.c:90-107 gbinder_writer_data_append_contents: the reference added to data.cleanup of
the parcel `p`. -/
def State.appendContents (s : State) (p : Nat) (c : Option Nat) : Out State :=
  match c with
  | none => .ok s
  | some c =>
    andThen (s.conRef (some c)) fun s =>
      match s.obj p with
      | some (.parcel n k l) => .ok (s.setObj p (some (.parcel n k (l ++ [c]))))
      | _ => .ub

/-- gbinder_local_reply.c:100-113 `gbinder_local_reply_set_contents` and gbinder_writer.c:76-87
`gbinder_writer_data_set_contents` -/
def State.setContents (s : State) (p : Nat) (c : Option Nat) : Out State :=
  match s.obj p with
  | some (.parcel n k l) =>
    andThen (s.conUnrefAll l) fun s =>
    andThen ((s.setObj p (some (.parcel n k []))).appendContents p c) fun s =>
    andThen (s.conUnref k) fun s =>
    andThen (s.conRef c) fun s =>
      match s.obj p with
      | some (.parcel n _ l) => .ok (s.setObj p (some (.parcel n c l)))
      | _ => .ub
  | _ => .ub

/-- The calls, each one with its lines below: gbinder_buffer.c, gbinder_remote_request.c, gbinder_remote_reply.c, gbinder_local_request.c:143-166, gbinder_local_reply.c:100-127. -/
inductive Label
  /-- context->bufs is empty in the beginning (gbinder_driver.c:406). -/
  | newList
  /-- gbinder_driver.c:415, gbinder_local_object.c:351 -/
  | freeList (x : Nat)
  /-- gbinder_local_object.c:602 -/
  | dupList (x : Nat)
  /-- BR_TRANSACTION: the context, the address (0 bytes at it if not `full`). -/
  | transaction (x : Nat) (data : Option Nat) (full objs : Bool)
  /-- BR_REPLY -/
  | reply (x : Nat) (r : Option Nat) (data : Option Nat) (full objs : Bool)
  /-- gbinder_remote_reply_new -/
  | newRemote
  | refRemote (r : Nat)
  | unrefRemote (r : Nat)
  /-- gbinder_reader_read_buffer -/
  | readBuffer (r : Nat)
  /-- gbinder_buffer_free called by the application -/
  | freeBuffer (b : Nat)
  /-- gbinder_local_request_new, gbinder_local_reply_new -/
  | newParcel
  | refParcel (p : Nat)
  | unrefParcel (p : Nat)
  /-- gbinder_local_request_append_contents, also called for a new request by
  gbinder_remote_request_copy_to_local and gbinder_remote_request_convert_to_local -/
  | append (p r : Nat)
  /-- gbinder_local_reply_set_contents, called for a new reply by gbinder_remote_reply_copy_to_local and
  gbinder_remote_reply_convert_to_local -/
  | setContents (p r : Nat)
  /-- The reply `p` is sent. -/
  | send (x p : Nat)
  deriving DecidableEq, Repr

/-- What the kernel does when it delivers a buffer: it's not at the address of another one. There may
only be objects if there is something (the kernel, as seen by gbinder_driver.c:515-540). -/
def State.deliver (s : State) (data : Option Nat) (full objs : Bool) : Option State :=
  match data with
  | none => if full ∨ objs then none else some s
  | some a =>
    if s.kern a = true ∨ (objs = true ∧ full = false) then none
    else some { s with
      nc := s.nc + 1, log := s.log ++ [.deliver s.nc a objs]
      kern := fun x => if x = a then true else s.kern x }

/-- The steps. Those who make the calls have a reference to what they pass in, so objects which are
gone can't be passed
(gbinder_driver.c:394-416, 467-597, gbinder_buffer.c:148-174 etc., each step has its own lines below). -/
def step (s : State) : Label → Out State
  | .newList => .ok (s.newObj (.list []))
  -- gbinder_buffer.c:148-154
  | .freeList x =>
    match s.obj x with
    | some (.list l) => andThen (s.conUnrefAll l) fun s => .ok (s.setObj x none)
    | _ => .no
  -- gbinder_buffer.c:130-146
  | .dupList x =>
    match s.obj x with
    | some (.list l) => andThen (s.conRefAll l) fun s => .ok (s.newObj (.list l.reverse))
    | _ => .no
  -- gbinder_driver.c:530-547
  | .transaction x data full objs =>
    match s.deliver data full objs with
    | none => .no
    | some s' =>
      let r := s'.no
      let s' := s'.newObj (.remote 1 none)
      match data with
      | some a =>
        if full then
          s'.receive x r s.nc a objs
        else .ok (s'.freeBuffer data)
      | none => .ok (s'.freeBuffer data)
  -- gbinder_driver.c:809-827. The objects are never there if nobody waits for the reply.
  | .reply x r data full objs =>
    match s.deliver data full objs with
    | none => .no
    | some s' =>
      match data, full, r with
      | some a, true, some r =>
        match s.obj r with
        | some (.remote _ _) =>
          s'.receive x r s.nc a objs
        | _ => .no
      | _, _, _ => if objs then .no else .ok (s'.freeBuffer data)
  -- gbinder_remote_reply.c:47-57
  | .newRemote => .ok (s.newObj (.remote 1 none))
  -- gbinder_remote_reply.c:84-93, gbinder_remote_request.c:196-207
  | .refRemote r =>
    match s.obj r with
    | some (.remote n b) => .ok (s.setObj r (some (.remote (n + 1) b)))
    | _ => .no
  -- gbinder_remote_reply.c:59-69, 95-105, gbinder_remote_request.c:121-138, 209-221
  | .unrefRemote r =>
    match s.obj r with
    | some (.remote n b) =>
      match n with
      | 0 => .ub
      | 1 => andThen (s.bufFree b) fun s => .ok (s.setObj r none)
      | n + 2 => .ok (s.setObj r (some (.remote (n + 1) b)))
    | _ => .no
  -- gbinder_reader.c:407-420, gbinder_buffer.c:200-209
  | .readBuffer r =>
    match s.obj r with
    | some (.remote _ (some b)) =>
      match s.contents (some b) with
      | none => .ub
      | some c => andThen (s.conRef c) fun s =>
          let s' := s.newObj (.buffer c)
          .ok { s' with app := s.no :: s'.app }
    | _ => .no
  | .freeBuffer b =>
    if b ∈ s.app then State.bufFree { s with app := s.app.erase b } (some b) else .no
  -- gbinder_local_reply.c:73-98, gbinder_local_request.c:74-109
  | .newParcel => .ok (s.newObj (.parcel 1 none []))
  -- gbinder_local_reply.c:129-138, gbinder_local_request.c:168-177
  | .refParcel p =>
    match s.obj p with
    | some (.parcel n c l) => .ok (s.setObj p (some (.parcel (n + 1) c l)))
    | _ => .no
  -- gbinder_local_reply.c:115-127, 140-150, gbinder_local_request.c:155-166, 179-189
  | .unrefParcel p =>
    match s.obj p with
    | some (.parcel n c l) =>
      match n with
      | 0 => .ub
      | 1 =>
        andThen (s.conUnrefAll l) fun s =>
        andThen (s.conUnref c) fun s => .ok (s.setObj p none)
      | n + 2 => .ok (s.setObj p (some (.parcel (n + 1) c l)))
    | _ => .no
  -- gbinder_local_request.c:129-153
  | .append p r =>
    match s.obj p, s.obj r with
    | some (.parcel _ _ _), some (.remote _ buf) =>
      match s.contents buf with
      | none => .ub
      | some c => s.appendContents p c
    | _, _ => .no
  -- gbinder_remote_reply.c:121-137
  | .setContents p r =>
    match s.obj p, s.obj r with
    | some (.parcel _ _ _), some (.remote _ buf) =>
      match s.contents buf with
      | none => .ub
      | some c => s.setContents p c
    | _, _ => .no
  -- gbinder_driver.c:577-578
  | .send x p =>
    match s.obj p with
    | some (.parcel _ c _) => s.listAdd x c
    | _ => .no

end Gb.Buffers
