import Verif.Model.Rpc
import Verif.Model.Tx
/-
The functions of src/gbinder_remote_request.c and src/gbinder_remote_reply.c which an application uses to look at what
it has received, those of src/gbinder_local_request.c and src/gbinder_local_reply.c which append something to what's
going to be sent, and how the data get from the driver to the requests and replies (src/gbinder_driver.c).

Reference counting of all those is modelled elsewhere (Model/Buffers, Model/Parcels).
-/
set_option autoImplicit false

namespace Gb.Msg

/-- The read functions of requests and replies (gbinder_remote_request.c:255-346, gbinder_remote_reply.c:169-250). -/
inductive Get
  | int32 | uint32 | int64 | uint64 | string8 | string16 | object
  deriving DecidableEq, Repr

/-- What a read function gives if it doesn't return FALSE or NULL (gbinder_remote_request.c:255-346): the bits of
the number, the text, the object (by its handle). -/
inductive Val
  | num (v : Nat)
  | text (s : Bytes)
  | object (handle : Nat)
  deriving DecidableEq, Repr

/-- The value of the boolean result or pointer; the reader is discarded (gbinder_remote_request.c:263-277). -/
def result {α : Type} (f : α → Option Val) : Res α → Except UB (Option Val)
  | .ok a _ => .ok (f a)
  | .fail _ => .ok none
  | .ub k => .error k

/-- The calls of gbinder_reader.c made by the read functions (gbinder_remote_request.c:255-346,
gbinder_remote_reply.c:169-250). The signed variants cast the pointer. read_object: gbinder_reader.c:373-381. -/
def readFirst (r : Reader) : Get → Except UB (Option Val)
  | .int32 => result (fun v => some (.num v)) r.readUInt32
  | .uint32 => result (fun v => some (.num v)) r.readUInt32
  | .int64 => result (fun v => some (.num v)) r.readUInt64
  | .uint64 => result (fun v => some (.num v)) r.readUInt64
  | .string8 => result (fun s => some (.text s)) r.readString8
  | .string16 => result (fun s => s.map .text) r.readString16
  | .object => result (fun h => h.map .object) r.readNullableObject

/-- GBinderRemoteRequestPriv (gbinder_remote_request.c:47-57). `req` is what gbinder_remote_request_set_data has left
there, `none` if it hasn't been called because there's no data. -/
structure Request where
  pid : Nat
  euid : Nat
  req : Option RemoteReq
  deriving DecidableEq, Repr

/-- GBinderRemoteReply (gbinder_remote_reply.c:42-45); `none`: no buffer. -/
structure Reply where
  io : Io
  buffer : Option RxBuffer
  deriving DecidableEq, Repr

/-- gbinder_driver.c:528-545 (and gbinder_remote_request.c:63-79): the request made from an incoming transaction.
`data` is what's found at `tx.data`. -/
def incoming (io : Io) (p : Protocol) (tx : TxData) (data : Bytes) : Except UB Request :=
  if tx.data ≠ 0 ∧ tx.size ≠ 0 then
    (RemoteReq.setData io p tx.code data tx.objects).map fun q => { pid := tx.pid, euid := tx.euid, req := some q }
  else .ok { pid := tx.pid, euid := tx.euid, req := none }

/-- gbinder_driver.c:815-827 (and gbinder_remote_reply.c:47-80): the reply. `id` names the buffer. -/
def answered (io : Io) (p : Protocol) (tx : TxData) (data : Bytes) (id : Nat) : Reply :=
  if tx.data ≠ 0 ∧ tx.size ≠ 0 then
    { io := io, buffer := some { id := id, protocol := p, data := data, objects := tx.objects } }
  else { io := io, buffer := none }

/-- gbinder_reader.c:59-85: a reader of nothing. What it takes for I/O and protocol doesn't matter (there are no
objects). -/
def noReader (hasReg : Bool) : Reader := Reader.init .io64 .aidl [] [] hasReg 0 0

/-- gbinder_remote_request.c:140-157, 223-230 `gbinder_remote_request_init_reader`; `none` is NULL. -/
def Request.initReader : Option Request → Reader
  | none => noReader false
  | some { req := none, .. } => noReader true
  | some { req := some q, .. } => q.initReader

/-- gbinder_remote_request.c:255-346 `gbinder_remote_request_read_*`. -/
def Request.read : Option Request → Get → Except UB (Option Val)
  | none, _ => .ok none
  | some q, k => readFirst (Request.initReader (some q)) k

/-- gbinder_remote_request.c:187-194 `gbinder_remote_request_interface`. -/
def Request.interface : Option Request → Option Bytes
  | none => none
  | some q => q.req.bind (·.iface)

/-- gbinder_remote_request.c:237-253 `gbinder_remote_request_sender_pid` and
`gbinder_remote_request_sender_euid`. -/
def Request.sender : Option Request → Nat × Nat
  | none => (2 ^ 32 - 1, 2 ^ 32 - 1)
  | some q => (q.pid, q.euid)

/-- gbinder_remote_reply.c:139-167 `gbinder_remote_reply_init_reader`. -/
def Reply.initReader : Option Reply → Reader
  | none => noReader false
  | some { buffer := none, .. } => noReader true
  | some { io := io, buffer := some b } => Reader.init io b.protocol b.data b.objects true 0 b.data.length

/-- gbinder_remote_reply.c:169-250 `gbinder_remote_reply_read_*`. -/
def Reply.read : Option Reply → Get → Except UB (Option Val)
  | none, _ => .ok none
  | some q, k => readFirst (Reply.initReader (some q)) k

/-- gbinder_remote_reply.c:107-112 `gbinder_remote_reply_is_empty`. -/
def Reply.isEmpty : Option Reply → Bool
  | none => true
  | some { buffer := none, .. } => true
  | some { buffer := some b, .. } => b.data.length == 0

/-- The append functions of requests and replies (gbinder_local_request.c:223-343, gbinder_local_reply.c:191-322;
append_fd is there for replies only). Floating point values are given by their bits. -/
inductive Put
  | bool (v : Bool)
  | int32 (v : UInt32)
  | int64 (v : UInt64)
  | float (bits : UInt32)
  | double (bits : UInt64)
  | string8 (s : Option Bytes)
  | string16 (s : Option Bytes)
  | hidlString (str : Nat)
  | hidlStringVec (strv : List Nat)
  | localObject (o : Option LocalRef)
  | remoteObject (handle : Option Nat)
  | fd (n : Nat) (dup : Option Nat)

/-- gbinder_local_request.c:223-343, gbinder_local_reply.c:191-322: `self` is NULL or the data of the request or the
reply, and so is the result. -/
def append (e : Env) (self : Option Writer) (x : Put) : Except UB (Option Writer) :=
  match self with
  | none => .ok none
  | some w => Except.map some (match x with
    | .bool v => w.appendBool e v
    | .int32 v => w.appendInt32 e v
    | .int64 v => w.appendInt64 e v
    | .float v => w.appendInt32 e v
    | .double v => w.appendInt64 e v
    | .string8 s => w.appendString8 e s
    | .string16 s => w.appendString16 e s
    | .hidlString s => w.appendHidlString e s
    | .hidlStringVec v => w.appendHidlStringVec e v
    | .localObject o => w.appendLocalObject e o
    | .remoteObject h => w.appendRemoteObject e h
    | .fd n dup => w.appendFd e n dup)

/-- Several calls, each one with what the one before has returned (gbinder_local_request.c:223-343). -/
def appendAll (e : Env) : Option Writer → List Put → Except UB (Option Writer)
  | w, [] => .ok w
  | w, x :: l => (append e w x).bind fun w1 => appendAll e w1 l

end Gb.Msg
