import Verif.Spec.Plain
import Verif.Spec.Transfer
import Verif.Spec.References
import Verif.Spec.Installed
/-
Specification: a call from one process to another, end to end. What the application may put into a parcel and
what the application at the other end has to find there, and how the binder driver of the Linux kernel
(`binder_transaction` and `binder_thread_read` of drivers/android/binder.c, not part of the repository) turns the
command of one process into a transaction of the other.
-/
set_option autoImplicit false

namespace Gb.Call

open Kernel
open C01 (Value)

/-- Something an application puts into a parcel. Strings and vectors are given by their addresses and contents. -/
inductive Item
  | plain (v : Value)
  /-- An object of the application. -/
  | object (o : LocalRef)
  /-- An object of another process, by its handle. -/
  | remote (h : Nat)
  /-- A file descriptor; `dup` is the duplicate, if it could be duplicated. -/
  | file (n : Nat) (dup : Option Nat)
  | hidlString (a : Nat) (s : Bytes)
  | hidlStringCopy (a empty : Nat) (s : Bytes)
  | hidlNull
  | hidlStringVec (strv : List Nat) (strs : List Bytes)
  | hidlVec (base count elemsize : Nat) (bs : Bytes)
  | hidlVecEmpty (base elemsize : Nat)

/-- The append call for a plain value. -/
def plainCall : Value → WOp
  | .bool v => .bool v
  | .int8 v => .int8 v
  | .int16 v => .int16 v
  | .int32 v => .int32 v
  | .int64 v => .int64 v
  | .float v => .int32 v
  | .double v => .int64 v
  | .string8 s => .string8 (some s)
  | .string16 s => .string16 (s.map utf8Text)
  | .utf16 s => .utf16 (s.map fun us => us.map (·.toNat))
  | .byteArray d => .byteArray (some d)

/-- The append call. -/
def Item.call : Item → WOp
  | .plain v => plainCall v
  | .object o => .localObject (some o)
  | .remote h => .remoteObject (some h)
  | .file n dup => .fd n dup
  | .hidlString a _ => .hidlString a
  | .hidlStringCopy a em _ => .hidlStringCopy a em
  | .hidlNull => .hidlString 0
  | .hidlStringVec strv _ => .hidlStringVec strv
  | .hidlVec base count elemsize _ => .hidlVec base count elemsize
  | .hidlVecEmpty base elemsize => .hidlVec base 0 elemsize

/-- What happens to a parcel on the way: the objects in it, where their buffers went, the memory of the receiver
and the parcel there (`data`, at the address `buffer`); the receiver's handles for the objects of the sender and for
the handles of the sender, the new descriptors; the objects behind the handles of the sender (as their owners know
them), and who the sender is. -/
structure Delivery where
  objs : List KObj
  addr : Nat → Nat
  dst : Mem
  data : Bytes
  buffer : Nat
  node : Nat → Nat
  other : Nat → Option Nat
  fd : Nat → Nat
  owner : Nat → Nat
  pid : Nat
  euid : Nat

/-- The arguments are valid: they're in the memory `m`, lengths fit in 32 bits. A handle has to refer to an object
which doesn't belong to the receiver, and protocols which write something after each object don't do that for
handles (see C19 for what happens otherwise). -/
def Item.Ok (io : Io) (p : Protocol) (m : Mem) (other : Nat → Option Nat) : Item → Prop
  | .plain v => v.Ok
  | .object o => o.addr < 256 ^ word io
  | .remote h => p ≠ .aidl3 ∧ h < 2 ^ 32 ∧ (other h).isSome = true
  | .file n dup => dup.getD n < 2 ^ 32
  | .hidlString a s => a ≠ 0 ∧ m.cstr a = some s ∧ s.length + 1 < 2 ^ 32
  | .hidlStringCopy a em s => a ≠ 0 ∧ m.cstr a = some s ∧ s.length + 1 < 2 ^ 32 ∧ em ≠ 0 ∧ m.cstr em = some []
  | .hidlNull => True
  | .hidlStringVec strv strs => 0 ∉ strv ∧ strv.map m.cstr = strs.map some ∧ 16 * strs.length < 2 ^ 32 ∧
      ∀ s ∈ strs, s.length + 1 < 2 ^ 32
  | .hidlVec base count elemsize bs => base ≠ 0 ∧ 0 < count ∧ 0 < elemsize ∧ count * elemsize < 2 ^ 32 ∧
      m.load base (count * elemsize) = some bs
  | .hidlVecEmpty _ _ => True

/-- The read call returns what was sent and moves the reader from `r` to `r'`. -/
def Item.Got (d : Delivery) (r r' : Reader) : Item → Prop
  | .plain v => v.ty.read r = .ok v.seen r'
  | .object o => r.readNullableObject = .ok (some (d.node o.addr)) r'
  | .remote h => ∃ h', d.other h = some h' ∧ r.readNullableObject = .ok (some h') r'
  | .file n dup => ∃ i : Nat, d.objs[i]? = some (.fd (dup.getD n)) ∧ r.readFd = .ok (d.fd i) r'
  | .hidlString _ s => Reader.readHidlString d.dst r = .ok (some s) r'
  | .hidlStringCopy _ _ s => Reader.readHidlString d.dst r = .ok (some s) r'
  | .hidlNull => Reader.readHidlString d.dst r = .ok none r'
  | .hidlStringVec _ strs => Reader.readHidlStringVec d.dst r = .ok (some strs) r'
  | .hidlVec _ count elemsize bs => ∃ ptr,
      Reader.readHidlVec d.dst r = .ok (some { ptr := ptr, count := count, elemsize := elemsize }) r' ∧
      ptr ≠ 0 ∧ d.dst.load ptr (count * elemsize) = some bs
  | .hidlVecEmpty _ _ => ∃ ptr,
      Reader.readHidlVec d.dst r = .ok (some { ptr := ptr, count := 0, elemsize := 0 }) r' ∧ ptr ≠ 0

/-- All of it, in the order in which it was sent. -/
def GotAll (d : Delivery) : Reader → List Item → Reader → Prop
  | r, [], r' => r = r'
  | r, x :: l, r' => ∃ r1, x.Got d r r1 ∧ GotAll d r1 l r'

/-- The command `tx` of a process, with `table` and `b` at the addresses it gives, becomes a transaction (or
a reply) of another process, which finds the structure `raw` (struct binder_transaction_data, src/binder.h:120-139)
after BR_TRANSACTION or BR_REPLY. -/
structure Handed (io : Io) (tx : Tx) (table b : Bytes) (src : Mem) (d : Delivery) (raw : Bytes) : Prop where
  whole : b.length = tx.dataSize
  transfer : Transfer io src b (parseOffsets io table (tx.offsetsSize / word io)) d.objs d.addr d.dst d.data
  references : References io b (parseOffsets io table (tx.offsetsSize / word io)) d.objs d.node d.other d.data
  installed : Installed io b (parseOffsets io table (tx.offsetsSize / word io)) d.objs d.fd d.data
  length : raw.length = 16 + 6 * word io
  /-- The object behind the handle. -/
  target : tx.reply = false → fieldAt raw 0 (word io) = d.owner tx.handle
  code : fieldAt raw (2 * word io) 4 = tx.code
  flags : fieldAt raw (2 * word io + 4) 4 = tx.flags
  pid : fieldAt raw (2 * word io + 8) 4 = d.pid
  euid : fieldAt raw (2 * word io + 12) 4 = d.euid
  dataSize : fieldAt raw (2 * word io + 16) (word io) = tx.dataSize
  offsetsSize : fieldAt raw (3 * word io + 16) (word io) = tx.offsetsSize
  buffer : fieldAt raw (4 * word io + 16) (word io) = d.buffer
  mapped : d.buffer ≠ 0 ∧ d.dst.load d.buffer b.length = some d.data
  offsets : ∃ t, d.dst.load (fieldAt raw (5 * word io + 16) (word io)) tx.offsetsSize = some t ∧
    parseOffsets io t (tx.offsetsSize / word io) = parseOffsets io table (tx.offsetsSize / word io)

/-- The kernel has carried out the command. -/
def Carried (io : Io) (cmd table b : Bytes) (src : Mem) (d : Delivery) (raw : Bytes) : Prop :=
  ∃ tx, parseTx io cmd = some tx ∧ Handed io tx table b src d raw

end Gb.Call
