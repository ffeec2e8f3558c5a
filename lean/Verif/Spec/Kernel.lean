import Verif.Model.Io
/-
Specification: how the binder driver of the Linux kernel (drivers/android/binder.c, not part of
the repository) looks at an outgoing parcel: `binder_get_object`, the loop over the objects in
`binder_transaction`, `binder_validate_ptr`, `binder_validate_fixup`, `binder_fixup_parent` and
`binder_translate_fd_array`.  The structures are those of src/binder.h.
-/
set_option autoImplicit false

namespace Gb.Kernel

/-- An object found in a parcel. Buffers are given by address, length and parent (index of the
parent object, offset in the parent's buffer). -/
inductive KObj
  | binder (ptr cookie : Nat)
  | handle (h : Nat)
  | fd (n : Nat)
  | fda (numFds parent offset : Nat)
  | buffer (addr len : Nat) (parent : Option (Nat × Nat))
  deriving DecidableEq, Repr

/-- src/binder.h:26-32: the object types. -/
def tBinder : Nat := 0x73622a85
def tWeakBinder : Nat := 0x77622a85
def tHandle : Nat := 0x73682a85
def tWeakHandle : Nat := 0x77682a85
def tFd : Nat := 0x66642a85
def tFda : Nat := 0x66646185
def tPtr : Nat := 0x70742a85

/-- Size of binder_uintptr_t and binder_size_t (src/binder.h:38-44). -/
def word : Io → Nat
  | .io32 => 4
  | .io64 => 8

/-- Little-endian value of `n` bytes at `off` (the caller checks that they are there). -/
def fieldAt (b : Bytes) (off n : Nat) : Nat := leVal ((b.drop off).take n)

/-- `binder_get_object`: the object at `off` and the size of its structure; `none` if it isn't
there, is cut short or its type is unknown. -/
def getObject (io : Io) (b : Bytes) (off : Nat) : Option (KObj × Nat) :=
  let p := word io
  let fits n := off + n ≤ b.length
  let ty := fieldAt b off 4
  if ¬ fits 4 then none
  else if ty = tBinder ∨ ty = tWeakBinder then
    if fits (8 + 2 * p) then
      some (.binder (fieldAt b (off + 8) p) (fieldAt b (off + 8 + p) p), 8 + 2 * p)
    else none
  else if ty = tHandle ∨ ty = tWeakHandle then
    if fits (8 + 2 * p) then some (.handle (fieldAt b (off + 8) 4), 8 + 2 * p) else none
  else if ty = tFd then
    if fits (8 + 2 * p) then some (.fd (fieldAt b (off + 8) 4), 8 + 2 * p) else none
  else if ty = tFda then
    if fits (8 + 3 * p) then
      some (.fda (fieldAt b (off + 8) p) (fieldAt b (off + 8 + p) p)
        (fieldAt b (off + 8 + 2 * p) p), 8 + 3 * p)
    else none
  else if ty = tPtr then
    if fits (8 + 4 * p) then
      some (.buffer (fieldAt b (off + 8) p) (fieldAt b (off + 8 + p) p)
        (if fieldAt b (off + 4) 4 % 2 = 1 then
          some (fieldAt b (off + 8 + 2 * p) p, fieldAt b (off + 8 + 3 * p) p) else none),
        8 + 4 * p)
    else none
  else none

/-- The loop of `binder_transaction` over the offset table: objects must come in the order of
increasing offsets and must not overlap. -/
def getObjects (io : Io) (b : Bytes) : Nat → List Nat → Option (List KObj)
  | _, [] => some []
  | offMin, off :: rest =>
    match getObject io b off with
    | some (x, size) =>
      if offMin ≤ off then (getObjects io b (off + size) rest).map (x :: ·) else none
    | none => none

/-- `binder_get_object` also requires objects to be aligned to four bytes. -/
def accepts (io : Io) (b : Bytes) (offsets : List Nat) : Option (List KObj) :=
  if ∀ o ∈ offsets, o % 4 = 0 then getObjects io b 0 offsets else none

/-- The loop of `binder_validate_fixup`: from the last object something was fixed up in,
towards its parents, until `target`. Gives the lowest offset allowed there. Parents precede their
children, which bounds the number of iterations. -/
def climb (objs : List KObj) (target : Nat) : Nat → Nat → Nat → Option Nat
  | 0, _, _ => none
  | fuel + 1, last, min =>
    if last = target then some min
    else match objs[last]? with
      | some (.buffer _ _ (some (p, off))) => climb objs target fuel p (off + 8)
      | _ => none

/-- `binder_validate_ptr`: the object at `index` is a buffer which has been processed already;
gives its length. -/
def parentLen (done : List KObj) (index : Nat) : Option Nat :=
  match done[index]? with
  | some (.buffer _ len _) => some len
  | _ => none

/-- One iteration of the loop of `binder_transaction`: `done` are the objects processed so far,
`last`/`min` where the last fixup was and the lowest offset allowed next. -/
def stepFixup (done : List KObj) (last min : Nat) : KObj → Option (Nat × Nat)
  | .buffer _ _ none => some (done.length, 0)
  | .buffer _ _ (some (p, off)) =>
    match parentLen done p with
    | some len =>
      if climb done p (last + 1) last min |>.any (· ≤ off) then
        if off + 8 ≤ len then some (done.length, 0) else none
      else none
    | none => none
  | .fda n p off =>
    match parentLen done p with
    | some len =>
      if climb done p (last + 1) last min |>.any (· ≤ off) then
        if off + 4 * n ≤ len then some (p, off + 4 * n) else none
      else none
    | none => none
  | _ => some (last, min)

/-- All objects of a parcel processed in sequence; `done` have been processed. -/
def fixups (done : List KObj) (last min : Nat) : List KObj → Option (Nat × Nat)
  | [] => some (last, min)
  | x :: rest =>
    match stepFixup done last min x with
    | some (l, m) => fixups (done ++ [x]) l m rest
    | none => none

/-- Length of the buffer of an object, rounded up to 8: what it takes from the extra space
reserved by the transaction (`ALIGN(bp->length, sizeof(u64))` in `binder_transaction`). -/
def extra : KObj → Nat
  | .buffer _ len _ => (len + 7) / 8 * 8
  | _ => 0

end Gb.Kernel

namespace Gb.Kernel

/-! ### Commands starting a transaction -/

/-- Command words of src/binder.h:181-201 for the two ABIs, as numbers. -/
def bcTransaction : Io → Nat
  | .io32 => 0x40286300
  | .io64 => 0x40406300
def bcReply : Io → Nat
  | .io32 => 0x40286301
  | .io64 => 0x40406301
def bcTransactionSg : Io → Nat
  | .io32 => 0x402c6311
  | .io64 => 0x40486311
def bcReplySg : Io → Nat
  | .io32 => 0x402c6312
  | .io64 => 0x40486312

/-- What the driver learns from BC_TRANSACTION(_SG) or BC_REPLY(_SG): struct
binder_transaction_data (src/binder.h:120-139), `extra` is the `buffers_size` of the _SG
variants. -/
structure Tx where
  reply : Bool
  sg : Bool
  handle : Nat
  code : Nat
  flags : Nat
  dataSize : Nat
  offsetsSize : Nat
  buffer : Nat
  offsets : Nat
  extra : Nat
  deriving DecidableEq, Repr

/-- `binder_thread_write` for these commands: takes the command word and the structure that
follows, which must be all there is. -/
def parseTx (io : Io) (b : Bytes) : Option Tx :=
  let p := word io
  let cmd := fieldAt b 0 4
  let sg := cmd = bcTransactionSg io ∨ cmd = bcReplySg io
  let reply := cmd = bcReply io ∨ cmd = bcReplySg io
  let size := 16 + 6 * p
  if sg ∨ reply ∨ cmd = bcTransaction io then
    if b.length = 4 + size + (if sg then p else 0) then
      some { reply := reply
             sg := sg
             handle := fieldAt b 4 4
             code := fieldAt b (4 + 2 * p) 4
             flags := fieldAt b (4 + 2 * p + 4) 4
             dataSize := fieldAt b (4 + 2 * p + 16) p
             offsetsSize := fieldAt b (4 + 3 * p + 16) p
             buffer := fieldAt b (4 + 4 * p + 16) p
             offsets := fieldAt b (4 + 5 * p + 16) p
             extra := if sg then fieldAt b (4 + size) p else 0 }
    else none
  else none

/-- The table of object offsets in the sender's memory. -/
def parseOffsets (io : Io) (table : Bytes) : Nat → List Nat
  | 0 => []
  | n + 1 => fieldAt table 0 (word io) :: parseOffsets io (table.drop (word io)) n

end Gb.Kernel
