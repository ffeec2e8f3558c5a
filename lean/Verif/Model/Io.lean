import Verif.Basic.Bytes
/-
src/gbinder_io.c, src/binder.h: wire layout of the objects embedded in parcels
and of the structures exchanged with the driver, in the two variants
(gbinder_io_32.c / gbinder_io_64.c) the file is compiled into.

`memset(dest, 0, sizeof(*dest))` followed by stores to the fields is written as
the concatenation of the fields in the order of the C structure; none of the
structures has implicit padding (checked by the `*_size` examples below).
-/
set_option autoImplicit false

namespace Gb

/-- Kinds of undefined behaviour the model distinguishes from ordinary results
(not a part of /repo). -/
inductive UB
  | oob        -- access outside of any live object
  | overflow   -- signed integer overflow
  | uninit     -- use of an uninitialised value
  | uaf        -- use after free
  | divzero    -- division by zero
  deriving DecidableEq, Repr

/-- gbinder_io_32.c / gbinder_io_64.c: the two instances of gbinder_io.c. -/
inductive Io
  | io32
  | io64
  deriving DecidableEq, Repr

/-- gbinder_io.c:55 `GBINDER_POINTER_SIZE`; binder.h:38-44 (binder_size_t has the same size). -/
def Io.ptrSize : Io → Nat
  | .io32 => 4
  | .io64 => 8

/-- binder.h:48-56 `sizeof(struct flat_binder_object)`; the same as
`sizeof(struct binder_fd_object)` (binder.h:57-65). -/
def Io.flatSize (io : Io) : Nat := 4 + 4 + io.ptrSize + io.ptrSize

/-- binder.h:66-73 `sizeof(struct binder_buffer_object)`. -/
def Io.bufferObjSize (io : Io) : Nat := 4 + 4 + 4 * io.ptrSize

/-- binder.h:77-83 `sizeof(struct binder_fd_array_object)`. -/
def Io.fdaSize (io : Io) : Nat := 4 + 4 + 3 * io.ptrSize

/-- binder.h:120-139 `sizeof(struct binder_transaction_data)`. -/
def Io.txDataSize (io : Io) : Nat := io.ptrSize + io.ptrSize + 4 * 4 + 2 * io.ptrSize + 2 * io.ptrSize

/-- binder.h:140-143 `sizeof(struct binder_transaction_data_sg)`. -/
def Io.txDataSgSize (io : Io) : Nat := io.txDataSize + io.ptrSize

/-- binder.h:148-151 `sizeof(struct binder_handle_cookie)` (packed). -/
def Io.handleCookieSize (io : Io) : Nat := 4 + io.ptrSize

/-- binder.h:144-147 `sizeof(struct binder_ptr_cookie)`. -/
def Io.ptrCookieSize (io : Io) : Nat := 2 * io.ptrSize

/- The size limits of gbinder_io.h:135-181 are the 64-bit sizes. -/
example : Io.io64.flatSize = 24 ∧ Io.io64.bufferObjSize = 40 ∧ Io.io64.fdaSize = 32 ∧
    Io.io64.txDataSize = 64 ∧ Io.io64.txDataSgSize = 72 ∧ Io.io64.handleCookieSize = 12 ∧
    Io.io64.ptrCookieSize = 16 := by decide
example : Io.io32.flatSize = 16 ∧ Io.io32.bufferObjSize = 24 ∧ Io.io32.fdaSize = 20 ∧
    Io.io32.txDataSize = 40 ∧ Io.io32.txDataSgSize = 44 ∧ Io.io32.handleCookieSize = 8 ∧
    Io.io32.ptrCookieSize = 8 := by decide

/-- binder.h:23 `B_PACK_CHARS`; also include/gbinder_types.h `GBINDER_FOURCC`. -/
def packChars (c1 c2 c3 c4 : Nat) : Nat := c1 * 2 ^ 24 + c2 * 2 ^ 16 + c3 * 2 ^ 8 + c4

/-- binder.h:26 -/
def typeBinder : Nat := packChars 0x73 0x62 0x2a 0x85
/-- binder.h:27 -/
def typeWeakBinder : Nat := packChars 0x77 0x62 0x2a 0x85
/-- binder.h:28 -/
def typeHandle : Nat := packChars 0x73 0x68 0x2a 0x85
/-- binder.h:29 -/
def typeWeakHandle : Nat := packChars 0x77 0x68 0x2a 0x85
/-- binder.h:30 -/
def typeFd : Nat := packChars 0x66 0x64 0x2a 0x85
/-- binder.h:31 -/
def typeFda : Nat := packChars 0x66 0x64 0x61 0x85
/-- binder.h:32 -/
def typePtr : Nat := packChars 0x70 0x74 0x2a 0x85

/-- gbinder_rpc_protocol.c:124-281: the known protocols. -/
inductive Protocol
  | aidl
  | aidl2
  | aidl3
  | hidl
  deriving DecidableEq, Repr

/-- gbinder_rpc_protocol.c:235 `flat_binder_object_extra` (zero where not initialised). -/
def Protocol.extra : Protocol → Nat
  | .aidl3 => 4
  | _ => 0

/-- The fields of GBinderLocalObject used when it is written to a parcel: its
address (identity) and `stability` (gbinder_local_object_p.h) (gbinder_local_object_p.h:55-63). -/
structure LocalRef where
  addr : Nat
  stability : Nat
  deriving DecidableEq, Repr

/-- gbinder_rpc_protocol.c:216-227 `gbinder_rpc_protocol_aidl3_finish_flatten_binder`;
`none` for the protocols which have no such callback. -/
def Protocol.finishFlatten : Protocol → Option (Option LocalRef → Bytes)
  | .aidl3 => some fun
      | some o => leBytes 4 o.stability
      | none => leBytes 4 0 -- GBINDER_STABILITY_UNDECLARED
  | _ => none

/-- include/gbinder_types.h: GBinderParent (include/gbinder_writer.h:53-56). -/
structure Parent where
  index : Nat
  offset : Nat
  deriving DecidableEq, Repr

/-- gbinder_io.c:167-189 `encode_local_object`. -/
def encodeLocalObject (io : Io) (proto : Protocol) (obj : Option LocalRef) : Bytes :=
  leBytes 4 typeBinder ++
  leBytes 4 (match obj with | some _ => 0x7f ||| 0x100 | none => 0) ++
  leBytes io.ptrSize (match obj with | some o => o.addr | none => 0) ++
  leBytes io.ptrSize 0 ++
  (match proto.finishFlatten with
   | some f => f obj
   | none => List.replicate proto.extra 0)

/-- gbinder_io.c:191-208 `encode_remote_object`. The handle shares a union with the
pointer-sized `binder` field (binder.h:51-54), the rest of the union stays zero. -/
def encodeRemoteObject (io : Io) (handle : Option Nat) : Bytes :=
  match handle with
  | some h =>
    leBytes 4 typeHandle ++ leBytes 4 0x100 ++
      (leBytes 4 h ++ List.replicate (io.ptrSize - 4) 0) ++ leBytes io.ptrSize 0
  | none =>
    leBytes 4 typeBinder ++ leBytes 4 0 ++ leBytes io.ptrSize 0 ++ leBytes io.ptrSize 0

/-- gbinder_io.c:210-223 `encode_fd_object`. -/
def encodeFdObject (io : Io) (fd : Nat) : Bytes :=
  leBytes 4 typeFd ++ leBytes 4 (0x7f ||| 0x100) ++
    (leBytes 4 fd ++ List.replicate (io.ptrSize - 4) 0) ++ leBytes io.ptrSize 0

/-- gbinder_io.c:225-240 `encode_fda_object`. -/
def encodeFdaObject (io : Io) (numFds : Nat) (parent : Parent) : Bytes :=
  leBytes 4 typeFda ++ leBytes 4 0 ++ leBytes io.ptrSize numFds ++
    leBytes io.ptrSize parent.index ++ leBytes io.ptrSize parent.offset

/-- gbinder_io.c:242-263 `encode_buffer_object`. -/
def encodeBufferObject (io : Io) (data size : Nat) (parent : Option Parent) : Bytes :=
  leBytes 4 typePtr ++
  leBytes 4 (match parent with | some _ => 1 | none => 0) ++ -- BINDER_BUFFER_FLAG_HAS_PARENT
  leBytes io.ptrSize data ++
  leBytes io.ptrSize size ++
  leBytes io.ptrSize (match parent with | some p => p.index | none => 0) ++
  leBytes io.ptrSize (match parent with | some p => p.offset | none => 0)

/-- 4-byte little-endian word at `off`, if inside
(loads from the structures of binder.h, gbinder_io.c:94-139, 424-609). -/
def u32At (b : Bytes) (off : Nat) : Option Nat := (slice b off 4).map leVal

/-- Pointer-sized little-endian word at `off`, if inside
(loads from the structures of binder.h, gbinder_io.c:424-609). -/
def uptrAt (io : Io) (b : Bytes) (off : Nat) : Option Nat := (slice b off io.ptrSize).map leVal

/-- gbinder_io.c:94-120 `object_size` of the object at `off` of buffer `b`.
`none` is an out-of-bounds access to the header. -/
def objectSize (io : Io) (proto : Protocol) (b : Bytes) (off : Nat) : Option Nat := do
  let ty ← u32At b off
  if ty = typeBinder ∨ ty = typeWeakBinder ∨ ty = typeHandle ∨ ty = typeWeakHandle then
    some (io.flatSize + proto.extra)
  else if ty = typeFd then some io.flatSize
  else if ty = typeFda then some io.fdaSize
  else if ty = typePtr then some io.bufferObjSize
  else some 0

/-- gbinder_io.c:122-139 `object_data_size`: `length` (offset 8 + ptr) of a buffer object or
`num_fds * 4` (offset 8) of an fd array; the product is a binder_size_t. -/
def objectDataSize (io : Io) (b : Bytes) (off : Nat) : Option Nat := do
  let ty ← u32At b off
  if ty = typePtr then uptrAt io b (off + 8 + io.ptrSize)
  else if ty = typeFda then do
    let n ← uptrAt io b (off + 8)
    some (n * 4 % 256 ^ io.ptrSize)
  else some 0

/-- Result of gbinder_io.c:565-587: GBinderIoBufferObject (gbinder_io.h:46-51). -/
structure BufferObj where
  data : Nat
  size : Nat
  parentOffset : Nat
  hasParent : Bool
  deriving DecidableEq, Repr

/-- gbinder_io.c:565-587 `decode_buffer_object(buf, offset, out)`. `none` means that the
function returned zero. The size check precedes every access, so the function itself never
reads out of bounds. -/
def decodeBufferObject (io : Io) (b : Bytes) (off : Nat) : Option BufferObj :=
  let size := if off < b.length then b.length - off else 0
  if io.bufferObjSize ≤ size then
    if u32At b off = some typePtr then do
      let flags ← u32At b (off + 4)
      let data ← uptrAt io b (off + 8)
      let len ← uptrAt io b (off + 8 + io.ptrSize)
      let po ← uptrAt io b (off + 8 + 3 * io.ptrSize)
      some { data := data, size := len, parentOffset := po, hasParent := flags % 2 = 1 }
    else none
  else none

end Gb
