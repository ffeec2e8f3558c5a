import Verif.Model.Mem
import Verif.Model.Utf
/-
src/gbinder_writer.c: building an outgoing parcel.

Every public function tolerates a NULL writer (`G_LIKELY(data)`); the model covers the
non-NULL case.  GByteArray lengths are `guint`; GLib aborts before they overflow, so lengths
are plain naturals here.
-/
set_option autoImplicit false

namespace Gb

/-- gbinder_cleanup.c items registered by the writer: what will be destroyed
(gbinder_cleanup.c:35-38). -/
inductive CleanupItem
  | free (addr : Nat)          -- g_free
  | closeFd (fd : Nat)         -- gbinder_writer_data_close_fd
  | unrefBuffer (id : Nat)     -- gbinder_buffer_contents_unref
  | unrefLocal (addr : Nat)    -- gbinder_local_object_unref
  | user (fn ptr : Nat)        -- callback passed to gbinder_writer_add_cleanup
  deriving DecidableEq, Repr

/-- gbinder_writer_p.h:40-47 GBinderWriterData (`offsets == NULL` and an empty array are not
distinguished), together with the memory of the process. -/
structure Writer where
  io : Io
  protocol : Protocol
  bytes : Bytes := []
  offsets : List Nat := []
  buffersSize : Nat := 0
  cleanup : List CleanupItem := []
  mem : Mem := []
  deriving DecidableEq, Repr

/-! ### Byte array primitives -/

/-- `g_byte_array_set_size` (GLib): bytes added by growing are uninitialised
(called at gbinder_writer.c:215-710). -/
def setSize (j : Nat → Byte) (b : Bytes) (n : Nat) : Bytes :=
  if n ≤ b.length then b.take n
  else b ++ (List.range (n - b.length)).map (fun i => j (b.length + i))

/-- A store of `bs` at offset `off` of the array; undefined outside of the array
(gbinder_writer.c:215-710). -/
def store (b : Bytes) (off : Nat) (bs : Bytes) : Except UB Bytes :=
  if off + bs.length ≤ b.length then .ok (poke b off bs) else .error .oob

/-- gbinder_writer.c:215-230 `gbinder_writer_data_append_padded`. -/
def bufAppendPadded (j : Nat → Byte) (b data : Bytes) : Except UB Bytes := do
  let paddedSize := 4
  let b1 := setSize j b (b.length + paddedSize)
  let ptr := b1.length - paddedSize
  let b2 ← store b1 ptr data
  store b2 (ptr + data.length) (List.replicate (paddedSize - data.length) 0)

/-- gbinder_writer.c:290-301, 360-371 (int32, float): a 4-byte store into new space.
gbinder_writer.c:335-346, 385-396 (int64, double): an 8-byte store. -/
def bufAppendWord (j : Nat → Byte) (b : Bytes) (n v : Nat) : Except UB Bytes :=
  let b1 := setSize j b (b.length + n)
  store b1 (b1.length - n) (leBytes n v)

/-- gbinder_writer.c:427-449 `gbinder_writer_data_append_string8_len` for non-NULL `str`. -/
def bufAppendString8 (j : Nat → Byte) (b str : Bytes) : Except UB Bytes := do
  let oldSize := b.length
  let paddedLen := align4 (str.length + 1)
  let b1 := setSize j b (oldSize + paddedLen)
  let b2 ← store b1 (oldSize + 4 * (paddedLen / 4 - 1)) (leBytes 4 0)
  store b2 oldSize str

/-- gbinder_writer.c:489-502 `gbinder_writer_data_append_string16_empty`. -/
def bufAppendString16Empty (j : Nat → Byte) (b : Bytes) : Except UB Bytes :=
  let oldSize := b.length
  let b1 := setSize j b (oldSize + 8)
  store b1 oldSize (leBytes 2 0 ++ leBytes 2 0 ++ leBytes 2 0 ++ leBytes 2 0xffff)

/-- UTF-16 units as stored in memory. -/
def utf16Bytes (us : List Nat) : Bytes := us.flatMap (leBytes 2)

/-- gbinder_writer.c:583-602 and 519-556: length word, units, zero padding. -/
def bufAppendUnits (j : Nat → Byte) (b : Bytes) (us : List Nat) : Except UB Bytes := do
  let oldSize := b.length
  let paddedSize := align4 ((us.length + 1) * 2)
  let b1 := setSize j b (oldSize + paddedSize + 4)
  let b2 ← store b1 oldSize (leBytes 4 us.length)
  let b3 ← store b2 (oldSize + 4) (utf16Bytes us)
  store b3 (oldSize + 4 + 2 * us.length) (List.replicate (paddedSize - 2 * us.length) 0)

/-- gbinder_writer.c:504-564 `gbinder_writer_data_append_string16_len`: `none` is NULL,
otherwise the `num_bytes` bytes of text (up to the first NUL if `num_bytes` is negative).
The text is cut at the first invalid character or NUL. `g_utf8_to_utf16` does not fail on
validated text, so the branch keeping `utf16 == NULL` is not modelled. -/
def bufAppendString16 (j : Nat → Byte) (b : Bytes) (utf8 : Option Bytes) : Except UB Bytes :=
  match utf8 with
  | none => bufAppendWord j b 4 0xffffffff -- gbinder_writer_data_append_string16_null, 480-487
  | some s =>
    let numBytes := utf8ValidLen s
    if 0 < numBytes then bufAppendUnits j b (utf8ToUtf16 (s.take numBytes))
    else bufAppendString16Empty j b

/-- gbinder_writer.c:566-610 `gbinder_writer_data_append_string16_utf16`: `none` is NULL,
otherwise the `length` units (up to the first NUL if `length` is negative). NULL with a positive
`length`, for which the code reads from NULL, is excluded: the units have to exist. -/
def bufAppendUtf16 (j : Nat → Byte) (b : Bytes) (utf16 : Option (List Nat)) : Except UB Bytes :=
  match utf16 with
  | none => bufAppendWord j b 4 0xffffffff
  | some us =>
    if 0 < us.length then bufAppendUnits j b us
    else bufAppendString16Empty j b

/-- gbinder_writer.c:1198-1236 `gbinder_writer_append_byte_array` (`none` is NULL). -/
def bufAppendByteArray (j : Nat → Byte) (b : Bytes) (arr : Option Bytes) : Except UB Bytes :=
  let data := arr.getD []
  let len := data.length
  let paddedLen := align4 len
  let b1 := setSize j b (b.length + 4 + paddedLen)
  let ptr := b1.length - 4 - paddedLen
  if 0 < len then do
    let b2 ← store b1 ptr (leBytes 4 len)
    let b3 ← store b2 (ptr + 4) data
    if len < paddedLen then store b3 (ptr + 4 + len) (List.replicate (paddedLen - len) 0xff)
    else .ok b3
  else store b1 ptr (leBytes 4 0xffffffff)

/-- gbinder_writer.c:922-961 `gbinder_writer_data_append_parcelable` (`none` is NULL).
The size word is stored as guint32. -/
def bufAppendParcelable (j : Nat → Byte) (b : Bytes) (data : Option Bytes) : Except UB Bytes :=
  match data with
  | some d => do
    let b1 ← bufAppendWord j b 4 1
    let b2 ← bufAppendWord j b1 4 (d.length + 4)
    .ok (b2 ++ d)
  | none => bufAppendWord j b 4 0

/-! ### Plain values -/

namespace Writer

/-- Replaces the byte array (all other fields unchanged) (data->bytes, gbinder_writer.c:215-710). -/
def withBytes (w : Writer) (b : Except UB Bytes) : Except UB Writer :=
  b.map fun b => { w with bytes := b }

/-- gbinder_writer.c:232-252. -/
def appendBool (e : Env) (w : Writer) (v : Bool) : Except UB Writer :=
  w.withBytes (bufAppendPadded e.junk w.bytes [if v then 1 else 0])

/-- gbinder_writer.c:254-264. -/
def appendInt8 (e : Env) (w : Writer) (v : UInt8) : Except UB Writer :=
  w.withBytes (bufAppendPadded e.junk w.bytes (leBytes 1 v.toNat))

/-- gbinder_writer.c:266-276. -/
def appendInt16 (e : Env) (w : Writer) (v : UInt16) : Except UB Writer :=
  w.withBytes (bufAppendPadded e.junk w.bytes (leBytes 2 v.toNat))

/-- gbinder_writer.c:278-301 (also the bit pattern of a float, 348-371). -/
def appendInt32 (e : Env) (w : Writer) (v : UInt32) : Except UB Writer :=
  w.withBytes (bufAppendWord e.junk w.bytes 4 v.toNat)

/-- gbinder_writer.c:323-346 (also the bit pattern of a double, 373-396). -/
def appendInt64 (e : Env) (w : Writer) (v : UInt64) : Except UB Writer :=
  w.withBytes (bufAppendWord e.junk w.bytes 8 v.toNat)

/-- gbinder_writer.c:398-449; `none` is NULL which appends nothing. -/
def appendString8 (e : Env) (w : Writer) (s : Option Bytes) : Except UB Writer :=
  match s with
  | some s => w.withBytes (bufAppendString8 e.junk w.bytes s)
  | none => .ok w

/-- gbinder_writer.c:451-478, 504-564. -/
def appendString16 (e : Env) (w : Writer) (s : Option Bytes) : Except UB Writer :=
  w.withBytes (bufAppendString16 e.junk w.bytes s)

/-- gbinder_writer.c:612-623. -/
def appendUtf16 (e : Env) (w : Writer) (s : Option (List Nat)) : Except UB Writer :=
  w.withBytes (bufAppendUtf16 e.junk w.bytes s)

/-- gbinder_writer.c:625-636. -/
def appendBytes (w : Writer) (data : Bytes) : Except UB Writer :=
  w.withBytes (.ok (w.bytes ++ data))

/-- gbinder_writer.c:1198-1236. -/
def appendByteArray (e : Env) (w : Writer) (data : Option Bytes) : Except UB Writer :=
  w.withBytes (bufAppendByteArray e.junk w.bytes data)

/-- gbinder_writer.c:922-961. -/
def appendParcelable (e : Env) (w : Writer) (data : Option Bytes) : Except UB Writer :=
  w.withBytes (bufAppendParcelable e.junk w.bytes data)

/-- gbinder_writer.c:303-321. `buf->len >= offset + sizeof(gint32)` is evaluated in gsize
arithmetic (64 bits) and may wrap around. -/
def overwriteInt32 (w : Writer) (offset : Nat) (v : UInt32) : Except UB Writer :=
  if (offset + 4) % 2 ^ 64 ≤ w.bytes.length then
    w.withBytes (store w.bytes offset (leBytes 4 v.toNat))
  else .ok w

/-- gbinder_writer.c:206-213. -/
def bytesWritten (w : Writer) : Nat := w.bytes.length

/-! ### Objects -/

/-- gbinder_writer.c:163-173 `gbinder_writer_data_record_offset`. -/
def recordOffset (w : Writer) (offset : Nat) : Writer :=
  { w with offsets := w.offsets ++ [offset] }

/-- Common part of the object writers (e.g. gbinder_writer.c:905-910): preallocate `reserve`
bytes, let the encoder fill the beginning, cut to the size it returned. The encoder is not told
how much has been reserved: if it writes more than that, the write is out of bounds unless the
array happens to have spare capacity. -/
def putObject (e : Env) (w : Writer) (reserve : Nat) (enc : Bytes) : Except UB Writer :=
  let offset := w.bytes.length
  let b1 := setSize e.junk w.bytes (offset + reserve)
  if enc.length ≤ reserve + e.slack (offset + reserve) then
    .ok { w with bytes := setSize e.junk (poke b1 offset enc) (offset + enc.length) }
  else .error .oob

/-- gbinder_io.h:145 `GBINDER_MAX_BINDER_OBJECT_SIZE`. -/
def maxBinderObjectSize : Nat := 28

/-- gbinder_io.h:154 `GBINDER_MAX_BUFFER_OBJECT_SIZE`. -/
def maxBufferObjectSize : Nat := 40

/-- gbinder_writer.c:650-677 `gbinder_writer_data_append_fd`; `dup` is the result of
fcntl(F_DUPFD_CLOEXEC), `none` if it failed. -/
def appendFd (e : Env) (w : Writer) (fd : Nat) (dup : Option Nat) : Except UB Writer := do
  let offset := w.bytes.length
  match dup with
  | none =>
    let w1 ← putObject e w maxBinderObjectSize (encodeFdObject w.io fd)
    .ok (recordOffset w1 offset)
  | some d =>
    let w1 ← putObject e w maxBinderObjectSize (encodeFdObject w.io d)
    .ok (recordOffset { w1 with cleanup := w1.cleanup ++ [.closeFd d] } offset)

/-- gbinder_writer.c:691-710 `gbinder_writer_data_append_fda_object`. It reserves
GBINDER_MAX_BINDER_OBJECT_SIZE = 28 bytes although the 64-bit encoding takes 32. -/
def appendFdaObject (e : Env) (w : Writer) (numFds : Nat) (parent : Parent) : Except UB Writer := do
  let offset := w.bytes.length
  let w1 ← putObject e w maxBinderObjectSize (encodeFdaObject w.io numFds parent)
  .ok (recordOffset w1 offset)

/-- gbinder_writer.c:893-916 `gbinder_writer_data_append_buffer_object`. Returns the index. -/
def appendBufferObject (e : Env) (w : Writer) (ptr size : Nat) (parent : Option Parent) :
    Except UB (Nat × Writer) := do
  let index := w.offsets.length
  let offset := w.bytes.length
  let w1 ← putObject e w maxBufferObjectSize (encodeBufferObject w.io ptr size parent)
  let w2 := recordOffset w1 offset
  .ok (index, { w2 with buffersSize := w2.buffersSize + align8 size })

/-- gbinder_writer.c:712-733 `gbinder_writer_data_append_fds`: address of the GBinderFds
structure with its `num_fds` and `num_ints`, or NULL. sizeof(GBinderFds) is 12. -/
def appendFds (e : Env) (w : Writer) (fds : Option (Nat × Nat × Nat)) (parent : Option Parent) :
    Except UB Writer :=
  match fds with
  | some (addr, numFds, numInts) => do
    let total := 12 + 4 * ((numFds + numInts) % 2 ^ 32)
    let w1 ← w.withBytes (bufAppendWord e.junk w.bytes 8 total)
    let (idx, w2) ← appendBufferObject e w1 addr total parent
    appendFdaObject e w2 numFds { index := idx, offset := 12 }
  | none => w.withBytes (bufAppendWord e.junk w.bytes 8 0)

/-- gbinder_writer.c:1152-1184 `gbinder_writer_data_append_local_object`. -/
def appendLocalObject (e : Env) (w : Writer) (obj : Option LocalRef) : Except UB Writer := do
  let offset := w.bytes.length
  let w1 ← putObject e w maxBinderObjectSize (encodeLocalObject w.io w.protocol obj)
  match obj with
  | some _ => .ok (recordOffset w1 offset)
  | none => .ok w1

/-- gbinder_writer.c:1299-1319 `gbinder_writer_data_append_remote_object` (by handle). -/
def appendRemoteObject (e : Env) (w : Writer) (handle : Option Nat) : Except UB Writer := do
  let offset := w.bytes.length
  let w1 ← putObject e w maxBinderObjectSize (encodeRemoteObject w.io handle)
  match handle with
  | some _ => .ok (recordOffset w1 offset)
  | none => .ok w1

/-! ### Memory owned by the parcel -/

/-- g_malloc/g_new0 + initialisation: adds a block holding `data`, returns its address. -/
def newBlock (e : Env) (w : Writer) (data : Bytes) : Nat × Writer :=
  let a := e.alloc w.mem data.length
  (a, { w with mem := (a, data) :: w.mem })

/-- `data->cleanup = gbinder_cleanup_add(data->cleanup, ...)`
(gbinder_writer.c:105-125, 1381-1394). -/
def addCleanup (w : Writer) (c : CleanupItem) : Writer :=
  { w with cleanup := w.cleanup ++ [c] }

/-- `gutil_memdup(base, total)`: NULL for NULL or for zero bytes (g_malloc(0) is NULL). -/
def memdup (e : Env) (w : Writer) (base total : Nat) : Except UB (Nat × Writer) :=
  if base = 0 ∨ total = 0 then .ok (0, w)
  else match w.mem.load base total with
    | some bs => .ok (newBlock e w bs)
    | none => .error .oob

/-! ### HIDL types -/

/-- include/gbinder_types.h GBinderHidlVec: data.ptr (8), count (4), owns_buffer (1), pad (3). -/
def hidlVecBytes (ptr count : Nat) (owns : Bool) : Bytes :=
  leBytes 8 ptr ++ leBytes 4 count ++ [if owns then 1 else 0] ++ [0, 0, 0]

/-- include/gbinder_types.h GBinderHidlString: data.str (8), len (4), owns_buffer (1), pad (3). -/
def hidlStringBytes (ptr len : Nat) (owns : Bool) : Bytes :=
  leBytes 8 ptr ++ leBytes 4 len ++ [if owns then 1 else 0] ++ [0, 0, 0]

/-- gbinder_writer.c:990-1016 `gbinder_writer_data_append_hidl_vec`.
`count * elemsize` is a guint product. -/
def appendHidlVec (e : Env) (w : Writer) (base count elemsize : Nat) : Except UB Writer := do
  let total := count * elemsize % 2 ^ 32
  let (buf, w1) ← memdup e w base total
  let w2 := if buf ≠ 0 then addCleanup w1 (.free buf) else w1
  let (vec, w3) := newBlock e w2
    (if buf ≠ 0 then hidlVecBytes buf count true else hidlVecBytes 0 0 true)
  let w4 := addCleanup w3 (.free vec)
  let (idx, w5) ← appendBufferObject e w4 vec 16 none
  let (_, w6) ← appendBufferObject e w5 buf total (some { index := idx, offset := 0 })
  .ok w6

/-- `str ? strlen(str) : 0`. -/
def strLen (m : Mem) (str : Nat) : Except UB Nat :=
  if str = 0 then .ok 0
  else match m.cstr str with
    | some s => .ok s.length
    | none => .error .oob

/-- gbinder_writer.c:1032-1061 `gbinder_writer_data_append_hidl_string`: pointer to the
NUL-terminated string (zero is NULL); the string itself is not copied. -/
def appendHidlString (e : Env) (w : Writer) (str : Nat) : Except UB Writer := do
  let len ← strLen w.mem str
  let (hs, w1) := newBlock e w (hidlStringBytes str len true)
  let w2 := addCleanup w1 (.free hs)
  let (idx, w3) ← appendBufferObject e w2 hs 16 none
  let par : Parent := { index := idx, offset := 0 }
  let (_, w4) ← if str ≠ 0 then appendBufferObject e w3 str (len + 1) (some par)
    else appendBufferObject e w3 0 0 (some par)
  .ok w4

/-- gbinder_writer.c:1321-1379 `gbinder_writer_strdup`/`memdup`/`malloc`. -/
def strdup (e : Env) (w : Writer) (s : Bytes) : Nat × Writer :=
  let (a, w1) := newBlock e w (s ++ [0])
  (a, addCleanup w1 (.free a))

/-- gbinder_writer.c:975-988 `gbinder_writer_append_hidl_string_copy`; `empty` is the address
of the static empty string. -/
def appendHidlStringCopy (e : Env) (w : Writer) (str empty : Nat) : Except UB Writer :=
  if str = 0 then appendHidlString e w 0
  else match w.mem.cstr str with
    | none => .error .oob
    | some [] => appendHidlString e w empty
    | some s => let (a, w1) := strdup e w s; appendHidlString e w1 a

/-- gbinder_writer.c:1102-1111: descriptors of the strings at the given addresses. The `len`
field is guint32. -/
def hidlStringDescs (m : Mem) : List Nat → Except UB (List (Nat × Nat))
  | [] => .ok []
  | p :: ps => do
    let len ← strLen m p
    let ds ← hidlStringDescs m ps
    .ok ((p, len % 2 ^ 32) :: ds)

/-- gbinder_writer.c:1129-1146: one buffer object per string. `len + 1` and the parent offset
are guint32. -/
def appendStringBuffers (e : Env) (idx : Nat) :
    Writer → Nat → List (Nat × Nat) → Except UB Writer
  | w, _, [] => .ok w
  | w, off, (p, len) :: rest => do
    let par : Parent := { index := idx, offset := off }
    let (_, w1) ← if p ≠ 0 then appendBufferObject e w p ((len + 1) % 2 ^ 32) (some par)
      else appendBufferObject e w 0 0 (some par)
    appendStringBuffers e idx w1 ((off + 16) % 2 ^ 32) rest

/-- gbinder_writer.c:1076-1150 `gbinder_writer_data_append_hidl_string_vec`: addresses of the
strings (a zero is a NULL string). Addresses of the NULL-terminated array itself are abstracted. -/
def appendHidlStringVec (e : Env) (w : Writer) (strv : List Nat) : Except UB Writer := do
  let descs ← hidlStringDescs w.mem strv
  let count := strv.length
  let block := descs.flatMap (fun d => hidlStringBytes d.1 d.2 (decide (d.1 ≠ 0)))
  let (strings, w1) := if 0 < count then newBlock e w block else (0, w)
  let w2 := if 0 < count then addCleanup w1 (.free strings) else w1
  let (vec, w3) := newBlock e w2 (hidlVecBytes strings count true)
  let w4 := addCleanup w3 (.free vec)
  let (vidx, w5) ← appendBufferObject e w4 vec 16 none
  let vpar : Parent := { index := vidx, offset := 0 }
  if strings ≠ 0 then
    let sidx := w5.offsets.length
    let (_, w6) ← appendBufferObject e w5 strings (16 * count) (some vpar)
    appendStringBuffers e sidx w6 0 descs
  else
    let (_, w6) ← appendBufferObject e w5 0 0 (some vpar)
    .ok w6

/-! ### Structures described by GBinderWriterType -/

/-- include/gbinder_writer.h GBinderWriterField. The three kinds of fields: `write_buf` is NULL
(`ptr`, `field->type` being the pointed-to type), gbinder_writer_field_hidl_string_write_buf
(`str`) and gbinder_writer_field_hidl_vec_write_buf (`vec`). User supplied `write_buf` callbacks
are not modelled. `GBinderWriterType` is its size and fields (the code never looks at the fields of
the pointed-to type of a `ptr`, only at its size: gbinder_writer.c:784-787)
(include/gbinder_writer.h:100-107, gbinder_writer.c:764-891). -/
inductive WField
  | ptr (offset size : Nat) (fields : List WField)
  | str (offset : Nat)
  | vec (offset : Nat) (elemSize : Nat) (fields : List WField)
  | vecNoType (offset : Nat)

/-- A pointer-sized (64-bit union) load, e.g. `*(void**)field_ptr` or `vec->data.ptr`. -/
def loadPtr (m : Mem) (a : Nat) : Except UB Nat :=
  match m.load a 8 with
  | some bs => .ok (leVal bs)
  | none => .error .oob

/-- A load of `n` bytes (gbinder_writer.c:764-891). -/
def loadBytes (m : Mem) (a n : Nat) : Except UB Bytes :=
  match m.load a n with
  | some bs => .ok bs
  | none => .error .oob

/-- `vec->count` / `str->len` (gbinder_writer.c:764-891). -/
def loadU32 (m : Mem) (a : Nat) : Except UB Nat :=
  match m.load a 4 with
  | some bs => .ok (leVal bs)
  | none => .error .oob

/-- GBinderParent.offset is guint32 (include/gbinder_types.h): gbinder_writer.c:781. -/
def _root_.Gb.Parent.plus (par : Parent) (off : Nat) : Parent :=
  { par with offset := (par.offset + off) % 2 ^ 32 }

mutual
/-- gbinder_writer.c:764-790 `gbinder_writer_append_fields`, the body of the loop, with
gbinder_writer_field_hidl_vec_write_buf (852-878) and
gbinder_writer_field_hidl_string_write_buf (880-891) for the corresponding kinds.
`child.offset` is guint32, `vec->count * elem_type->size` is gsize. -/
def appendField (e : Env) (w : Writer) (obj : Nat) (par : Parent) : WField → Except UB Writer
  | .ptr off size _ => do
    let p ← loadPtr w.mem (obj + off)
    let (_, w1) ← appendBufferObject e w p size (some (par.plus off))
    .ok w1
  | .str off => do
    let p ← loadPtr w.mem (obj + off)
    let len ← loadU32 w.mem (obj + off + 8)
    let (_, w1) ← appendBufferObject e w p (if p ≠ 0 then (len + 1) % 2 ^ 32 else 0)
      (some (par.plus off))
    .ok w1
  | .vec off esize fields => do
    let buf ← loadPtr w.mem (obj + off)
    let count ← loadU32 w.mem (obj + off + 8)
    let (idx, w1) ← appendBufferObject e w buf (count * esize % 2 ^ 64) (some (par.plus off))
    (List.range count).foldlM
      (fun w i => appendFields e w (buf + esize * i % 2 ^ 32)
        { index := idx, offset := esize * i % 2 ^ 32 } fields) w1
  | .vecNoType off => do
    let buf ← loadPtr w.mem (obj + off)
    let (_, w1) ← appendBufferObject e w buf 0 (some (par.plus off))
    .ok w1

/-- gbinder_writer.c:778-788: the loop over the fields. -/
def appendFields (e : Env) (w : Writer) (obj : Nat) (par : Parent) :
    List WField → Except UB Writer
  | [] => .ok w
  | f :: fs => do
    let w1 ← appendField e w obj par f
    appendFields e w1 obj par fs
end

/-- gbinder_writer.c:799-817 `gbinder_writer_append_struct` (`type` non-NULL: its size and
fields). -/
def appendStruct (e : Env) (w : Writer) (ptr size : Nat) (fields : List WField)
    (parent : Option Parent) : Except UB Writer := do
  let (idx, w1) ← appendBufferObject e w ptr size parent
  appendFields e w1 ptr { index := idx, offset := 0 } fields

/-- gbinder_writer.c:824-850 `gbinder_writer_append_struct_vec` (`type` non-NULL). -/
def appendStructVec (e : Env) (w : Writer) (ptr count esize : Nat) (fields : List WField) :
    Except UB Writer :=
  let (vec, w1) := newBlock e w (hidlVecBytes ptr count true)
  let w2 := addCleanup w1 (.free vec)
  appendStruct e w2 vec 16 [.vec 0 esize fields] none

/-- gbinder_writer.c:1240-1295 `gbinder_writer_append_fmq_descriptor`; `desc` is the address of
the queue's GBinderMQDescriptor (32 bytes: grantors vec, pointer to GBinderFds, quantum, flags;
src/gbinder_fmq_p.h:71-87). -/
def appendFmqDescriptor (e : Env) (w : Writer) (desc : Nat) : Except UB Writer := do
  let grantors ← loadPtr w.mem desc
  let count ← loadU32 w.mem (desc + 8)
  let fdsPtr ← loadPtr w.mem (desc + 16)
  let numFds ← loadU32 w.mem (fdsPtr + 4)
  let numInts ← loadU32 w.mem (fdsPtr + 8)
  let tail ← loadBytes w.mem (desc + 24) 8
  let owns ← loadBytes w.mem (desc + 12) 4
  let vecTotal := count * 24
  let (vecBuf, w1) ← memdup e w grantors vecTotal
  let fdsTotal := 12 + 4 * ((numFds + numInts) % 2 ^ 32)
  let (fds, w2) ← memdup e w1 fdsPtr fdsTotal
  let w3 := addCleanup w2 (.free fds)
  let w4 := if vecBuf ≠ 0 then addCleanup w3 (.free vecBuf) else w3
  let (mq, w5) := newBlock e w4
    ((if vecBuf ≠ 0 then leBytes 8 vecBuf ++ leBytes 4 count ++ 1 :: owns.drop 1
      else leBytes 8 grantors ++ leBytes 4 count ++ owns) ++ leBytes 8 fds ++ tail)
  let w6 := addCleanup w5 (.free mq)
  let (idx, w7) ← appendBufferObject e w6 mq 32 none
  let (_, w8) ← appendBufferObject e w7 vecBuf vecTotal (some { index := idx, offset := 0 })
  appendFds e w8 (some (fds, numFds, numInts)) (some { index := idx, offset := 16 })

/-- gbinder_writer.c:1321-1353 `gbinder_writer_malloc`/`gbinder_writer_malloc0`: `data` is what
the block holds by the time anyone looks at it (junk, zeros, or what the caller put there).
g_malloc(0) is NULL, which is added to the cleanup list too (g_free(NULL) does nothing). -/
def malloc (e : Env) (w : Writer) (data : Bytes) : Nat × Writer :=
  if data = [] then (0, addCleanup w (.free 0))
  else
    let (a, w1) := newBlock e w data
    (a, addCleanup w1 (.free a))

/-- gbinder_writer.c:1364-1379 `gbinder_writer_memdup`. -/
def dupMemory (e : Env) (w : Writer) (buf size : Nat) : Except UB (Nat × Writer) :=
  if buf = 0 then .ok (0, w)
  else match w.mem.load buf size with
    | some bs => .ok (malloc e w bs)
    | none => .error .oob

end Writer
end Gb
