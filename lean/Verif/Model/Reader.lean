import Verif.Model.Mem
import Verif.Model.Utf
/-
src/gbinder_reader.c: parsing a received parcel.

The received buffer is a byte list, pointers into it are offsets.  Dereferencing anything
outside of the buffer is the outcome `ub .oob`.  The address range of a buffer does not wrap
around, so `ptr + n <= end` is compared without overflow; `end - ptr` converted to gsize does
wrap around when `ptr` is behind `end`.  Output parameters which may be NULL are modelled as
results (passing NULL has the same effect on the reader).
-/
set_option autoImplicit false

namespace Gb

/-- gbinder_reader.c:44-50 GBinderReaderPriv. `buf` is the whole received buffer,
`start`, `pos`, `fin` (`p->end`) are offsets in it, `objects` is the NULL-terminated array of
the pending object pointers (as offsets), `hasReg` is `data && data->reg`, `io` and `proto` come
from the registry and the buffer. A NULL buffer is an empty one. -/
structure Reader where
  buf : Bytes
  start : Nat
  fin : Nat
  pos : Nat
  objects : List Nat
  hasReg : Bool
  io : Io
  proto : Protocol
  deriving DecidableEq, Repr

/-- Outcome of a reading function: success with a value, failure, or undefined behaviour
(the functions of gbinder_reader.c:87-849 return gboolean or a pointer). -/
inductive Res (α : Type) where
  | ok (a : α) (r : Reader)
  | fail (r : Reader)
  | ub (k : UB)
  deriving DecidableEq, Repr

/-- Sequencing of two calls where the second one is made only if the first one succeeded
(gbinder_reader.c:87-849, no code of its own). -/
def Res.bind {α β : Type} (x : Res α) (f : α → Reader → Res β) : Res β :=
  match x with
  | .ok a r => f a r
  | .fail r => .fail r
  | .ub k => .ub k

/-- Applies a function to the value of a successful outcome
(gbinder_reader.c:87-849, no code of its own). -/
def Res.map {α β : Type} (f : α → β) (x : Res α) : Res β :=
  x.bind (fun a r => .ok (f a) r)

namespace Reader

/-- gbinder_reader.c:59-85 `gbinder_reader_init(reader, data, offset, len)`. -/
def init (io : Io) (proto : Protocol) (buf : Bytes) (objects : List Nat) (hasReg : Bool)
    (offset len : Nat) : Reader :=
  { buf := buf, start := offset, fin := offset + len, pos := offset, objects := objects,
    hasReg := hasReg, io := io, proto := proto }

/-- gbinder_reader.c:87-94. -/
def atEnd (r : Reader) : Bool := r.fin ≤ r.pos

/-- `p->end - p->ptr` converted to gsize (gbinder_reader.c:103, 848). -/
def remaining (r : Reader) : Nat :=
  if r.pos ≤ r.fin then r.fin - r.pos else 2 ^ 64 - (r.pos - r.fin)

/-- gbinder_reader.c:96-104 `gbinder_reader_can_read`. -/
def canRead (r : Reader) (n : Nat) : Bool := n ≤ r.remaining

/-- gbinder_reader.c:833-840. -/
def bytesRead (r : Reader) : Nat := r.pos - r.start

/-- gbinder_reader.c:842-849. -/
def bytesRemaining (r : Reader) : Nat := r.remaining

/-- gbinder_reader.c:808-831 `gbinder_reader_get_data`: all of the buffer, wherever the reader starts and
whatever has been read. (gbinder_reader_copy, lines 851-861, copies the structure.) -/
def getData (r : Reader) : Bytes := r.buf

/-- Dereference `n` bytes at absolute offset `off`; out of the buffer it is undefined
(loads in gbinder_reader.c:106-849). -/
def deref {α : Type} (r : Reader) (off n : Nat) (k : Bytes → Res α) : Res α :=
  match slice r.buf off n with
  | some bs => k bs
  | none => .ub .oob

/-- `p->ptr += n` (gbinder_reader.c:106-849). -/
def advance (r : Reader) (n : Nat) : Reader := { r with pos := r.pos + n }

/-- gbinder_reader.c:106-120. -/
def readByte (r : Reader) : Res Nat :=
  if r.pos < r.fin then r.deref r.pos 1 fun bs => .ok (leVal bs) (r.advance 1)
  else .fail r

/-- gbinder_reader.c:202-228 (uint32, int32), 258-276 (float): 4-byte values;
gbinder_reader.c:230-256 (uint64, int64), 278-296 (double): 8-byte values. -/
def readWord (r : Reader) (n : Nat) : Res Nat :=
  if r.canRead n then r.deref r.pos n fun bs => .ok (leVal bs) (r.advance n)
  else .fail r

/-- gbinder_reader.c:210-228. -/
def readUInt32 (r : Reader) : Res Nat := r.readWord 4

/-- gbinder_reader.c:238-256. -/
def readUInt64 (r : Reader) : Res Nat := r.readWord 8

/-- gbinder_reader.c:122-146. -/
def readBool (r : Reader) : Res Bool := r.readUInt32.map (fun v => decide (v ≠ 0))

/-- gbinder_reader.c:148-173. -/
def readUInt8 (r : Reader) : Res Nat :=
  if r.canRead 4 then r.deref r.pos 1 fun bs => .ok (leVal bs) (r.advance 4)
  else .fail r

/-- gbinder_reader.c:175-200. -/
def readUInt16 (r : Reader) : Res Nat :=
  if r.canRead 4 then r.deref r.pos 2 fun bs => .ok (leVal bs) (r.advance 4)
  else .fail r

/-! ### Strings and arrays -/

/-- gbinder_reader.c:629 `while (ptr < p->end && *ptr) ptr++`: the number of steps. -/
def scanNul (b : Bytes) (pos fin : Nat) : Nat :=
  (((b.drop pos).take (fin - pos)).takeWhile (· ≠ 0)).length

/-- gbinder_reader.c:621-643 `gbinder_reader_read_string8`; the result is the text up to the
terminator. -/
def readString8 (r : Reader) : Res Bytes :=
  if r.fin ≤ r.buf.length ∨ r.fin ≤ r.pos then
    let len := scanNul r.buf r.pos r.fin
    if r.pos + len < r.fin then
      let size := align4 (len + 1)
      if r.pos + size ≤ r.fin then
        r.deref r.pos len fun s => .ok s (r.advance size)
      else .fail r
    else .fail r
  else .ub .oob

/-- Value of a gint32 given as its unsigned representation. -/
def toInt32 (v : Nat) : Int := if v < 2 ^ 31 then (v : Int) else (v : Int) - 2 ^ 32

/-- gbinder_reader.c:646-685 `gbinder_reader_read_nullable_string8`. `len + 1` is computed in
gint32 and overflows for INT32_MAX. -/
def readNullableString8 (r : Reader) : Res (Option Bytes) :=
  if r.pos + 4 ≤ r.fin then
    r.deref r.pos 4 fun bs =>
      let len := leVal bs
      if len = 0xffffffff then .ok none (r.advance 4)
      else if len < 2 ^ 31 then
        if len + 1 < 2 ^ 31 then
          let paddedLen := align4 (len + 1)
          if r.pos + paddedLen + 4 ≤ r.fin then
            r.deref (r.pos + 4) (len + 1) fun s =>
              if s.drop len = [0] then .ok (some (s.take len)) (r.advance (paddedLen + 4))
              else .fail r
          else .fail r
        else .ub .overflow
      else .fail r
  else .fail r

/-- UTF-16 units stored in memory. -/
def unitsOf : Bytes → List Nat
  | a :: b :: rest => leVal [a, b] :: unitsOf rest
  | _ => []

/-- gbinder_reader.c:705-747 `gbinder_reader_read_nullable_string16_utf16`. `(len + 1) * 2` is
computed in gint32 and overflows for len >= 0x3fffffff. -/
def readNullableUtf16 (r : Reader) : Res (Option (List Nat)) :=
  if r.pos + 4 ≤ r.fin then
    r.deref r.pos 4 fun bs =>
      let len := leVal bs
      if len = 0xffffffff then .ok none (r.advance 4)
      else if len < 2 ^ 31 then
        if (len + 1) * 2 < 2 ^ 31 then
          let paddedLen := align4 ((len + 1) * 2)
          if r.pos + paddedLen + 4 ≤ r.fin then
            r.deref (r.pos + 4) ((len + 1) * 2) fun s =>
              let us := unitsOf s
              if us.drop len = [0] then .ok (some (us.take len)) (r.advance (paddedLen + 4))
              else .fail r
          else .fail r
        else .ub .overflow
      else .fail r
  else .fail r

/-- gbinder_reader.c:688-703 `gbinder_reader_read_nullable_string16`: `none` is NULL, which is
also the result for text that is not valid UTF-16. -/
def readNullableString16 (r : Reader) : Res (Option Bytes) :=
  r.readNullableUtf16.map (fun s => match s with
    | some us => utf16ToUtf8 us
    | none => none)

/-- gbinder_reader.c:764-772: NULL on failure too. The reader moves as above. -/
def readString16 (r : Reader) : Res (Option Bytes) :=
  match r.readNullableString16 with
  | .ok s r' => .ok s r'
  | .fail r' => .ok none r'
  | .ub k => .ub k

/-- gbinder_reader.c:749-762 `gbinder_reader_read_string16_utf16`. -/
def readUtf16 (r : Reader) : Res (Option (List Nat)) :=
  match r.readNullableUtf16 with
  | .ok s r' => .ok s r'
  | .fail r' => .ok none r'
  | .ub k => .ub k

/-- gbinder_reader.c:774-779. -/
def skipString16 (r : Reader) : Res Unit := r.readNullableUtf16.map (fun _ => ())

/-- gbinder_reader.c:781-806 `gbinder_reader_read_byte_array`. The result is the array. A length
less than or equal to zero gives a non-NULL pointer and zero size. `sizeof(*ptr) + *ptr` is
computed in gsize. -/
def readByteArray (r : Reader) : Res Bytes :=
  if r.canRead 4 then
    r.deref r.pos 4 fun bs =>
      let len := leVal bs
      if len = 0 ∨ 2 ^ 31 ≤ len then .ok [] (r.advance 4)
      else if r.canRead (4 + len) then
        r.deref (r.pos + 4) len fun d => .ok d (r.advance (4 + align4 len))
      else .fail r
  else .fail r

/-- gbinder_reader.c:433-461 `gbinder_reader_read_parcelable`; `none` is the NULL result, after
which the words already parsed stay consumed. -/
def readParcelable (r : Reader) : Res (Option Bytes) :=
  match r.readUInt32 with
  | .ub k => .ub k
  | .fail r => .ok none r
  | .ok nonNull r1 =>
    if nonNull = 0 then .ok none r1
    else match r1.readUInt32 with
      | .ub k => .ub k
      | .fail r => .ok none r
      | .ok size r2 =>
        if 4 ≤ size then
          let payload := size - 4
          if r2.pos + payload ≤ r2.fin then
            r2.deref r2.pos payload fun d => .ok (some d) (r2.advance payload)
          else .ok none r2
        else .ok none r2

/-! ### Objects -/

/-- gbinder_reader.c:298-309 `gbinder_reader_can_read_object`. -/
def canReadObject (r : Reader) : Bool :=
  r.hasReg && (match r.objects with | o :: _ => r.pos == o | [] => false)

/-- `p->ptr += eaten; p->objects++` (gbinder_reader.c:311-405). -/
def eatObject (r : Reader) (n : Nat) : Reader :=
  { r with pos := r.pos + n, objects := r.objects.tail }

/-- gbinder_reader.c:311-330 with gbinder_io.c:589-609 `decode_fd_object`. -/
def readFd (r : Reader) : Res Nat :=
  if r.canReadObject then
    if r.io.flatSize ≤ r.bytesRemaining then
      r.deref r.pos 4 fun ty =>
        if leVal ty = typeFd then
          r.deref (r.pos + 8) 4 fun h => .ok (leVal h) (r.eatObject r.io.flatSize)
        else .fail r
    else .fail r
  else .fail r

/-- gbinder_reader.c:350-381 with gbinder_io.c:525-563 `decode_binder_object`; the result is the
handle to be looked up in the registry, `none` for a NULL reference. The size check does not
include the protocol's extra bytes. -/
def readNullableObject (r : Reader) : Res (Option Nat) :=
  if r.canReadObject then
    if r.io.flatSize ≤ r.bytesRemaining then
      r.deref r.pos 4 fun ty =>
        if leVal ty = typeHandle then
          r.deref (r.pos + 8) 4 fun h =>
            .ok (some (leVal h)) (r.eatObject (r.io.flatSize + r.proto.extra))
        else if leVal ty = typeBinder then
          r.deref (r.pos + 8) r.io.ptrSize fun b =>
            if leVal b = 0 then .ok none (r.eatObject (r.io.flatSize + r.proto.extra))
            else .fail r
        else .fail r
    else .fail r
  else .fail r

/-- gbinder_reader.c:383-405 `gbinder_reader_read_buffer_object`. -/
def readBufferObject (r : Reader) : Res BufferObj :=
  if r.canReadObject then
    match decodeBufferObject r.io r.buf r.pos with
    | some o => .ok o (r.eatObject r.io.bufferObjSize)
    | none => .fail r
  else .fail r

/-! ### HIDL types. `m` is the memory the kernel has delivered the buffers to. -/

/-- A load from delivered memory (gbinder_reader.c:407-625). -/
def loadMem {α : Type} (m : Mem) (a n : Nat) (k : Bytes → Res α) : Res α :=
  match m.load a n with
  | some bs => k bs
  | none => .ub .oob

/-- gbinder_reader.c:464-475: pointer to the structure or NULL (`none`). -/
def readHidlStruct (r : Reader) (size : Nat) : Res (Option Nat) :=
  match r.readBufferObject with
  | .ub k => .ub k
  | .fail r => .ok none r
  | .ok o r1 => if o.size = size then .ok (some o.data) r1 else .ok none r1

/-- Result of gbinder_reader_read_hidl_vec (gbinder_reader.c:478-513). -/
structure HidlVecOut where
  ptr : Nat
  count : Nat
  elemsize : Nat
  deriving DecidableEq, Repr

/-- gbinder_reader.c:478-513 `gbinder_reader_read_hidl_vec`. -/
def readHidlVec (m : Mem) (r : Reader) : Res (Option HidlVecOut) :=
  match r.readBufferObject with
  | .ub k => .ub k
  | .fail r => .ok none r
  | .ok o r1 =>
    if o.data ≠ 0 ∧ o.size = 16 then
      loadMem m o.data 8 fun p => loadMem m (o.data + 8) 4 fun c =>
        let next := leVal p
        let count := leVal c
        if next ≠ 0 then
          match r1.readBufferObject with
          | .ub k => .ub k
          | .fail r => .ok none r
          | .ok o2 r2 =>
            if o2.data = next ∧ ((count = 0 ∧ o2.size = 0) ∨
                (count ≠ 0 ∧ o2.size ≠ 0 ∧ o2.size % count = 0)) then
              .ok (some { ptr := o2.data, count := count,
                          elemsize := if count ≠ 0 then o2.size / count else 0 }) r2
            else .ok none r2
        else if count = 0 then .ok (some { ptr := o.data, count := 0, elemsize := 0 }) r1
        else .ok none r1
    else .ok none r1

/-- gbinder_reader.c:516-527 `gbinder_reader_read_hidl_vec1`. -/
def readHidlVec1 (m : Mem) (r : Reader) (expected : Nat) : Res (Option HidlVecOut) :=
  (readHidlVec m r).map fun v => match v with
    | some o => if o.elemsize = expected ∨ o.elemsize = 0 then some o else none
    | none => none

/-- gbinder_reader.c:539-546 and 591-598: the checks on a string buffer `o` against the string
descriptor at address `desc`; `str->len + 1` is computed in guint32. The result is the text
(`none` if the checks fail). -/
def checkHidlString (m : Mem) (desc expectedOffset : Nat) (o : BufferObj) (r : Reader) :
    Res (Option Bytes) :=
  if o.hasParent ∧ o.parentOffset = expectedOffset then
    loadMem m desc 8 fun p => loadMem m (desc + 8) 4 fun l =>
      let str := leVal p
      let len := leVal l
      if o.data = str ∧ o.size = (len + 1) % 2 ^ 32 then
        loadMem m (str + len) 1 fun z =>
          if z = [0] then
            match m.cstr str with
            | some s => .ok (some s) r
            | none => .ub .oob
          else .ok none r
      else .ok none r
  else .ok none r

/-- gbinder_reader.c:529-557 `gbinder_reader_read_hidl_string(_c)`. -/
def readHidlString (m : Mem) (r : Reader) : Res (Option Bytes) :=
  match r.readBufferObject with
  | .ub k => .ub k
  | .fail r => .ok none r
  | .ok o r1 =>
    if o.data ≠ 0 ∧ o.size = 16 then
      match r1.readBufferObject with
      | .ub k => .ub k
      | .fail r => .ok none r
      | .ok o2 r2 => checkHidlString m o.data 0 o2 r2
    else .ok none r1

/-- gbinder_reader.c:585-605: the loop over the strings of a vector, starting with the string
number `i`, `n` strings left. -/
def readStringVecLoop (m : Mem) (strings : Nat) : Nat → Nat → Reader → Res (Option (List Bytes))
  | _, 0, r => .ok (some []) r
  | i, n + 1, r =>
    match r.readBufferObject with
    | .ub k => .ub k
    | .fail r => .ok none r
    | .ok o r1 =>
      match checkHidlString m (strings + 16 * i) (16 * i) o r1 with
      | .ub k => .ub k
      | .fail r => .fail r
      | .ok none r => .ok none r
      | .ok (some s) r2 =>
        match readStringVecLoop m strings (i + 1) n r2 with
        | .ok (some l) r => .ok (some (s :: l)) r
        | other => other

/-- gbinder_reader.c:559-618 `gbinder_reader_read_hidl_string_vec`. -/
def readHidlStringVec (m : Mem) (r : Reader) : Res (Option (List Bytes)) :=
  match r.readBufferObject with
  | .ub k => .ub k
  | .fail r => .ok none r
  | .ok o r1 =>
    if o.data ≠ 0 ∧ o.size = 16 then
      loadMem m (o.data + 8) 4 fun c => loadMem m o.data 8 fun p =>
        let n := leVal c
        let next := leVal p
        if next = 0 ∧ n = 0 then .ok (some []) r1
        else match r1.readBufferObject with
          | .ub k => .ub k
          | .fail r => .ok none r
          | .ok o2 r2 =>
            if o2.parentOffset = 0 ∧ o2.hasParent ∧ o2.data = next ∧ o2.size = 16 * n then
              readStringVecLoop m o2.data 0 n r2
            else .ok none r2
    else .ok none r1

end Reader
end Gb
