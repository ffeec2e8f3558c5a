import Verif.Model.Writer
/-
The operations of include/gbinder_writer.h as data, and copying of received parcels.
-/
set_option autoImplicit false

namespace Gb

/-- Description of a structure: GBinderWriterType (include/gbinder_writer.h), its size and
fields (include/gbinder_writer.h:94-98). -/
structure WType where
  size : Nat
  fields : List Writer.WField

/-- Calls of the public writer functions (include/gbinder_writer.h), plus `memory`: anything the
application does to the memory of the process between the calls. Floating point values are
given by their bit patterns. Addresses are numbers, zero being NULL (gbinder_writer.c:232-1394). -/
inductive WOp
  | bool (v : Bool)
  | int8 (v : UInt8)
  | int16 (v : UInt16)
  | int32 (v : UInt32)
  | int64 (v : UInt64)
  | string8 (s : Option Bytes)
  | string16 (s : Option Bytes)
  | utf16 (s : Option (List Nat))
  | bytes (data : Bytes)
  | byteArray (data : Option Bytes)
  | parcelable (data : Option Bytes)
  | fd (n : Nat) (dup : Option Nat)
  | fds (addr : Nat) (parent : Option Parent)
  | bufferObject (buf len : Nat) (parent : Option Parent)
  | localObject (obj : Option LocalRef)
  | remoteObject (handle : Option Nat)
  | hidlVec (base count elemsize : Nat)
  | hidlString (str : Nat)
  | hidlStringCopy (str empty : Nat)
  | hidlStringVec (strv : List Nat)
  | struct (ptr : Nat) (type : Option WType) (parent : Option Parent)
  | structVec (ptr count : Nat) (type : Option WType)
  | fmqDescriptor (desc : Nat)
  | malloc (data : Bytes)
  | memdup (buf size : Nat)
  | addCleanup (fn ptr : Nat)
  | memory (m : Mem)
  | overwriteInt32 (off : Nat) (v : UInt32)

namespace WOp
open Writer

/-- One call. `struct`/`structVec` without a type: gbinder_writer.c:814-816, 874-877.
`fds`: gbinder_writer.c:712-733 with the counters loaded from the structure; gbinder_writer_append_fds
is declared (include/gbinder_writer.h:235-239) but not defined, append_fmq_descriptor is the only way to
get there. `addCleanup` with a
NULL function does nothing (1381-1395). -/
def run (e : Env) (w : Writer) : WOp → Except UB Writer
  | .bool v => w.appendBool e v
  | .int8 v => w.appendInt8 e v
  | .int16 v => w.appendInt16 e v
  | .int32 v => w.appendInt32 e v
  | .int64 v => w.appendInt64 e v
  | .string8 s => w.appendString8 e s
  | .string16 s => w.appendString16 e s
  | .utf16 s => w.appendUtf16 e s
  | .bytes d => w.appendBytes d
  | .byteArray d => w.appendByteArray e d
  | .parcelable d => w.appendParcelable e d
  | .fd n d => w.appendFd e n d
  | .fds a par =>
    if a = 0 then w.appendFds e none par
    else do
      let nf ← loadU32 w.mem (a + 4)
      let ni ← loadU32 w.mem (a + 8)
      w.appendFds e (some (a, nf, ni)) par
  | .bufferObject b n par => (w.appendBufferObject e b n par).map (·.2)
  | .localObject o => w.appendLocalObject e o
  | .remoteObject h => w.appendRemoteObject e h
  | .hidlVec b c s => w.appendHidlVec e b c s
  | .hidlString s => w.appendHidlString e s
  | .hidlStringCopy s em => w.appendHidlStringCopy e s em
  | .hidlStringVec v => w.appendHidlStringVec e v
  | .struct p (some t) par => w.appendStruct e p t.size t.fields par
  | .struct p none par => (w.appendBufferObject e p 0 par).map (·.2)
  | .structVec p c (some t) => w.appendStructVec e p c t.size t.fields
  | .structVec p c none =>
    let (vec, w1) := w.newBlock e (hidlVecBytes p c true)
    (w1.addCleanup (.free vec)).appendStruct e vec 16 [.vecNoType 0] none
  | .fmqDescriptor d => w.appendFmqDescriptor e d
  | .malloc d => .ok (w.malloc e d).2
  | .memdup b n => (w.dupMemory e b n).map (·.2)
  | .addCleanup f p => .ok (if f = 0 then w else w.addCleanup (.user f p))
  | .memory m => .ok { w with mem := m }
  | .overwriteInt32 off v => w.overwriteInt32 off v

/-- A sequence of calls (gbinder_writer.c:232-1394). -/
def runAll (e : Env) : Writer → List WOp → Except UB Writer
  | w, [] => .ok w
  | w, op :: ops => do
    let w1 ← run e w op
    runAll e w1 ops

end WOp

/-! ### Copying a received parcel -/

/-- A received GBinderBuffer (gbinder_buffer.c): `data` and the objects the driver reported, as
offsets in `data` (`decode_transaction_data` turns them into pointers). `id` names its
GBinderBufferContents (gbinder_buffer.c:39-50). -/
structure RxBuffer where
  id : Nat
  protocol : Protocol
  data : Bytes
  objects : List Nat
  deriving DecidableEq, Repr

namespace Writer

/-- gbinder_io.c:506-523 `decode_binder_handle`: the handle. `none` if the type is different.
An access outside of the buffer is an error. -/
def decodeBinderHandle (b : Bytes) (off : Nat) : Except UB (Option Nat) :=
  match u32At b off with
  | none => .error .oob
  | some ty =>
    if ty = typeHandle then
      match u32At b (off + 8) with
      | some h => .ok (some h)
      | none => .error .oob
    else .ok none

/-- gbinder_writer.c:116-155: one object of the source buffer, `off` is where the data which
hasn't been copied yet begins. `convert` is the object converter (`none`: no conversion of that
handle). Offsets below `off` are excluded by an assertion only; like the code, the model then
copies the object anyway. -/
def copyObject (e : Env) (src : RxBuffer) (convert : Option (Nat → Option LocalRef))
    (st : Nat × Writer) (offset : Nat) : Except UB (Nat × Writer) := do
  let (off, w) := st
  let w1 := if off < offset then
      { w with bytes := w.bytes ++ (src.data.drop off).take (offset - off) } else w
  let off1 := if off < offset then offset else off
  let pos := w1.bytes.length
  let w2 := recordOffset w1 pos
  let local_ ← match convert with
    | none => .ok none
    | some f => do
      let h ← decodeBinderHandle src.data offset
      .ok (h.bind f)
  let dsize ← match objectDataSize w.io src.data offset with
    | some n => .ok n
    | none => .error .oob
  match local_ with
  | some obj =>
    let enc := encodeLocalObject w.io src.protocol (some obj)
    let w3 ← putObject e w2 maxBinderObjectSize enc
    let w4 := addCleanup w3 (.unrefLocal obj.addr)
    .ok (off1 + enc.length, { w4 with buffersSize := w4.buffersSize + align8 dsize })
  | none =>
    match objectSize w.io src.protocol src.data offset with
    | none => .error .oob
    | some n =>
      match slice src.data offset n with
      | none => .error .oob
      | some bs =>
        .ok (off1 + n, { w2 with bytes := w2.bytes ++ bs
                                 buffersSize := w2.buffersSize + align8 dsize })

/-- gbinder_writer.c:89-161 `gbinder_writer_data_append_contents` (of a buffer which has
contents). -/
def appendContents (e : Env) (w : Writer) (src : RxBuffer) (off : Nat)
    (convert : Option (Nat → Option LocalRef)) : Except UB Writer := do
  let w1 := addCleanup w (.unrefBuffer src.id)
  let (off', w2) ← src.objects.foldlM (copyObject e src convert) (off, w1)
  .ok (if off' < src.data.length then { w2 with bytes := w2.bytes ++ src.data.drop off' } else w2)

/-- gbinder_writer.c:76-87 `gbinder_writer_data_set_contents`. Second component: what
gbinder_cleanup_reset destroyed. -/
def setContents (e : Env) (w : Writer) (src : RxBuffer)
    (convert : Option (Nat → Option LocalRef)) : Except UB (List CleanupItem × Writer) := do
  let w1 := { w with bytes := [], offsets := [], buffersSize := 0, cleanup := [] }
  let w2 ← appendContents e w1 src 0 convert
  .ok (w.cleanup, w2)

end Writer
end Gb
