import Verif.Model.Reader
/-
The reading calls of the public API as data, so that sequences of calls can be quantified over.
-/
set_option autoImplicit false

namespace Gb

/-- A call of the reader API. Signed and unsigned variants, float and int32, double and int64
have the same effect on the reader. read_buffer, skip_buffer and read_buffer_object consume the
same object. -/
inductive ROp
  | byte | bool | int8 | int16 | int32 | int64 | float | double
  | string8 | nullableString8 | nullableString16 | string16 | utf16 | nullableUtf16 | skipString16
  | byteArray | parcelable
  | fd | nullableObject | buffer
  | hidlStruct (size : Nat) | hidlVec | hidlVec1 (elemsize : Nat) | hidlString | hidlStringVec
  deriving DecidableEq

/-- What is left of a call when its result is ignored: whether it succeeded, and the reader. -/
def Res.done {α : Type} (x : Res α) : Res Unit := x.map (fun _ => ())

/-- Effect of a call on the reader; `m` is the memory with delivered buffers. -/
def ROp.run (m : Mem) (r : Reader) : ROp → Res Unit
  | .byte => r.readByte.done
  | .bool => r.readBool.done
  | .int8 => r.readUInt8.done
  | .int16 => r.readUInt16.done
  | .int32 => r.readUInt32.done
  | .int64 => r.readUInt64.done
  | .float => r.readUInt32.done
  | .double => r.readUInt64.done
  | .string8 => r.readString8.done
  | .nullableString8 => r.readNullableString8.done
  | .nullableString16 => r.readNullableString16.done
  | .string16 => r.readString16.done
  | .utf16 => r.readUtf16.done
  | .nullableUtf16 => r.readNullableUtf16.done
  | .skipString16 => r.skipString16.done
  | .byteArray => r.readByteArray.done
  | .parcelable => r.readParcelable.done
  | .fd => r.readFd.done
  | .nullableObject => r.readNullableObject.done
  | .buffer => r.readBufferObject.done
  | .hidlStruct n => (r.readHidlStruct n).done
  | .hidlVec => (Reader.readHidlVec m r).done
  | .hidlVec1 n => (Reader.readHidlVec1 m r n).done
  | .hidlString => (Reader.readHidlString m r).done
  | .hidlStringVec => (Reader.readHidlStringVec m r).done

/-- A sequence of calls, each made whether or not the previous one has succeeded. -/
def runROps (m : Mem) : Reader → List ROp → Except UB Reader
  | r, [] => .ok r
  | r, op :: ops =>
    match op.run m r with
    | .ok _ r1 => runROps m r1 ops
    | .fail r1 => runROps m r1 ops
    | .ub k => .error k

/-- Calls which read an item of fixed size. -/
def ROp.fixed : ROp → Bool
  | .byte | .bool | .int8 | .int16 | .int32 | .int64 | .float | .double
  | .fd | .nullableObject | .buffer => true
  | _ => false

/-- Size in the parcel of the item read by a fixed-size call. -/
def ROp.itemSize (io : Io) (proto : Protocol) : ROp → Nat
  | .byte => 1
  | .bool | .int8 | .int16 | .int32 | .float => 4
  | .int64 | .double => 8
  | .fd => (match io with | .io32 => 16 | .io64 => 24)
  | .nullableObject =>
    (match io with | .io32 => 16 | .io64 => 24) + (match proto with | .aidl3 => 4 | _ => 0)
  | .buffer => (match io with | .io32 => 24 | .io64 => 40)
  | _ => 0

end Gb
