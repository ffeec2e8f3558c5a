import Verif.Spec.Android
import Verif.Spec.Plain
import Verif.Model.Rpc
/-
C80: the calls of libgbinder and what Android has to see.
-/
set_option autoImplicit false

namespace Gb.C80
open Android

/-- The reading call of libgbinder. -/
def get (r : Reader) : Ty → Res Val
  | .bool => r.readBool.map .bool
  | .int8 => r.readUInt8.map .num
  | .int16 => r.readUInt16.map .num
  | .int32 => r.readUInt32.map .num
  | .int64 => r.readUInt64.map .num
  | .cString => r.readString8.map (fun s => .text (some s))
  | .string8 => r.readNullableString8.map .text
  | .string16 => r.readNullableUtf16.map .units
  | .byteArray => r.readByteArray.map (fun d => .array (some d))
  | .parcelable => r.readParcelable.map .parcel

/-- gbinder_reader_read_byte_array doesn't tell NULL and an empty array from each other. -/
def seen : Val → Val
  | .array none => .array (some [])
  | v => v

/-- Something to write: the argument of a call. -/
inductive Item
  | plain (v : C01.Value)
  | parcelable (d : Option Bytes)

/-- The preconditions of the calls. -/
def Item.Ok : Item → Prop
  | .plain v => v.Ok
  | .parcelable d => ∀ b, d = some b → b.length + 4 < 2 ^ 32

/-- The call. -/
def Item.put (e : Env) (w : Writer) : Item → Except UB Writer
  | .plain v => v.write e w
  | .parcelable d => w.appendParcelable e d

/-- What it's for Android. -/
def Item.ty : Item → Ty
  | .plain (.bool _) => .bool
  | .plain (.int8 _) => .int8
  | .plain (.int16 _) => .int16
  | .plain (.int32 _) | .plain (.float _) => .int32
  | .plain (.int64 _) | .plain (.double _) => .int64
  | .plain (.string8 _) => .cString
  | .plain (.string16 _) | .plain (.utf16 _) => .string16
  | .plain (.byteArray _) => .byteArray
  | .parcelable _ => .parcelable

/-- What Android has to see. Arrays without elements are NULL. -/
def Item.val : Item → Val
  | .plain (.bool v) => .bool v
  | .plain (.int8 v) => .num v.toNat
  | .plain (.int16 v) => .num v.toNat
  | .plain (.int32 v) | .plain (.float v) => .num v.toNat
  | .plain (.int64 v) | .plain (.double v) => .num v.toNat
  | .plain (.string8 s) => .text (some s)
  | .plain (.string16 s) => .units (s.map (·.flatMap utf16))
  | .plain (.utf16 s) => .units (s.map (·.map (·.toNat)))
  | .plain (.byteArray []) => .array none
  | .plain (.byteArray d) => .array (some d)
  | .parcelable d => .parcel d

/-- Several calls. -/
def putAll (e : Env) : Writer → List Item → Except UB Writer
  | w, [] => .ok w
  | w, x :: xs => x.put e w >>= fun w => putAll e w xs

/-- The name of the interface, as it is in a request. -/
def nameOf (s : List Char) : Protocol → Name
  | .hidl => .text (utf8Text s)
  | _ => .units (s.flatMap utf16)

end Gb.C80
