import Verif.Model.Reader
import Verif.Model.Writer
import Verif.Lemmas.Text
/-
C01. Parcel round trip for plain data.

A value is described by the argument of the append call; `write` is the append call, `read` the
read call matching the type of the value.  What `read` has to return is the value itself.
-/
set_option autoImplicit false

namespace Gb.C01

/-- A plain value that can be put into a parcel. Floats and doubles are their bit patterns
(gbinder_writer.c:360-371 and 385-396 store the bits, gbinder_reader.c:258-296 load them). -/
inductive Value
  | bool (v : Bool)
  | int8 (v : UInt8)
  | int16 (v : UInt16)
  | int32 (v : UInt32)
  | int64 (v : UInt64)
  | float (bits : UInt32)
  | double (bits : UInt64)
  /-- text without NUL -/
  | string8 (s : Bytes)
  /-- UTF-8 text or NULL -/
  | string16 (s : Option (List Char))
  /-- UTF-16 units or NULL -/
  | utf16 (s : Option (List UInt16))
  | byteArray (d : Bytes)
  deriving DecidableEq

/-- Type tag of a value: which read call is used. -/
inductive Ty
  | bool | int8 | int16 | int32 | int64 | float | double | string8 | string16 | utf16 | byteArray
  deriving DecidableEq

def Value.ty : Value → Ty
  | .bool _ => .bool | .int8 _ => .int8 | .int16 _ => .int16 | .int32 _ => .int32
  | .int64 _ => .int64 | .float _ => .float | .double _ => .double | .string8 _ => .string8
  | .string16 _ => .string16 | .utf16 _ => .utf16 | .byteArray _ => .byteArray

/-- The preconditions of the append calls: C strings contain no NUL, lengths fit in gint32
(for UTF-16, the number of bytes including the terminator does). -/
def Value.Ok : Value → Prop
  | .string8 s => (0 : Byte) ∉ s
  | .string16 (some s) => '\x00' ∉ s ∧ 2 * (utf8Text s).length + 2 < 2 ^ 31
  | .utf16 (some us) => 2 * us.length + 2 < 2 ^ 31
  | .byteArray d => d.length < 2 ^ 31
  | _ => True

/-- The append call. -/
def Value.write (e : Env) (w : Writer) : Value → Except UB Writer
  | .bool v => w.appendBool e v
  | .int8 v => w.appendInt8 e v
  | .int16 v => w.appendInt16 e v
  | .int32 v => w.appendInt32 e v
  | .int64 v => w.appendInt64 e v
  | .float v => w.appendInt32 e v
  | .double v => w.appendInt64 e v
  | .string8 s => w.appendString8 e (some s)
  | .string16 s => w.appendString16 e (s.map utf8Text)
  | .utf16 s => w.appendUtf16 e (s.map (fun us => us.map (·.toNat)))
  | .byteArray d => w.appendByteArray e (some d)

/-- What a read call returns: the value, as seen by the caller. -/
inductive Seen
  | bool (v : Bool)
  | num (v : Nat)
  | bytes (s : Bytes)
  | obytes (s : Option Bytes)
  | ounits (s : Option (List Nat))
  deriving DecidableEq

/-- The read call for the given type. -/
def Ty.read (r : Reader) : Ty → Res Seen
  | .bool => r.readBool.map .bool
  | .int8 => r.readUInt8.map .num
  | .int16 => r.readUInt16.map .num
  | .int32 => r.readUInt32.map .num
  | .int64 => r.readUInt64.map .num
  | .float => r.readUInt32.map .num
  | .double => r.readUInt64.map .num
  | .string8 => r.readString8.map .bytes
  | .string16 => r.readNullableString16.map .obytes
  | .utf16 => r.readNullableUtf16.map .ounits
  | .byteArray => r.readByteArray.map .bytes

/-- What the caller has to see. -/
def Value.seen : Value → Seen
  | .bool v => .bool v
  | .int8 v => .num v.toNat
  | .int16 v => .num v.toNat
  | .int32 v => .num v.toNat
  | .int64 v => .num v.toNat
  | .float v => .num v.toNat
  | .double v => .num v.toNat
  | .string8 s => .bytes s
  | .string16 s => .obytes (s.map utf8Text)
  | .utf16 s => .ounits (s.map (fun us => us.map (·.toNat)))
  | .byteArray d => .bytes d

def writeAll (e : Env) : Writer → List Value → Except UB Writer
  | w, [] => .ok w
  | w, v :: vs => v.write e w >>= fun w => writeAll e w vs

def readAll : Reader → List Ty → Res (List Seen)
  | r, [] => .ok [] r
  | r, t :: ts => (t.read r).bind fun v r1 => (readAll r1 ts).map (v :: ·)

end Gb.C01
