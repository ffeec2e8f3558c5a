import Verif.Model.Io
/-
Specification: how Android's own class reads parcels (frameworks/native/libs/binder/Parcel.cpp and
system/libhwbinder/Parcel.cpp, not part of the repository; gbinder_reader.c and gbinder_rpc_protocol.c refer to
them). Numbers are little-endian, as they are on all the devices which run Android.
-/
set_option autoImplicit false

namespace Gb.Android

/-- What is being read. Floating point numbers are the same as integers of that size. -/
inductive Ty
  /-- readBool (that of libhwbinder looks at the first byte, there is nothing but zeros after it) -/
  | bool
  /-- readByte, readInt8 -/
  | int8
  /-- readChar, readInt16 -/
  | int16
  /-- readInt32, readFloat -/
  | int32
  /-- readInt64, readDouble -/
  | int64
  /-- readCString -/
  | cString
  /-- readString8Inplace -/
  | string8
  /-- readString16Inplace -/
  | string16
  /-- readByteVector -/
  | byteArray
  /-- readParcelable, and what generated code does for a structured parcelable -/
  | parcelable
  deriving DecidableEq, Repr

/-- What has been read. There are NULL strings, arrays and parcelables. -/
inductive Val
  | bool (v : Bool)
  | num (v : Nat)
  | text (s : Option Bytes)
  | units (s : Option (List Nat))
  | array (d : Option Bytes)
  | parcel (d : Option Bytes)
  deriving DecidableEq, Repr

/-- One byte. -/
def byte (b : Bytes) (i : Nat) : Nat := (b[i]?.getD 0).toNat

/-- A number of `n` bytes at `p`. -/
def num (b : Bytes) (p : Nat) : Nat → Nat
  | 0 => 0
  | n + 1 => byte b p + 256 * num b (p + 1) n

/-- `pad_size` -/
def padSize (n : Nat) : Nat := (n + 3) / 4 * 4

/-- UTF-16 units. -/
def unitsAt (b : Bytes) (p n : Nat) : List Nat := (List.range n).map (fun i => num b (p + 2 * i) 2)

/-- Reads something at `p`: what it is and where the next thing is. -/
def readAt (b : Bytes) (p : Nat) : Ty → Option (Val × Nat)
  | .bool => if p + 4 ≤ b.length then some (.bool (decide (num b p 4 ≠ 0)), p + 4) else none
  | .int8 => if p + 4 ≤ b.length then some (.num (num b p 4 % 2 ^ 8), p + 4) else none
  | .int16 => if p + 4 ≤ b.length then some (.num (num b p 4 % 2 ^ 16), p + 4) else none
  | .int32 => if p + 4 ≤ b.length then some (.num (num b p 4), p + 4) else none
  | .int64 => if p + 8 ≤ b.length then some (.num (num b p 8), p + 8) else none
  | .cString =>
    let s := (b.drop p).takeWhile (fun x => x != 0)
    if p + s.length < b.length then some (.text (some s), p + padSize (s.length + 1)) else none
  | .string8 =>
    if p + 4 ≤ b.length then
      let n := num b p 4
      if n = 2 ^ 32 - 1 then some (.text none, p + 4)
      else if n < 2 ^ 31 - 1 ∧ p + 4 + padSize (n + 1) ≤ b.length ∧ byte b (p + 4 + n) = 0 then
        some (.text (some ((b.drop (p + 4)).take n)), p + 4 + padSize (n + 1))
      else none
    else none
  | .string16 =>
    if p + 4 ≤ b.length then
      let n := num b p 4
      if n = 2 ^ 32 - 1 then some (.units none, p + 4)
      else if n < 2 ^ 31 - 1 ∧ p + 4 + padSize (2 * (n + 1)) ≤ b.length ∧ num b (p + 4 + 2 * n) 2 = 0 then
        some (.units (some (unitsAt b (p + 4) n)), p + 4 + padSize (2 * (n + 1)))
      else none
    else none
  | .byteArray =>
    if p + 4 ≤ b.length then
      let n := num b p 4
      if 2 ^ 31 ≤ n then some (.array none, p + 4)
      else if p + 4 + padSize n ≤ b.length then some (.array (some ((b.drop (p + 4)).take n)), p + 4 + padSize n)
      else none
    else none
  | .parcelable =>
    if p + 4 ≤ b.length then
      if num b p 4 = 0 then some (.parcel none, p + 4)
      else if p + 8 ≤ b.length then
        let size := num b (p + 4) 4
        if 4 ≤ size ∧ p + 4 + size ≤ b.length then
          some (.parcel (some ((b.drop (p + 8)).take (size - 4))), p + 4 + size)
        else none
      else none
    else none

/-- Several things in sequence. -/
def readAll (b : Bytes) (p : Nat) : List Ty → Option (List Val × Nat)
  | [] => some ([], p)
  | t :: ts =>
    match readAt b p t with
    | none => none
    | some (v, p) =>
      match readAll b p ts with
      | none => none
      | some (vs, p) => some (v :: vs, p)

/-- UTF-16 (RFC 2781, 2.1). -/
def utf16 (c : Char) : List Nat :=
  if c.toNat < 0x10000 then [c.toNat]
  else [0xd800 + (c.toNat - 0x10000) / 0x400, 0xdc00 + (c.toNat - 0x10000) % 0x400]

/-- The name of an interface, as it is in a request. -/
inductive Name
  | text (s : Bytes)
  | units (us : List Nat)
  deriving DecidableEq, Repr

/-- Parcel::enforceInterface, and where the arguments begin. Android up to 9: the strict mode policy and the name.
Android 10: the work source is between them. Android 11: that's followed by a magic number, which is `SYST` or
`VNDR`. HIDL: just the name. -/
def enforce (magic : Nat) (b : Bytes) : Protocol → Option (Name × Nat)
  | .aidl =>
    match readAll b 0 [.int32, .string16] with
    | some ([_, .units (some us)], p) => some (.units us, p)
    | _ => none
  | .aidl2 =>
    match readAll b 0 [.int32, .int32, .string16] with
    | some ([_, _, .units (some us)], p) => some (.units us, p)
    | _ => none
  | .aidl3 =>
    match readAll b 0 [.int32, .int32, .int32, .string16] with
    | some ([_, _, .num m, .units (some us)], p) => if m = magic then some (.units us, p) else none
    | _ => none
  | .hidl =>
    match readAll b 0 [.cString] with
    | some ([.text (some s)], p) => some (.text s, p)
    | _ => none

/-- `B_PACK_CHARS('S', 'Y', 'S', 'T')` -/
def syst : Nat := 0x53595354

end Gb.Android
