import Verif.Model.Reader
import Verif.Conformance.Writer
/-
What unit/unit_reader/unit_reader.c expects of the code is what the model does. These are tests of
the model, not proofs of anything.
-/
set_option autoImplicit false

namespace Gb.Conformance
namespace Rd

/-- A reader of the whole buffer (unit_reader.c:69-80). -/
def reader (b : Bytes) (objects : List Nat := []) (reg : Bool := true) (io : Io := .io64)
    (p : Protocol := .hidl) : Reader :=
  Reader.init io p b objects reg 0 b.length

/-- What the caller of a reading function sees: whether it has succeeded, the value and the number
of bytes left. -/
def seen {α : Type} : Res α → Option (Option α × Nat)
  | .ok a r => some (some a, r.bytesRemaining)
  | .fail r => some (none, r.bytesRemaining)
  | .ub _ => none

/-- The result of a function which returns NULL if it fails. -/
def got {α : Type} : Res (Option α) → Option (Option α)
  | .ok a _ => some a
  | .fail _ => some none
  | .ub _ => none

section plain
open Reader

/-- The reader made by gbinder_reader_init(&reader, NULL, 0, 0) (unit_reader.c:110-160). -/
def none_ : Reader := reader [] [] false

-- test_null, test_empty (unit_reader.c:86-101, 107-152)
example : none_.atEnd = true ∧ none_.bytesRead = 0 ∧ none_.bytesRemaining = 0 := by decide
example : seen none_.readByte = some (none, 0) := by decide
example : seen none_.readBool = some (none, 0) := by decide
example : seen none_.readUInt8 = some (none, 0) := by decide
example : seen none_.readUInt16 = some (none, 0) := by decide
example : seen none_.readUInt32 = some (none, 0) := by decide
example : seen none_.readUInt64 = some (none, 0) := by decide
example : seen none_.readNullableObject = some (none, 0) := by decide
example : seen none_.readBufferObject = some (none, 0) := by decide
example : got none_.readParcelable = some none := by decide
example : got (none_.readHidlStruct 1) = some none := by decide
example : got (none_.readHidlVec []) = some none := by decide
example : got (none_.readHidlVec1 [] 1) = some none := by decide
example : got (none_.readHidlString []) = some none := by decide
example : got (none_.readHidlStringVec []) = some none := by decide
example : seen none_.readString8 = some (none, 0) := by decide
example : got none_.readString16 = some none := by decide
example : seen none_.skipString16 = some (none, 0) := by decide
example : seen none_.readByteArray = some (none, 0) := by decide

-- test_byte (unit_reader.c:158-185)
example : seen (reader [42]).readByte = some (some 42, 0) := by decide
-- test_bool (unit_reader.c:191-246)
example : seen (reader [0]).readBool = some (none, 1) := by decide
example : seen (reader [1, 0, 0, 0]).readBool = some (some true, 0) := by decide
example : seen (reader [0, 0, 0, 0]).readBool = some (some false, 0) := by decide
-- test_int8 (unit_reader.c:252-297)
example : seen (reader [0x2a]).readUInt8 = some (none, 1) := by decide
example : seen (reader [0x2a, 0, 0, 0]).readUInt8 = some (some 0x2a, 0) := by decide
-- test_int16 (unit_reader.c:303-348)
example : seen (reader [42, 0]).readUInt16 = some (none, 2) := by decide
example : seen (reader [42, 0, 0, 0]).readUInt16 = some (some 42, 0) := by decide
-- test_int32, test_float (unit_reader.c:354-387, 432-465)
example : seen (reader [42, 0, 0, 0]).readUInt32 = some (some 42, 0) := by decide
-- test_int64, test_double (unit_reader.c:393-426, 471-504)
example : seen (reader (leBytes 8 42)).readUInt64 = some (some 42, 0) := by decide

-- test_cstring (unit_reader.c:537-561)
example : seen (reader (ascii "test" ++ [0, 0, 0])).readString8 = some (none, 7) := by
  decide +kernel
example : seen (reader (ascii "test" ++ [0, 0, 0, 0])).readString8 =
  some (some (ascii "test"), 0) := by decide +kernel
example : seen (reader (ascii "test" ++ [0, 0, 0, 0, 0])).readString8 =
  some (some (ascii "test"), 1) := by decide +kernel

-- test_string8_null, test_string8 (unit_reader.c:608-638, 640-674)
example : seen (reader (leBytes 4 0xffffffff)).readNullableString8 = some (some none, 0) := by
  decide
example : seen (reader (leBytes 4 0xfffffffe)).readNullableString8 = some (none, 4) := by decide
example : seen (reader [0]).readNullableString8 = some (none, 1) := by decide
example : seen (reader (leBytes 4 3 ++ ascii "foo")).readNullableString8 = some (none, 7) := by
  decide +kernel
example : seen (reader (leBytes 4 3 ++ ascii "foox")).readNullableString8 = some (none, 8) := by
  decide +kernel
example : seen (reader (leBytes 4 3 ++ ascii "foo" ++ [0])).readNullableString8 =
  some (some (some (ascii "foo")), 0) := by decide +kernel
example : seen (reader (leBytes 4 3 ++ ascii "foo" ++ [0, 0])).readNullableString8 =
  some (some (some (ascii "foo")), 1) := by decide +kernel

-- test_string16_null (unit_reader.c:723-782)
example : seen (reader (leBytes 4 0xffffffff)).readNullableUtf16 = some (some none, 0) := by decide
example : seen (reader (leBytes 4 0xffffffff)).readUtf16 = some (some none, 0) := by decide
example : seen (reader (leBytes 4 0xffffffff)).readNullableString16 = some (some none, 0) := by
  decide
example : seen (reader (leBytes 4 0xffffffff)).readString16 = some (some none, 0) := by decide
example : seen (reader (leBytes 4 0xffffffff)).skipString16 = some (some (), 0) := by decide

/-- The inputs of test_string16 and what is expected (unit_reader.c:678-718). -/
def utf16Tests : List (Bytes × Option Bytes × Nat) :=
  [(leBytes 4 0xfffffffe, none, 4),
   (leBytes 4 3 ++ [0x66, 0x6f, 0x6f].flatMap (leBytes 2) ++ [0], none, 11),
   (leBytes 4 3 ++ [0x66, 0x6f, 0x6f, 0x6f].flatMap (leBytes 2), none, 12),
   (leBytes 4 3 ++ [0x66, 0x6f, 0x6f, 0].flatMap (leBytes 2), some [0x66, 0x6f, 0x6f], 0),
   (leBytes 4 3 ++ [0x66, 0x6f, 0x6f, 0].flatMap (leBytes 2) ++ [0], some [0x66, 0x6f, 0x6f], 1)]

-- test_string16 (unit_reader.c:784-857)
example : utf16Tests.all (fun t =>
    seen (reader t.1).readUtf16 = some (some (t.2.1.map (·.map (·.toNat))), t.2.2)) = true := by
  decide +kernel
example : utf16Tests.all (fun t =>
    seen (reader t.1).readNullableUtf16 =
      some (t.2.1.map (fun s => some (s.map (·.toNat))), t.2.2)) = true := by decide +kernel
example : utf16Tests.all (fun t =>
    seen (reader t.1).readNullableString16 = some (t.2.1.map some, t.2.2)) = true := by
  decide +kernel
example : utf16Tests.all (fun t =>
    seen (reader t.1).readString16 = some (some t.2.1, t.2.2)) = true := by decide +kernel
example : utf16Tests.all (fun t =>
    seen (reader t.1).skipString16 = some (t.2.1.map (fun _ => ()), t.2.2)) = true := by
  decide +kernel

-- test_parcelable (unit_reader.c:1859-1945)
example : got (reader (leBytes 4 1 ++ leBytes 4 12)).readParcelable = some none := by decide
example : got (reader (leBytes 4 1)).readParcelable = some none := by decide
example : got (reader (leBytes 4 1 ++ leBytes 4 1)).readParcelable = some none := by decide
example : seen (reader (leBytes 4 0)).readParcelable = some (some none, 0) := by decide
example : seen (reader (leBytes 4 1 ++ leBytes 4 12 ++ leBytes 4 10 ++ leBytes 4 20)).readParcelable =
  some (some (some (leBytes 4 10 ++ leBytes 4 20)), 0) := by decide

-- test_byte_array (unit_reader.c:2385-2466)
example : seen (reader [0]).readByteArray = some (none, 1) := by decide
example : seen (reader (leBytes 4 8 ++ [0, 0, 0])).readByteArray = some (none, 7) := by decide
example : seen (reader (leBytes 4 0xffffffff)).readByteArray = some (some [], 0) := by decide
example : seen (reader (leBytes 4 8 ++ ascii "1234abcd")).readByteArray =
  some (some (ascii "1234abcd"), 0) := by decide +kernel

-- test_copy (unit_reader.c:2472-2540)
example : ((reader (leBytes 4 8 ++ ascii "12345678" ++ leBytes 4 8 ++ ascii "abcdefgh")).readByteArray.bind
    fun a r => r.readByteArray.bind fun b r => .ok (a, b, r.atEnd) r) =
  (Res.ok (ascii "12345678", ascii "abcdefgh", true)
    ((reader (leBytes 4 8 ++ ascii "12345678" ++ leBytes 4 8 ++ ascii "abcdefgh")).advance 24)) := by
  decide +kernel

end plain

section objects
open Reader

/-- BINDER_TYPE_FD, BINDER_TYPE_HANDLE, BINDER_TYPE_PTR (unit_reader.c:62-65). -/
def flat (ty flags h : Nat) : Bytes := leBytes 4 ty ++ leBytes 4 flags ++ leBytes 8 h ++ leBytes 8 0

/-- BinderObject64 (unit_reader.c:46-60). -/
def buf (data size : Nat) (parent : Option (Nat × Nat) := none) (ty : Nat := typePtr) : Bytes :=
  leBytes 4 ty ++ leBytes 4 (if parent = none then 0 else 1) ++ leBytes 8 data ++ leBytes 8 size ++
    match parent with
    | some (i, o) => leBytes 8 i ++ leBytes 8 o
    | none => leBytes 16 0

-- test_fd_ok (unit_reader.c:1283-1321)
example : seen (reader (flat typeFd 0x17f 5) [0]).readFd = some (some 5, 0) := by decide +kernel
-- test_fd_shortbuf (unit_reader.c:1327-1353)
example : (seen (reader (leBytes 4 typeFd ++ leBytes 4 0x17f)).readFd).map (·.1) = some none := by
  decide +kernel
-- test_fd_badtype (unit_reader.c:1359-1397)
example : (seen (reader (flat typePtr 0x17f 5) [0]).readFd).map (·.1) = some none := by decide +kernel

-- test_object (unit_reader.c:1951-1987)
example : seen (reader (flat typeHandle 0 1) [0]).readNullableObject = some (some (some 1), 0) := by
  decide +kernel
-- test_object_no_reg (unit_reader.c:1993-2005)
example : got ((reader [] [] false).readHidlString []) = some none := by decide
example : seen (reader [] [] false).readNullableObject = some (none, 0) := by decide
-- test_object_invalid (unit_reader.c:2011-2044)
example : (seen (reader (flat 42 0 1) [0]).readNullableObject).map (·.1) = some none := by
  decide +kernel

-- test_buffer (unit_reader.c:1797-1853)
example : seen ((reader (buf 0x1000 4 ++ buf 0x2000 4 (some (0, 0)) ++ buf 0 0 none typeHandle)
      [0, 40, 80]).readBufferObject.bind fun _ r => r.readBufferObject.bind fun b r =>
        .ok (b.data, match r.readBufferObject with | .fail _ => true | _ => false) r) =
  some (some (0x2000, true), 40) := by decide +kernel

-- test_hidl_struct (unit_reader.c:897-924)
example : got ((reader (buf 0x1000 4) [0]).readHidlStruct 4) = some (some 0x1000) := by decide +kernel
example : got ((reader (buf 0x1000 8) [0]).readHidlStruct 4) = some none := by decide +kernel

/-- GBinderHidlVec, GBinderHidlString. -/
def desc (ptr n : Nat) : Bytes := leBytes 8 ptr ++ leBytes 4 n ++ leBytes 4 1

/-- What is read by gbinder_reader_read_hidl_vec. -/
def vec (mem : Mem) (b : Bytes) (objects : List Nat) : Option (Option (Nat × Nat × Nat)) :=
  (got ((reader b objects).readHidlVec mem)).map
    (Option.map fun v => (v.ptr, v.count, v.elemsize))

/-- What is read by gbinder_reader_read_hidl_vec1. -/
def vec1 (mem : Mem) (b : Bytes) (objects : List Nat) (n : Nat) : Option (Option (Nat × Nat)) :=
  (got ((reader b objects).readHidlVec1 mem n)).map (Option.map fun v => (v.ptr, v.count))

-- test_hidl_vec (unit_reader.c:1102-1160): the structure is at 0x1000, the data at 0x2000
example : vec [(0x1000, desc 0x2000 2), (0x2000, [1, 2])]
  (buf 0x1000 16 ++ buf 0x2000 2 (some (0, 0))) [0, 40] = some (some (0x2000, 2, 1)) := by
  decide +kernel
example : vec1 [(0x1000, desc 0x2000 2), (0x2000, [1, 2])]
  (buf 0x1000 16 ++ buf 0x2000 2 (some (0, 0))) [0, 40] 1 = some (some (0x2000, 2)) := by
  decide +kernel
example : vec1 [(0x1000, desc 0x2000 2), (0x2000, [1, 2])]
  (buf 0x1000 16 ++ buf 0x2000 2 (some (0, 0))) [0, 40] 2 = some none := by decide +kernel
example : vec [(0x1000, desc 0x2000 0), (0x2000, [1, 2])]
  (buf 0x1000 16 ++ buf 0x2000 0 (some (0, 0))) [0, 40] = some (some (0x2000, 0, 0)) := by
  decide +kernel
example : vec1 [(0x1000, desc 0x2000 0), (0x2000, [1, 2])]
  (buf 0x1000 16 ++ buf 0x2000 0 (some (0, 0))) [0, 40] 1 = some (some (0x2000, 0)) := by
  decide +kernel
example : vec [(0x1000, desc 0 0)] (buf 0x1000 16) [0] = some (some (0x1000, 0, 0)) := by
  decide +kernel
-- missingbuf, shortbuf, badnull
example : vec [(0x1000, desc 0x2000 2), (0x2000, [1, 2])] (buf 0x1000 16) [0] = some none := by
  decide +kernel
example : vec [(0x1000, desc 0x2000 0), (0x2000, [1, 2])] (buf 0x1000 15) [0] = some none := by
  decide +kernel
example : vec [(0x1000, desc 0 1)] (buf 0x1000 16) [0] = some none := by decide +kernel
-- badsize, badbuf, badcount1, badcount2
example : vec [(0x1000, desc 0x2000 2), (0x2000, [1, 2, 3])]
  (buf 0x1000 16 ++ buf 0x2000 3 (some (0, 0))) [0, 40] = some none := by decide +kernel
example : vec [(0x1000, desc 0x3000 3), (0x2000, [1, 2, 3]), (0x3000, [1, 2, 3])]
  (buf 0x1000 16 ++ buf 0x2000 3 (some (0, 0))) [0, 40] = some none := by decide +kernel
example : vec [(0x1000, desc 0x2000 1), (0x2000, [1, 2, 3])]
  (buf 0x1000 16 ++ buf 0x2000 0 (some (0, 0))) [0, 40] = some none := by decide +kernel
example : vec [(0x1000, desc 0x2000 0), (0x2000, [1, 2, 3])]
  (buf 0x1000 16 ++ buf 0x2000 3 (some (0, 0))) [0, 40] = some none := by decide +kernel

-- test_hidl_string_err (unit_reader.c:1209-1242)
example : got ((reader [0]).readHidlString []) = some none := by decide
example : got ((reader (buf 0 0 none typeHandle)).readHidlString []) = some none := by decide +kernel
example : got ((reader (buf 0 0)).readHidlString []) = some none := by decide +kernel
example : got ((reader (buf 0 0) [100]).readHidlString []) = some none := by decide +kernel
example : got ((reader [0] [0]).readHidlString []) = some none := by decide +kernel
example : got ((reader (buf 0 0) [0]).readHidlString []) = some none := by decide +kernel

/-- What is read by gbinder_reader_read_hidl_string if the structure is at 0x1000 and the text at
0x2000 (unit_reader.c:1524-1740). -/
def str (text : Bytes) (len : Nat) (second : Bytes) : Option (Option Bytes) :=
  got ((reader (buf 0x1000 16 ++ second) [0, 40]).readHidlString
    [(0x1000, desc 0x2000 len), (0x2000, text)])

-- test_hidl_string1, test_hidl_string2, test_hidl_string3, test_hidl_string4, test_hidl_string5, test_hidl_string6, test_hidl_string7 (unit_reader.c:1576-1605, 1607-1636, 1638-1666, 1668-1697, 1699-1728, 1730-1760, 1762-1791)
example : str (ascii "test" ++ [0]) 4 (buf 0x2000 5 (some (0, 0))) = some (some (ascii "test")) := by
  decide +kernel
example : str (ascii "test" ++ [0]) 4 (buf 0x2000 5 (some (0, 0)) typeHandle) = some none := by
  decide +kernel
example : str (ascii "test" ++ [0]) 4 (buf 0x2000 5 none) = some none := by decide +kernel
example : str (ascii "test" ++ [0]) 4 (buf 0x2000 4 (some (0, 0))) = some none := by decide +kernel
example : str (ascii "test" ++ [0]) 4 (buf 0x2001 5 (some (0, 0))) = some none := by decide +kernel
example : str (ascii "testx" ++ [0]) 4 (buf 0x2000 5 (some (0, 0))) = some none := by decide +kernel
example : str (ascii "test" ++ [0]) 4 (buf 0x2000 5 (some (0, 1))) = some none := by decide +kernel

-- test_vec (unit_reader.c:2050-2097)
example : got ((reader (buf 0x1000 15) [0]).readHidlStringVec [(0x1000, List.replicate 16 0)]) =
  some none := by decide +kernel
example : got ((reader (buf 0x1000 16) [0]).readHidlStringVec [(0x1000, List.replicate 16 0)]) =
  some (some []) := by decide +kernel

-- test_hidl_string_vec1 (unit_reader.c:2154-2196)
example : got ((reader (buf 0x1000 16 ++ buf 0x2000 16 (some (1, 0)) ++ buf 0x3000 5 (some (2, 0)))
    [0, 40, 80]).readHidlStringVec
    [(0x1000, desc 0x2000 1), (0x2000, desc 0x3000 4), (0x3000, ascii "test" ++ [0])]) =
  some (some [ascii "test"]) := by decide +kernel
/-- vec, str, str1 and str2 of test_hidl_string_vec2 (unit_reader.c:2154-2215). -/
def two : Mem := [(0x1000, desc 0x2000 2), (0x2000, desc 0x3000 3 ++ desc 0x4000 6),
  (0x3000, ascii "meh" ++ [0]), (0x4000, ascii "foobar" ++ [0])]
-- test_hidl_string_vec2 (unit_reader.c:2198-2255)
example : got ((reader (buf 0x1000 16 ++ buf 0x2000 32 (some (1, 0)) ++ buf 0x3000 4 (some (2, 0)) ++
    buf 0x4000 7 (some (2, 16))) [0, 40, 80, 120]).readHidlStringVec two) =
  some (some [ascii "meh", ascii "foobar"]) := by decide +kernel
-- test_hidl_string_vec3, test_hidl_string_vec4 (unit_reader.c:2257-2292, 2294-2322)
example : got ((reader (buf 0x1000 16 ++ buf 0x2000 16 (some (1, 0))) [0, 40]).readHidlStringVec
    [(0x1000, desc 0x2000 1), (0x2000, desc 0x3000 4), (0x3000, ascii "test" ++ [0])]) =
  some none := by decide +kernel
example : got ((reader (buf 0x1000 16) [0]).readHidlStringVec
    [(0x1000, desc 0x2000 1), (0x2000, desc 0x3000 4), (0x3000, ascii "test" ++ [0])]) =
  some none := by decide +kernel
-- test_hidl_string_vec5 (unit_reader.c:2324-2379)
example : got ((reader (buf 0x1000 16 ++ buf 0x2000 32 (some (1, 0)) ++ buf 0x3000 4 (some (2, 0)) ++
    buf 0x4000 7 (some (2, 0))) [0, 40, 80, 120]).readHidlStringVec two) = some none := by
  decide +kernel

/-- Both vectors: the counters, the sizes and the data (unit_writer.c:1213-1236). -/
def vecs (w : Writer) : List (Nat × Nat × Bytes) :=
  match ((reader w.bytes w.offsets).readHidlVec w.mem).bind fun v r =>
    (r.readHidlVec w.mem).bind fun v' r => .ok (match v, v' with
      | some v, some v' =>
        [(v.count, v.elemsize, (w.mem.load v.ptr 2).getD []),
         (v'.count, v'.elemsize, (w.mem.load v'.ptr 4).getD [])]
      | _, _ => []) r with
  | .ok l _ => l
  | _ => []

-- test_struct_vec (unit_writer.c:1160-1256): what the writer has made is read back; the addresses
-- in the buffer objects are those of the sender, the kernel isn't involved
example : (write .io64 [.struct 0x5000 (some { size := 16, fields := [.vec 0 1 []] }) none,
      .struct 0x6000 (some { size := 16, fields := [.vec 0 4 []] }) none]
      [(0x5000, leBytes 8 0x7000 ++ leBytes 4 2 ++ leBytes 4 0), (0x7000, [1, 2]),
       (0x6000, leBytes 8 0x8000 ++ leBytes 4 1 ++ leBytes 4 0), (0x8000, leBytes 4 42)] .aidl).toOption.map
    (fun w => (w.offsets.length, vecs w)) =
  some (4, [(2, 1, [1, 2]), (1, 4, leBytes 4 42)]) := by decide +kernel

end objects
end Rd
end Gb.Conformance
