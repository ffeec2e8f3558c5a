import Verif.Model.WriterOps
/-
What unit/unit_writer/unit_writer.c expects of the code is what the model does. These are tests of
the model, not proofs of anything.
-/
set_option autoImplicit false

namespace Gb.Conformance

/-- Memory which isn't cleared is full of 0xa5, blocks are 0x10000 bytes apart, the arrays have no
spare room. -/
def env : Env where
  junk _ := 0xa5
  alloc m _ := 0x100000 + 0x10000 * m.length
  slack _ := 0

/-- test_local_request_new_with_io (unit_writer.c:58-65). -/
def write (io : Io) (ops : List WOp) (mem : Mem := []) (p : Protocol := .aidl) :
    Except UB Writer :=
  WOp.runAll env { io, protocol := p, mem } ops

/-- data->bytes, gbinder_output_data_offsets and gbinder_output_data_buffers_size. -/
def out (io : Io) (ops : List WOp) (mem : Mem := []) (p : Protocol := .aidl) :
    Except UB (Bytes × List Nat × Nat) :=
  (write io ops mem p).map fun w => (w.bytes, w.offsets, w.buffersSize)

/-- The number of bytes, the offsets and the size of the buffers. -/
def sizes (io : Io) (ops : List WOp) (mem : Mem := []) (p : Protocol := .aidl) :
    Except UB (Nat × List Nat × Nat) :=
  (out io ops mem p).map fun r => (r.1.length, r.2)

/-- What was written, if there are neither objects nor buffers. -/
def plain (b : Bytes) : Except UB (Bytes × List Nat × Nat) := .ok (b, [], 0)

/-- The characters of a string. -/
def ascii (s : String) : Bytes := s.toUTF8.toList

/-- The value of the result. -/
def val {α : Type} [Inhabited α] : Except UB α → α
  | .ok a => a
  | .error _ => default

/-- The results are the same. -/
def same {α : Type} [DecidableEq α] : Except UB α → Except UB α → Bool
  | .ok a, .ok b => a = b
  | .error a, .error b => a = b
  | _, _ => false

section plain

-- test_cleanup (unit_writer.c:214-239)
example : (write .io32 [.malloc [0, 0, 0, 0], .memdup 0x1000 4, .memdup 0x2000 4,
      .addCleanup 7 8, .addCleanup 7 8] [(0x1000, leBytes 4 42), (0x2000, ascii "foo" ++ [0])]).toOption.map
    (fun w => (w.cleanup, w.mem.map (·.2))) =
  some ([.free 0x120000, .free 0x130000, .free 0x140000, .user 7 8, .user 7 8],
    [ascii "foo" ++ [0], leBytes 4 42, [0, 0, 0, 0], leBytes 4 42, ascii "foo" ++ [0]]) := by decide +kernel

-- test_int8 (unit_writer.c:245-264)
example : same (out .io32 [.int8 0x80]) (plain [0x80, 0, 0, 0]) := by decide +kernel
-- test_int16 (unit_writer.c:270-289)
example : same (out .io32 [.int16 0x80ff]) (plain [0xff, 0x80, 0, 0]) := by decide +kernel
-- test_int32 (unit_writer.c:295-326)
example : same (out .io32 [.int32 1234567]) (plain (leBytes 4 1234567)) := by decide +kernel
example : same (out .io32 [.int32 1234567, .overwriteInt32 0 2345678])
  (plain (leBytes 4 2345678)) := by decide +kernel
example : same (out .io32 [.int32 1234567, .overwriteInt32 0 2345678, .overwriteInt32 2 2345678])
  (plain (leBytes 4 2345678)) := by decide +kernel
-- test_int64 (unit_writer.c:332-350)
example : same (out .io32 [.int64 12345678]) (plain (leBytes 8 12345678)) := by decide +kernel
-- test_float, test_double (unit_writer.c:356-374, 380-398): the values by their bits
example : same (out .io32 [.int32 0x4b3c614e]) (plain (leBytes 4 0x4b3c614e)) := by decide +kernel
example : same (out .io32 [.int64 0x41678c29c0000000]) (plain (leBytes 8 0x41678c29c0000000)) := by
  decide +kernel
-- test_bool (unit_writer.c:404-429)
example : same (out .io32 [.bool false, .bool true, .bool true])
  (plain [0, 0, 0, 0, 1, 0, 0, 0, 1, 0, 0, 0]) := by decide +kernel
-- test_bytes (unit_writer.c:435-453)
example : same (out .io32 [.bytes [1, 2, 3]]) (plain [1, 2, 3]) := by decide +kernel
-- test_string8 (unit_writer.c:459-488)
example : same (out .io32 [.string8 (some (ascii "test"))])
  (plain (ascii "test" ++ [0, 0, 0, 0])) := by decide +kernel
example : same (out .io32 [.string8 none]) (plain []) := by decide +kernel

-- test_string16 (unit_writer.c:540-558)
example : same (out .io32 [.string16 none]) (plain [0xff, 0xff, 0xff, 0xff]) := by decide +kernel
example : same (out .io32 [.string16 (some [])])
  (plain [0, 0, 0, 0, 0, 0, 0xff, 0xff]) := by decide +kernel
example : same (out .io32 [.string16 (some (ascii "x"))])
  (plain [1, 0, 0, 0, 0x78, 0, 0, 0]) := by decide +kernel
example : same (out .io32 [.string16 (some (ascii "xy"))])
  (plain [2, 0, 0, 0, 0x78, 0, 0x79, 0, 0, 0, 0, 0]) := by decide +kernel
example : same (out .io32 [.string16 (some [0xF0, 0x9F, 0x98, 0x80, 0xF0, 0x9F, 0x98, 0x81,
    0xF0, 0x9F, 0x98, 0x82, 0xF0, 0x9F, 0x98, 0x83])])
  (plain (leBytes 4 8 ++ [0xd83d, 0xde00, 0xd83d, 0xde01, 0xd83d, 0xde02, 0xd83d, 0xde03].flatMap
    (leBytes 2) ++ [0, 0, 0, 0])) := by decide +kernel

-- test_utf16 (unit_writer.c:609-627); the length is applied by the caller of the model
example : same (out .io32 [.utf16 none]) (plain [0xff, 0xff, 0xff, 0xff]) := by decide +kernel
example : same (out .io32 [.utf16 (some [])]) (plain [0, 0, 0, 0, 0, 0, 0xff, 0xff]) := by decide +kernel
example : same (out .io32 [.utf16 (some [0x78])]) (plain [1, 0, 0, 0, 0x78, 0, 0, 0]) := by decide +kernel
example : same (out .io32 [.utf16 (some [0x78, 0x79])])
  (plain [2, 0, 0, 0, 0x78, 0, 0x79, 0, 0, 0, 0, 0]) := by decide +kernel

-- test_parcelable (unit_writer.c:947-988)
example : same (out .io32 [.parcelable (some (leBytes 4 10))])
  (plain (leBytes 4 1 ++ leBytes 4 8 ++ leBytes 4 10)) := by decide +kernel
example : same (out .io32 [.parcelable none]) (plain [0, 0, 0, 0]) := by decide +kernel

-- test_byte_array (unit_writer.c:1397-1443)
example : same (out .io64 [.byteArray none]) (plain [0xff, 0xff, 0xff, 0xff]) := by decide +kernel
example : same (out .io64 [.byteArray (some [])]) (plain [0xff, 0xff, 0xff, 0xff]) := by decide +kernel
example : (out .io64 [.byteArray (some (ascii "abcd12"))]).toOption.map
    (fun r => (r.1.length, r.1.take 10, r.2)) =
  some (12, leBytes 4 6 ++ ascii "abcd12", [], 0) := by decide +kernel

-- test_bytes_written (unit_writer.c:1491-1513)
example : (write .io32 []).toOption.map Writer.bytesWritten = some 0 := by decide +kernel
example : (write .io32 [.int32 1234567]).toOption.map Writer.bytesWritten = some 4 := by decide +kernel

end plain

section buffers

/-- Strings and arrays the tests refer to: the addresses of "", "xy", "xxx", "xxxxxxx", "xxyy",
"test" and "foo". -/
def strings : Mem := [(0x1000, [0]), (0x1010, ascii "xy" ++ [0]), (0x1020, ascii "xxx" ++ [0]),
  (0x1030, ascii "xxxxxxx" ++ [0]), (0x1040, ascii "xxyy" ++ [0]), (0x1050, ascii "test" ++ [0]),
  (0x1060, ascii "foo" ++ [0])]

-- test_hidl_vec (unit_writer.c:662-686)
example : (out .io32 [.hidlVec 0 0 0] strings).toOption.map (·.2) = some ([0, 24], 16) := by decide +kernel
example : (out .io32 [.hidlVec 0x1010 2 1] strings).toOption.map (·.2) = some ([0, 24], 24) := by
  decide +kernel
example : (out .io64 [.hidlVec 0 0 0] strings).toOption.map (·.2) = some ([0, 40], 16) := by decide +kernel
example : (out .io64 [.hidlVec 0x1040 2 2] strings).toOption.map (·.2) = some ([0, 40], 24) := by
  decide +kernel

-- test_hidl_string, test_hidl_string_copy (unit_writer.c:752-758, 760-766)
example : (out .io32 [.hidlString 0] strings).toOption.map (·.2) = some ([0, 24], 16) := by decide +kernel
example : (out .io32 [.hidlString 0x1000] strings).toOption.map (·.2) = some ([0, 24], 24) := by
  decide +kernel
example : (out .io32 [.hidlString 0x1020] strings).toOption.map (·.2) = some ([0, 24], 24) := by
  decide +kernel
example : (out .io64 [.hidlString 0] strings).toOption.map (·.2) = some ([0, 40], 16) := by decide +kernel
example : (out .io64 [.hidlString 0x1000] strings).toOption.map (·.2) = some ([0, 40], 24) := by
  decide +kernel
example : (out .io64 [.hidlString 0x1030] strings).toOption.map (·.2) = some ([0, 40], 24) := by
  decide +kernel
example : (out .io32 [.hidlStringCopy 0 0x1000] strings).toOption.map (·.2) = some ([0, 24], 16) := by
  decide +kernel
example : (out .io32 [.hidlStringCopy 0x1000 0x1000] strings).toOption.map (·.2) =
  some ([0, 24], 24) := by decide +kernel
example : (out .io32 [.hidlStringCopy 0x1020 0x1000] strings).toOption.map (·.2) =
  some ([0, 24], 24) := by decide +kernel
example : (out .io64 [.hidlStringCopy 0 0x1000] strings).toOption.map (·.2) = some ([0, 40], 16) := by
  decide +kernel
example : (out .io64 [.hidlStringCopy 0x1000 0x1000] strings).toOption.map (·.2) =
  some ([0, 40], 24) := by decide +kernel
example : (out .io64 [.hidlStringCopy 0x1030 0x1000] strings).toOption.map (·.2) =
  some ([0, 40], 24) := by decide +kernel
-- test_hidl_string2 (unit_writer.c:768-793)
example : (out .io32 [.hidlString 0x1060, .hidlString 0] strings).toOption.map (·.2) =
  some ([0, 24, 48, 72], 40) := by decide +kernel

-- test_hidl_string_vec (unit_writer.c:837-861)
example : (out .io32 [.hidlStringVec []] strings).toOption.map (·.2) = some ([0, 24], 16) := by
  decide +kernel
example : (out .io32 [.hidlStringVec [0x1050]] strings).toOption.map (·.2) =
  some ([0, 24, 48], 40) := by decide +kernel
example : (out .io64 [.hidlStringVec []] strings).toOption.map (·.2) = some ([0, 40], 16) := by
  decide +kernel
example : (out .io64 [.hidlStringVec [0x1050]] strings).toOption.map (·.2) =
  some ([0, 40, 80], 40) := by decide +kernel

-- test_buffer (unit_writer.c:867-893)
example : (out .io32 [.bufferObject 0x2000 4 none, .bufferObject 0x2010 4 none]).toOption.map (·.2) =
  some ([0, 24], 16) := by decide +kernel
-- test_parent (unit_writer.c:907-941)
example : (out .io32 [.bufferObject 0x2000 8 none,
    .bufferObject 0x2010 4 (some ⟨0, 0⟩)]).toOption.map (·.2) = some ([0, 24], 16) := by decide +kernel
example : (({ io := .io32, protocol := .aidl } : Writer).appendBufferObject env 0x2000 8 none).toOption.map
    (·.1) = some 0 := by decide +kernel

end buffers

section structs

/-- TestData (unit_writer.c:899-901). -/
def testData : WType := { size := 4, fields := [] }
/-- test_struct_f, test_struct_t (unit_writer.c:1013-1021). -/
def testStruct : WType := { size := 56, fields := [.str 8, .str 24, .vec 40 4 []] }
/-- test_data_pointer_f, test_data_pointer_t (unit_writer.c:1009-1012, 1022-1025). -/
def testDataPointer : WType := { size := 8, fields := [.ptr 0 4 []] }
/-- test_struct_vec_t (unit_writer.c:1026-1035). -/
def testStructVec : WType := { size := 16, fields := [.vec 0 56 testStruct.fields] }
/-- test_struct_vec2_t (unit_writer.c:1037-1046). -/
def testStructVec2 : WType := { size := 16, fields := [.vecNoType 0] }

/-- test_data at 0x2000, test_struct at 0x3000, test_data_ptr at 0x4000, vec at 0x5000
(unit_writer.c:1052-1104). -/
def memory : Mem :=
  [(0x2000, leBytes 4 42),
   (0x3000, leBytes 4 42 ++ leBytes 4 0 ++
      (leBytes 8 0x1050 ++ leBytes 4 4 ++ leBytes 4 0) ++ List.replicate 16 0 ++
      (leBytes 8 0x2000 ++ leBytes 4 1 ++ leBytes 4 0)),
   (0x4000, leBytes 8 0x2000),
   (0x5000, leBytes 8 0x3000 ++ leBytes 4 1 ++ leBytes 4 0)] ++ strings

-- test_struct (unit_writer.c:1001-1154)
example : (out .io32 [.struct 0x2000 (some testData) none] memory).toOption.map (·.2) =
  some ([0], 8) := by decide +kernel
example : (out .io32 [.struct 0x3000 (some testStruct) none] memory).toOption.map (·.2.1) =
  some [0, 24, 48, 72] := by decide +kernel
example : (out .io32 [.struct 0x4000 (some testDataPointer) none] memory).toOption.map (·.2.1.length) =
  some 2 := by decide +kernel
example : (out .io32 [.struct 0x5000 (some testStructVec) none] memory).toOption.map (·.2.1) =
  some [0, 24, 48, 72, 96] := by decide +kernel
example : (out .io32 [.structVec 0x3000 1 (some testStruct)] memory).toOption.map (·.2.1) =
  some [0, 24, 48, 72, 96] := by decide +kernel
example : (out .io32 [.struct 0x5000 none none] memory).toOption.map (·.2.1) =
  some [0] := by decide +kernel
example : (out .io32 [.struct 0x5000 (some testStructVec2) none] memory).toOption.map (·.2.1) =
  some [0, 24] := by decide +kernel

end structs

section objects

-- test_fd, test_fd_invalid (unit_writer.c:1285-1291, 1293-1299)
example : (sizes .io32 [.fd 0 (some 5)]).toOption = some (16, [0], 0) := by decide +kernel
example : (sizes .io32 [.fd 0xffffffff none]).toOption = some (16, [0], 0) := by decide +kernel
-- test_fd_close_error (unit_writer.c:1305-1326): the second close is left to the cleanup
example : (write .io32 [.fd 1 (some 5)]).toOption.map (fun w => (w.bytes.length, w.cleanup)) =
  some (16, [.closeFd 5]) := by decide +kernel

-- test_local_object (unit_writer.c:1345-1366)
example : (sizes .io32 [.localObject none] [] .aidl).toOption = some (16, [], 0) := by decide +kernel
example : (sizes .io32 [.localObject none] [] .aidl2).toOption = some (16, [], 0) := by decide +kernel
example : (sizes .io32 [.localObject none] [] .aidl3).toOption = some (20, [], 0) := by decide +kernel
-- test_remote_object (unit_writer.c:1372-1391)
example : (sizes .io64 [.remoteObject none]).toOption = some (24, [], 0) := by decide +kernel

end objects
end Gb.Conformance
