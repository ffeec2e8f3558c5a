import Verif.Model.WriterOps
/-
A concrete environment and some concrete calls for the examples next to the theorems.
-/
set_option autoImplicit false

namespace Gb.Demo

/-- Some junk, blocks at increasing addresses, no spare capacity. -/
def env : Env where
  junk i := UInt8.ofNat (7 * i + 1)
  alloc m _ := 0x10000 + 0x1000 * m.length
  slack _ := 0

/-- "ab" at 16, {ptr 16, len 2} at 32, a GBinderFds with one descriptor and one integer at 64. -/
def mem : Mem :=
  [(16, [0x61, 0x62, 0]), (32, leBytes 8 16 ++ leBytes 4 2 ++ leBytes 4 1),
   (64, leBytes 4 12 ++ leBytes 4 1 ++ leBytes 4 1 ++ leBytes 4 5 ++ leBytes 4 77)]

/-- Calls covering all kinds of objects. -/
def ops : List WOp :=
  [.int32 7, .string8 (some [0x61]), .localObject (some { addr := 0x55550, stability := 12 }),
   .remoteObject (some 3), .hidlString 16, .hidlStringVec [16, 16], .hidlVec 16 3 1,
   .struct 32 (some { size := 16, fields := [.str 0] }) none, .fd 5 (some 6), .bool true]

end Gb.Demo
