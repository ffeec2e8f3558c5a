import Verif.Model.Fmq
import Verif.Model.EventFlag
/-
unit/unit_fmq/unit_fmq.c: what the tests expect of the message queues holds in the model. These are
tests of the model, not proofs. The random numbers are replaced with fixed ones.
-/
set_option autoImplicit false

namespace Gb.Conformance
namespace Fq
open Fmq

/-- gbinder_fmq_write which isn't interrupted (gbinder_fmq.c:560-594): the new state and what's
returned. -/
def write (c : Cfg) (s : State) (data : Bytes) (items : Nat) : Option (State × Bool) :=
  match step c s (.wBegin data items) with
  | .ok s1 =>
    if s1.writer = none then some (s1, false)
    else match exec (step c) s1 (.wPlan :: (List.replicate data.length .wCopy ++ [.wEnd])) with
      | .ok s2 => some (s2, true)
      | _ => none
  | _ => none

/-- gbinder_fmq_read which isn't interrupted (gbinder_fmq.c:525-558): the new state and the data, if
it has returned TRUE. -/
def read (c : Cfg) (s : State) (items : Nat) : Option (State × Option Bytes) :=
  match step c s (.rBegin items) with
  | .ok s1 =>
    if s1.reader = none then some (s1, none)
    else match exec (step c) s1 (.rPlan :: (List.replicate (items * c.item) .rCopy ++ [.rEnd])) with
      | .ok s2 => some (s2, s2.reads.getLast?.map (·.2))
      | _ => none
  | _ => none

/-- What a test does and expects (unit_fmq.c). -/
inductive Do
  | write (data : Bytes) (items : Nat) (ok : Bool)
  | read (items : Nat) (data : Option Bytes)
  | toRead (n : Nat)
  | toWrite (n : Nat)
  | toReadContiguous (n : Nat)
  | toWriteContiguous (n : Nat)

/-- Does the queue behave as expected (gbinder_fmq.c:441-486 for the numbers)? -/
def check (c : Cfg) : State → List Do → Bool
  | _, [] => true
  | s, .write d n r :: l =>
    match write c s d n with
    | some (s', r') => r == r' && check c s' l
    | none => false
  | s, .read n r :: l =>
    match read c s n with
    | some (s', r') => r == r' && check c s' l
    | none => false
  | s, .toRead n :: l => availRead s.rp s.wp / c.item == n && check c s l
  | s, .toWrite n :: l => availWrite c s.rp s.wp / c.item == n && check c s l
  | s, .toReadContiguous n :: l => availReadCont c s.rp s.wp / c.item == n && check c s l
  | s, .toWriteContiguous n :: l => availWriteCont c s.rp s.wp / c.item == n && check c s l

/-- The item number i (random in unit_fmq.c). -/
def item (size i : Nat) : Bytes := (List.range size).map fun k => UInt8.ofNat (i * 37 + k * 11 + 5)

/-- The first n items. -/
def items (size n : Nat) : Bytes := (List.range n).flatMap (item size)

/-- test_read_write_guint8 and test_read_write_gint64 (unit_fmq.c:127-195, 216-284), which are the
same except for the size. -/
def readWrite (size : Nat) (sync : Bool) : List Do :=
  (List.range 8).flatMap (fun i => [.write (item size i) 1 true, .toRead (i + 1)]) ++
  (if sync then [.write (item size 0) 1 false, .toRead 8] else []) ++
  (List.range 8).flatMap (fun i => [.read 1 (some (item size i)), .toRead (8 - i - 1)]) ++
  [.read 1 none, .write (items size 8) 8 true, .toRead 8, .read 8 (some (items size 8)),
   .write (items size 9) 9 false] ++
  (if sync then [] else
    [.write (items size 8) 8 true, .write (item size 0) 1 true, .read 1 none, .toRead 0])

-- test_null
example : config 0 8 true none = none := by decide
example : config 4 0 true none = none := by decide
example : config 4 8 true (some 0) = none := by decide
example : EventFlag.waitCheck false true true 0 = some (-22) := by decide
example : EventFlag.waitCheck true false true 0 = some (-22) := by decide

-- test_read_write_guint8, test_read_write_gint64
example : ([1, 8].all fun size => [true, false].all fun sync =>
    match config size 8 sync none with
    | some c => check c {} (readWrite size sync)
    | none => false) = true := by decide +kernel

-- test_read_write_counters
example : (match config 8 8 true none with
    | some c => check c {} (
      (List.range 6).flatMap (fun i => [.write (item 8 i) 1 true, .toRead (i + 1), .toWrite (8 - i - 1)]) ++
      (List.range 2).flatMap (fun i => [.read 1 (some (item 8 i)), .toRead (6 - i - 1),
        .toWrite (8 - 6 + i + 1), .toWriteContiguous 2]) ++
      [.read 2 (some (item 8 2 ++ item 8 3)), .toRead 2, .toWrite 6, .toWriteContiguous 2,
       .write (items 8 4) 4 true, .toRead 6, .toReadContiguous 4,
       .read 6 (some (item 8 4 ++ item 8 5 ++ items 8 4)), .toRead 0, .toReadContiguous 0,
       .write (items 8 6) 6 true, .toRead 6, .toReadContiguous 6, .toWrite 2, .toWriteContiguous 2])
    | none => false) = true := by decide +kernel

-- test_read_write_external_fd
example : (match config 8 8 true (some 64) with
    | some c => check c {} (
      (List.range 8).flatMap (fun i => [.write (item 8 i) 1 true, .toRead (i + 1)]) ++
      (List.range 8).flatMap (fun i => [.read 1 (some (item 8 i)), .toRead (8 - i - 1)]))
    | none => false) = true := by decide +kernel

-- test_zero_copy
example : (config 8 8 true none).map (fun c =>
      (beginWrite c 0 0 2, endWrite c 0 2, availRead 0 16 / 8, availWrite c 0 16 / 8)) =
    some (some 0, 16, 2, 6) := by decide +kernel
example : (config 8 8 true none).map (fun c => beginRead c 0 16 2) = some (.ptr 0) := by
  decide +kernel
example : (config 8 8 true none).map (fun c => endRead c 0 16 2) = some 16 := by decide +kernel

/-- One thread calls gbinder_fmq_wait and gbinder_fmq_wake (unit_fmq.c:425-481): what the calls of
gbinder_fmq_wait end with. -/
def flag (l : List EventFlag.Label) : Option (List EventFlag.Ev × BitVec 32) :=
  match exec (EventFlag.step true) {} l with
  | .ok s => some (s.log, s.word)
  | _ => none

-- test_wait_wake
example : flag [.wait 0 2 false, .futexWait 0, .interrupt 0,
      .wake 0 4, .futexWake 0 none, .wait 0 4 false,
      .wake 0 4, .futexWake 0 none, .wait 0 0xf false,
      .wake 0 4, .futexWake 0 none, .wait 0 2 false, .futexWait 0, .interrupt 0, .wait 0 2 true] =
    some ([.none 2, .wake 4, .got 4 4, .wake 4, .got 0xf 4, .wake 4, .none 2, .none 2], 4) := by
  decide +kernel
example : EventFlag.waitCheck true true true 0 = some (-22) := by decide
example : EventFlag.waitCheck true true false 2 = some (-38) := by decide

end Fq
end Gb.Conformance
