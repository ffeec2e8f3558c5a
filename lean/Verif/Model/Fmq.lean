import Verif.Basic.Bytes
import Verif.Basic.Lts
/-
src/gbinder_fmq.c: fast message queues.

The two counters, the ring and the event flag are in memory shared with another process. One thread
(or process) writes to the queue and another one reads from it. A step is an access to one of the
counters, or copying one byte. Loads of the counter which is only stored by the thread itself are
not separate steps.

gsize is 64 bits wide.
-/
set_option autoImplicit false

namespace Gb.Fmq

/-- Subtraction of two guint64. -/
def sub64 (a b : Nat) : Nat := (a + (2 ^ 64 - b % 2 ^ 64)) % 2 ^ 64

/-- What is in the descriptor: the extent of the data (gbinder_fmq.c:160), the quantum and the type
(gbinder_fmq.c:312-313). -/
structure Cfg where
  size : Nat
  item : Nat
  sync : Bool
  deriving DecidableEq, Repr

/-- gbinder_fmq.c:253-273, 306-312: what is put in the descriptor. The product is a gsize, the quantum is
a guint32 (gbinder_fmq_p.h:77). -/
def config (itemSize numItems : Nat) (sync : Bool) (fd : Option Nat) : Option Cfg :=
  if itemSize = 0 then none
  else if numItems = 0 then none
  else if numItems > (2 ^ 64 - 1) / itemSize then none
  else if fd.any (fun bufferSize => numItems * itemSize % 2 ^ 64 > bufferSize) then none
  else some ⟨numItems * itemSize % 2 ^ 64, itemSize % 2 ^ 32, sync⟩

/-- `const guint32 size` (gbinder_fmq.c:105-106) -/
def Cfg.size32 (c : Cfg) : Nat := c.size % 2 ^ 32

/-- gbinder_fmq.c:73-97 `gbinder_fmq_available_to_read_bytes(self, FALSE)` -/
def availRead (r w : Nat) : Nat := sub64 w r

/-- gbinder_fmq.c:73-97 `gbinder_fmq_available_to_read_bytes(self, TRUE)` -/
def availReadCont (c : Cfg) (r w : Nat) : Nat :=
  let total := sub64 w r
  let cont := c.size - r % c.size
  if cont < total then cont else total

/-- gbinder_fmq.c:99-124 `gbinder_fmq_available_to_write_bytes(self, FALSE)` -/
def availWrite (c : Cfg) (r w : Nat) : Nat := sub64 c.size32 (availRead r w)

/-- gbinder_fmq.c:99-124 `gbinder_fmq_available_to_write_bytes(self, TRUE)` -/
def availWriteCont (c : Cfg) (r w : Nat) : Nat :=
  let total := availWrite c r w
  let cont := c.size32 - w % c.size32
  if cont < total then cont else total

/-- The result of gbinder_fmq_begin_read (gbinder_fmq.c:429-456). -/
inductive BeginRead
  /-- NULL -/
  | null
  /-- NULL, and the read pointer is moved to the write pointer. -/
  | skip
  /-- Offset in the ring. -/
  | ptr (off : Nat)
  deriving DecidableEq, Repr

/-- gbinder_fmq.c:429-456 `gbinder_fmq_begin_read`, `items` is not zero -/
def beginRead (c : Cfg) (r w items : Nat) : BeginRead :=
  let desired := items * c.item % 2 ^ 64
  if w % c.item ≠ 0 ∨ r % c.item ≠ 0 then .null
  else if sub64 w r > c.size then .skip
  else if sub64 w r < desired then .null
  else .ptr (r % c.size)

/-- gbinder_fmq.c:458-486 `gbinder_fmq_begin_write`, `items` is not zero -/
def beginWrite (c : Cfg) (r w items : Nat) : Option Nat :=
  if (c.sync = true ∧ availWrite c r w / c.item < items) ∨ items > c.size / c.item then none
  else if w % c.item ≠ 0 then none
  else some (w % c.size)

/-- gbinder_fmq.c:488-510 `gbinder_fmq_end_read`: the new value of the read pointer. -/
def endRead (c : Cfg) (r w items : Nat) : Nat :=
  if sub64 w r > c.size then w else (r + items * c.item) % 2 ^ 64

/-- gbinder_fmq.c:512-523 `gbinder_fmq_end_write`: the new value of the write pointer. -/
def endWrite (c : Cfg) (w items : Nat) : Nat := (w + items * c.item) % 2 ^ 64

/-- gbinder_fmq.c:543-551, 578-587: where in the ring the byte `i` of the data is copied from or to:
`base` is the pointer returned by gbinder_fmq_begin_read or gbinder_fmq_begin_write, `cont` is the
number of contiguous messages. -/
def pos (c : Cfg) (base cont items i : Nat) : Nat :=
  if cont < items then
    if i < cont * c.item then base + i else i - cont * c.item
  else base + i

/-- gbinder_fmq.c:543-551: how many bytes gbinder_fmq_read copies, in total. -/
def copied (c : Cfg) (cont items : Nat) : Nat :=
  if cont < items then cont * c.item % 2 ^ 64 + (items - cont) * c.item % 2 ^ 64
  else items * c.item % 2 ^ 64

/-- gbinder_fmq_write in progress: `cont` is known after
gbinder_fmq_available_to_write_contiguous, `i` bytes have been copied (gbinder_fmq.c:560-594). -/
structure WriteOp where
  data : Bytes
  items : Nat
  base : Nat
  cont : Option Nat := none
  i : Nat := 0
  deriving DecidableEq, Repr

/-- gbinder_fmq_read in progress (gbinder_fmq.c:525-558). -/
structure ReadOp where
  items : Nat
  base : Nat
  cont : Option Nat := none
  buf : Bytes := []
  deriving DecidableEq, Repr

/-- gbinder_fmq.c:54-61 GBinderFmq (the shared memory it points to), and the calls in progress (gbinder_fmq.c:525-594). -/
structure State where
  ring : Nat → UInt8 := fun _ => 0
  rp : Nat := 0
  wp : Nat := 0
  writer : Option WriteOp := none
  reader : Option ReadOp := none
  /-- All data passed to successful gbinder_fmq_write calls. -/
  sent : Bytes := []
  /-- What successful gbinder_fmq_read calls have returned, with the value of the read pointer. -/
  reads : List (Nat × Bytes) := []

/-- gbinder_fmq.c:525-594: what happens next, see `step`. -/
inductive Label
  | wBegin (data : Bytes) (items : Nat)
  | wPlan
  | wCopy
  | wEnd
  | rBegin (items : Nat)
  | rPlan
  | rCopy
  | rEnd
  deriving DecidableEq, Repr

/-- gbinder_fmq.c:560-594 `gbinder_fmq_write` and 525-558 `gbinder_fmq_read`. The caller has as much
data (room for as much data) as it claims. -/
def step (c : Cfg) (s : State) : Label → Out State
  -- gbinder_fmq_begin_write
  | .wBegin data items =>
    if s.writer = none ∧ 0 < items ∧ data.length = items * c.item then
      if c.item = 0 ∨ c.size = 0 then .ub
      else match beginWrite c s.rp s.wp items with
        | none => .ok s
        | some base => .ok { s with writer := some { data, items, base } }
    else .no
  -- gbinder_fmq_available_to_write_contiguous
  | .wPlan =>
    match s.writer with
    | some o =>
      if o.cont = none then
        if c.item = 0 ∨ c.size32 = 0 then .ub
        else .ok { s with writer := some { o with cont := some (availWriteCont c s.rp s.wp / c.item) } }
      else .no
    | none => .no
  -- memcpy
  | .wCopy =>
    match s.writer with
    | some o =>
      match o.cont, o.data[o.i]? with
      | some cont, some b =>
        let p := pos c o.base cont o.items o.i
        if p < c.size then
          .ok { s with ring := upd s.ring p b, writer := some { o with i := o.i + 1 } }
        else .ub
      | _, _ => .no
    | none => .no
  -- gbinder_fmq_end_write
  | .wEnd =>
    match s.writer with
    | some o =>
      if o.cont ≠ none ∧ o.i = o.data.length then
        .ok { s with writer := none, wp := endWrite c s.wp o.items, sent := s.sent ++ o.data }
      else .no
    | none => .no
  -- gbinder_fmq_begin_read
  | .rBegin items =>
    if s.reader = none ∧ 0 < items ∧ items * c.item < 2 ^ 64 then
      if c.item = 0 ∨ c.size = 0 then .ub
      else match beginRead c s.rp s.wp items with
        | .null => .ok s
        | .skip => .ok { s with rp := s.wp }
        | .ptr base => .ok { s with reader := some { items, base } }
    else .no
  -- gbinder_fmq_available_to_read_contiguous
  | .rPlan =>
    match s.reader with
    | some o =>
      if o.cont = none then
        if c.item = 0 ∨ c.size = 0 then .ub
        else .ok { s with reader := some { o with cont := some (availReadCont c s.rp s.wp / c.item) } }
      else .no
    | none => .no
  -- memcpy
  | .rCopy =>
    match s.reader with
    | some o =>
      match o.cont with
      | some cont =>
        if o.buf.length < o.items * c.item then
          let p := pos c o.base cont o.items o.buf.length
          if p < c.size then
            .ok { s with reader := some { o with buf := o.buf ++ [s.ring p] } }
          else .ub
        else .no
      | none => .no
    | none => .no
  -- gbinder_fmq_end_read
  | .rEnd =>
    match s.reader with
    | some o =>
      if o.cont ≠ none ∧ o.buf.length = o.items * c.item then
        .ok { s with reader := none, rp := endRead c s.rp s.wp o.items, reads := s.reads ++ [(s.rp, o.buf)] }
      else .no
    | none => .no

end Gb.Fmq
