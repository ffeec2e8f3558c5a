import Verif.Model.WriterOps
/-
Transaction headers: src/gbinder_io.c (fill_transaction_data .. decode_transaction_data),
src/binder.h, and the parts of src/gbinder_driver.c which build BC_TRANSACTION and BC_REPLY.
64-bit size_t is assumed (LP64).
-/
set_option autoImplicit false

namespace Gb

/-- asm-generic/ioctl.h `_IOC(dir, type, nr, size)` (used at binder.h:160-201). -/
def ioc (dir type nr size : Nat) : Nat := dir * 2 ^ 30 + size * 2 ^ 16 + type * 2 ^ 8 + nr

/-- binder.h:181-201: commands written to the driver (those the library uses). -/
inductive BC
  | transaction | reply | freeBuffer | increfs | acquire | release | decrefs | increfsDone
  | acquireDone | registerLooper | enterLooper | exitLooper | requestDeathNotification
  | clearDeathNotification | deadBinderDone | transactionSg | replySg
  deriving DecidableEq, Repr

/-- Size of the data following a command word (binder.h:181-201). -/
def BC.size (io : Io) : BC → Nat
  | .transaction | .reply => io.txDataSize
  | .freeBuffer | .deadBinderDone => io.ptrSize
  | .increfs | .acquire | .release | .decrefs => 4
  | .increfsDone | .acquireDone => io.ptrCookieSize
  | .registerLooper | .enterLooper | .exitLooper => 0
  | .requestDeathNotification | .clearDeathNotification => io.handleCookieSize
  | .transactionSg | .replySg => io.txDataSgSize

/-- The `nr` of a command (binder.h:181-201). -/
def BC.nr : BC → Nat
  | .transaction => 0 | .reply => 1 | .freeBuffer => 3 | .increfs => 4 | .acquire => 5
  | .release => 6 | .decrefs => 7 | .increfsDone => 8 | .acquireDone => 9
  | .registerLooper => 11 | .enterLooper => 12 | .exitLooper => 13
  | .requestDeathNotification => 14 | .clearDeathNotification => 15 | .deadBinderDone => 16
  | .transactionSg => 17 | .replySg => 18

/-- Command words: `_IOW('c', nr, type)` or `_IO('c', nr)` if there is no data
(binder.h:181-201). -/
def BC.code (io : Io) (c : BC) : Nat :=
  ioc (if c.size io = 0 then 0 else 1) 0x63 c.nr (c.size io)

/-- binder.h:120-139 struct binder_transaction_data: the fields in memory order; `target` is the
handle (outgoing) or the pointer (incoming). -/
structure TxHeader where
  target : Nat := 0
  cookie : Nat := 0
  code : Nat := 0
  flags : Nat := 0
  pid : Nat := 0
  euid : Nat := 0
  dataSize : Nat := 0
  offsetsSize : Nat := 0
  buffer : Nat := 0
  offsets : Nat := 0
  deriving DecidableEq, Repr

/-- The structure in memory (binder.h:120-139). -/
def TxHeader.bytes (io : Io) (t : TxHeader) : Bytes :=
  leBytes io.ptrSize t.target ++ (leBytes io.ptrSize t.cookie ++ (leBytes 4 t.code ++
  (leBytes 4 t.flags ++ (leBytes 4 t.pid ++ (leBytes 4 t.euid ++ (leBytes io.ptrSize t.dataSize ++
  (leBytes io.ptrSize t.offsetsSize ++ (leBytes io.ptrSize t.buffer ++
  leBytes io.ptrSize t.offsets))))))))

/-- gbinder_io.c:293-324 `fill_transaction_data`. `bufPtr` is `payload->data`, `offPtr` the
address of the newly allocated array; second component: its contents. The 32-bit handle is
stored to a union which has been cleared. -/
def fillTransactionData (io : Io) (handle code : Nat) (w : Writer) (flags bufPtr offPtr : Nat) :
    TxHeader × Bytes :=
  let t : TxHeader :=
    { target := handle % 2 ^ 32, code := code, flags := flags,
      dataSize := w.bytes.length, buffer := bufPtr }
  if w.offsets.length ≠ 0 then
    ({ t with offsetsSize := w.offsets.length * io.ptrSize, offsets := offPtr },
      w.offsets.flatMap (leBytes io.ptrSize))
  else (t, [])

/-- binder.h:115-118. -/
def tfOneWay : Nat := 1
/-- binder.h:117 TF_STATUS_CODE. -/
def tfStatusCode : Nat := 8
/-- binder.h:118 TF_ACCEPT_FDS. -/
def tfAcceptFds : Nat := 0x10

/-- gbinder_driver.c:1240-1274 (with gbinder_io.c:326-367): the command and its data written by
gbinder_driver_transact; `oneway` if no reply is expected. -/
def transactionCommand (io : Io) (w : Writer) (handle code : Nat) (oneway : Bool)
    (bufPtr offPtr : Nat) : Bytes × Bytes :=
  let flags := if oneway then tfOneWay else tfAcceptFds
  let (t, offs) := fillTransactionData io handle code w flags bufPtr offPtr
  if w.buffersSize ≠ 0 then
    (leBytes 4 (BC.transactionSg.code io) ++ (t.bytes io ++ leBytes io.ptrSize (align8 w.buffersSize)),
      offs)
  else (leBytes 4 (BC.transaction.code io) ++ t.bytes io, offs)

/-- gbinder_driver.c:467-513 `gbinder_driver_reply_data` (with gbinder_io.c:369-406). -/
def replyCommand (io : Io) (w : Writer) (bufPtr offPtr : Nat) : Bytes × Bytes :=
  let (t, offs) := fillTransactionData io 0 0 w 0 bufPtr offPtr
  if w.buffersSize ≠ 0 then
    (leBytes 4 (BC.replySg.code io) ++ (t.bytes io ++ leBytes io.ptrSize (align8 w.buffersSize)), offs)
  else (leBytes 4 (BC.reply.code io) ++ t.bytes io, offs)

/-- gbinder_driver.c:440-465 `gbinder_driver_reply_status` (with gbinder_io.c:408-422);
`statusPtr` is the address of the 4-byte status. -/
def statusReplyCommand (io : Io) (statusPtr : Nat) : Bytes :=
  let t : TxHeader := { flags := tfStatusCode, dataSize := 4, buffer := statusPtr }
  leBytes 4 (BC.reply.code io) ++ t.bytes io

/-! ### Incoming -/

/-- Reads the fields of struct binder_transaction_data (gbinder_io.c:424-478). -/
def decodeTxHeader (io : Io) (b : Bytes) : Option TxHeader := do
  let p := io.ptrSize
  let target ← uptrAt io b 0
  let cookie ← uptrAt io b p
  let code ← u32At b (2 * p)
  let flags ← u32At b (2 * p + 4)
  let pid ← u32At b (2 * p + 8)
  let euid ← u32At b (2 * p + 12)
  let dataSize ← uptrAt io b (2 * p + 16)
  let offsetsSize ← uptrAt io b (3 * p + 16)
  let buffer ← uptrAt io b (4 * p + 16)
  let offsets ← uptrAt io b (5 * p + 16)
  some { target, cookie, code, flags, pid, euid, dataSize, offsetsSize, buffer, offsets }

/-- gbinder_io.h:56-66 GBinderIoTxData. `objects` are offsets relative to `data` (the code
stores pointers, `data + offset`). -/
structure TxData where
  status : Nat
  code : Nat
  oneway : Bool
  pid : Nat
  euid : Nat
  target : Nat
  data : Nat
  size : Nat
  objects : List Nat
  deriving DecidableEq, Repr

/-- The 64-bit or 32-bit offset table. -/
def loadOffsets (io : Io) (m : Mem) (a : Nat) : Nat → Except UB (List Nat)
  | 0 => .ok []
  | n + 1 => do
    let b ← Writer.loadBytes m a io.ptrSize
    let rest ← loadOffsets io m (a + io.ptrSize) n
    .ok (leVal b :: rest)

/-- gbinder_io.c:456-466: validation of the offsets. The sum of a binder_size_t and a size_t is
evaluated modulo 2^64. -/
def validOffsets (io : Io) (size : Nat) : Nat → List Nat → Bool
  | _, [] => true
  | minOffset, o :: rest =>
    if o < minOffset ∨ size < (o + io.flatSize) % 2 ^ 64 then false
    else validOffsets io size ((o + io.flatSize) % 256 ^ io.ptrSize) rest

/-- gbinder_io.c:424-478 `decode_transaction_data`. -/
def decodeTransactionData (io : Io) (m : Mem) (raw : Bytes) : Except UB TxData :=
  match decodeTxHeader io raw with
  | none => .error .oob
  | some t =>
    let tx : TxData :=
      { status := 0, code := t.code, oneway := false, pid := t.pid,
        euid := t.euid, target := t.target, data := t.buffer, size := 0, objects := [] }
    if t.flags / 8 % 2 = 1 then do
      let st ← Writer.loadU32 m t.buffer
      .ok { tx with status := st }
    else do
      let objcount := t.offsetsSize / io.ptrSize % 2 ^ 32
      let offs ← loadOffsets io m t.offsets objcount
      .ok { tx with
        size := t.dataSize
        oneway := t.flags % 2 = 1
        objects := if validOffsets io t.dataSize 0 offs then offs else [] }

end Gb
