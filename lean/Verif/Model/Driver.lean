import Verif.Model.Tx
import Verif.Model.Rpc
/-
src/gbinder_driver.c: the loops which exchange commands with the kernel.

Everything the driver module doesn't decide itself is a parameter (`World`) which may depend on
everything that has happened so far in this call (the log): what the kernel returns, the contents
of the memory it delivers data to, which objects exist, what the handlers do. Functions take
`fuel`; running out of it (`Stop.fuel`) means that the call has not returned yet, as does waiting
for the kernel (`Stop.blocked`); the log up to that point is part of the result.
-/
set_option autoImplicit false

namespace Gb.Driver

/-- errno values (asm-generic/errno-base.h, errno.h) (used at gbinder_driver.c:774-854). -/
def EAGAIN : Nat := 11
/-- errno.h, used at gbinder_driver.c:774-854. -/
def EFAULT : Nat := 14
/-- errno.h, used at gbinder_driver.c:515-597. -/
def EBADMSG : Nat := 74

/-- binder.h:160-179: commands read from the driver. -/
inductive BR
  | error | ok | transaction | reply | acquireResult | deadReply | transactionComplete | increfs
  | acquire | release | decrefs | attemptAcquire | noop | spawnLooper | finished | deadBinder
  | clearDeathNotificationDone | failedReply
  deriving DecidableEq, Repr

/-- The `nr` of a command (binder.h:160-179). -/
def BR.nr : BR → Nat
  | .error => 0 | .ok => 1 | .transaction => 2 | .reply => 3 | .acquireResult => 4
  | .deadReply => 5 | .transactionComplete => 6 | .increfs => 7 | .acquire => 8 | .release => 9
  | .decrefs => 10 | .attemptAcquire => 11 | .noop => 12 | .spawnLooper => 13 | .finished => 14
  | .deadBinder => 15 | .clearDeathNotificationDone => 16 | .failedReply => 17

/-- Size of the data following a command word (binder.h:120-179). -/
def BR.size (io : Io) : BR → Nat
  | .error | .acquireResult => 4
  | .transaction | .reply => io.txDataSize
  | .increfs | .acquire | .release | .decrefs => io.ptrCookieSize
  | .attemptAcquire => match io with | .io32 => 12 | .io64 => 24
  | .deadBinder | .clearDeathNotificationDone => io.ptrSize
  | _ => 0

/-- `_IOR('r', nr, type)` or `_IO('r', nr)` (binder.h:160-179). -/
@[irreducible] def BR.code (io : Io) (c : BR) : Nat :=
  ioc (if c.size io = 0 then 0 else 2) 0x72 c.nr (c.size io)

/-- linux/ioctl.h `_IOC_SIZE` (used at gbinder_driver.c:418-438). -/
@[irreducible] def iocSize (cmd : Nat) : Nat := cmd / 2 ^ 16 % 2 ^ 14

/-- gbinder_io.h `GBINDER_IO_READ_BUFFER_SIZE` (gbinder_io.h:66). -/
def readBufferSize : Nat := 128

/-- Result of ioctl(BINDER_WRITE_READ): an error (a positive errno), or the number of bytes taken
from the write buffer and the bytes added to the read buffer
(gbinder_system.c, gbinder_io.c:61-92). -/
inductive KRes
  | err (errno : Nat)
  | ok (wrote : Nat) (read : Bytes)
  deriving DecidableEq, Repr

/-- What happens in a call (gbinder_driver.c:225-1313). -/
inductive Ev
  /-- ioctl(BINDER_WRITE_READ) with the data to write, the room in the read buffer (`none` if there
  is no read buffer) and its result. -/
  | ioctl (w : Bytes) (room : Option Nat) (res : KRes)
  /-- A command is taken from the read buffer and acted upon. -/
  | cmd (code : Nat) (data : Bytes)
  /-- The owner of a received buffer is created. -/
  | own (addr : Nat)
  /-- A transaction has been handled by an object (or by nobody). -/
  | answer (known : Bool) (tx : TxData) (iface : Option Bytes) (reply : Option Writer) (status : Int)
  /-- Memory the kernel is about to be given the address of. -/
  | holds (addr : Nat) (b : Bytes)
  /-- Calls to local and remote objects. -/
  | increfs (ptr : Nat)
  | acquire (ptr : Nat)
  | decrefs (ptr : Nat)
  | release (ptr : Nat)
  | death (handle : Nat)
  deriving DecidableEq, Repr

/-- gbinder_local_object_p.h: GBINDER_LOCAL_TRANSACTION_SUPPORT (gbinder_local_object_p.h:65-69). -/
inductive Support
  | notSupported
  | looper
  | supported
  deriving DecidableEq, Repr

/-- The rest of the world. `handle` stands for gbinder_local_object_handle_looper_transaction,
gbinder_handler_transact and gbinder_local_object_handle_transaction: the reply and the status.
`place` are the addresses of the payload, of the offsets and of the status passed to the kernel
(the callees of gbinder_driver.c:225-1313). -/
structure World where
  kernel : List Ev → Bytes → Option Nat → Option KRes
  mem : List Ev → Mem
  getLocal : List Ev → Nat → Bool
  getRemote : List Ev → Nat → Bool
  support : List Ev → Nat → Option Bytes → Nat → Support
  handle : List Ev → Support → TxData → Option Bytes → Option Writer × Int
  canLoop : List Ev → Bool
  place : List Ev → Nat × Nat × Nat

/-- struct gbinder_driver, the constant part (gbinder_driver.c:77-85). -/
structure Cfg where
  io : Io
  proto : Protocol

/-- GBinderDriverReadBuf and GBinderDriverContext (gbinder_driver.c:87-105): `buf` are the
`io.consumed` bytes in use, the rest of the buffer is never looked at. `unrefs` are the deferred
unrefs (`true` for BR_RELEASE). The list of buffers (`bufs`) is not part of this model. -/
structure St where
  buf : Bytes := []
  off : Nat := 0
  unrefs : List (Bool × Nat) := []
  log : List Ev := []
  deriving DecidableEq, Repr

/-- Adds to the log; no code in gbinder_driver.c:225-1313 corresponds to it. -/
def St.add (s : St) (e : Ev) : St := { s with log := s.log ++ [e] }

/-- Why a call has not returned (gbinder_driver.c:225-1313, no code of its own). -/
inductive Stop
  | fuel
  | blocked
  | ub (k : UB)
  deriving DecidableEq, Repr

/-- The result of a function of gbinder_driver.c:225-1313, unless it hasn't returned. -/
inductive Run (α : Type)
  | done (a : α) (s : St)
  | stop (why : Stop) (s : St)
  deriving DecidableEq, Repr

/-- Two calls in sequence, as in gbinder_driver.c:225-1313; the second one isn't made if the first one hasn't returned. -/
def Run.bind {α β : Type} (r : Run α) (f : α → St → Run β) : Run β :=
  match r with
  | .done a s => f a s
  | .stop w s => .stop w s

/-- gbinder_driver.c:225-244 `gbinder_driver_write` (with gbinder_io.c:61-92); the callers only
look at whether the result is negative. Nobody looks at how much has been written. -/
def write (W : World) : Nat → Bytes → St → Run Bool
  | 0, _, s => .stop .fuel s
  | f + 1, b, s =>
    match W.kernel s.log b none with
    | none => .stop .blocked s
    | some (.err e) =>
      if e = EAGAIN then write W f b (s.add (.ioctl b none (.err e)))
      else .done false (s.add (.ioctl b none (.err e)))
    | some (.ok n rd) => .done true (s.add (.ioctl b none (.ok n rd)))

/-- gbinder_driver.c:246-307 `gbinder_driver_write_read` (with gbinder_io.c:61-92): the result is
the error, if any, and what remains to be written. If `rbuf->offset` isn't zero, then it is
subtracted from `size` and `consumed` and added to the pointer, and the other way around at the
end, which makes no difference. The kernel does not store more than there is room for. -/
def writeRead (W : World) : Nat → Bytes → St → Run (Option Nat × Bytes)
  | 0, _, s => .stop .fuel s
  | f + 1, w, s =>
    let room := readBufferSize - s.buf.length
    match W.kernel s.log w (some room) with
    | none => .stop .blocked s
    | some (.err e) =>
      if e = EAGAIN then writeRead W f w (s.add (.ioctl w (some room) (.err e)))
      else .done (some e, w) (s.add (.ioctl w (some room) (.err e)))
    | some (.ok n rd) =>
      .done (none, w.drop n)
        { s.add (.ioctl w (some room) (.ok n (rd.take room))) with buf := s.buf ++ rd.take room }

/-- gbinder_driver.c:418-438 `gbinder_driver_next_command`: the command and its data. A command
code of zero is the same as no command. -/
def nextCommand (s : St) : Option (Nat × Bytes) :=
  let rest := s.buf.drop s.off
  if 4 ≤ rest.length then
    let cmd := leVal (rest.take 4)
    if 4 + iocSize cmd ≤ rest.length ∧ cmd ≠ 0 then some (cmd, (rest.drop 4).take (iocSize cmd))
    else none
  else none

/-- `rbuf->offset += total` (gbinder_driver.c:767, 795) when a command is being processed. -/
def St.swallow (s : St) (cmd : Nat) (data : Bytes) : St :=
  { s.add (.cmd cmd data) with off := s.off + (4 + iocSize cmd) }

/-- gbinder_driver.c:731-750 `gbinder_driver_compact_read_buf`. -/
def compact (s : St) : St := { s with buf := s.buf.drop s.off, off := 0 }

/-- gbinder_driver.c:341-359 `gbinder_driver_cmd_data`, `n` being `_IOC_SIZE(cmd)`. -/
def writeCmdData (W : World) (f cmd n : Nat) (data : Bytes) (s : St) : Run Unit :=
  match slice data 0 n with
  | none => .stop (.ub .oob) s
  | some d => (write W f (leBytes 4 cmd ++ d) s).bind fun _ s => .done () s

/-- gbinder_driver.c:341-359 `gbinder_driver_cmd_data`: the size of the payload is the one which
is encoded in the command. -/
def cmdData (W : World) (io : Io) (f : Nat) (c : BC) (data : Bytes) (s : St) : Run Unit :=
  writeCmdData W f (c.code io) (iocSize (c.code io)) data s

/-- gbinder_driver.c:1156-1178 `gbinder_driver_free_buffer`. -/
def freeBuffer (W : World) (io : Io) (f : Nat) (addr : Nat) (s : St) : Run Unit :=
  if addr ≠ 0 then
    (write W f (leBytes 4 (BC.freeBuffer.code io) ++ leBytes io.ptrSize addr) s).bind
      fun _ s => .done () s
  else .done () s

/-- gint32 -/
def signed32 (n : Nat) : Int := if n % 2 ^ 32 < 2 ^ 31 then n % 2 ^ 32 else (n % 2 ^ 32 : Int) - 2 ^ 32

/-- gbinder_driver.c:829-843: the status of a reply with the special values filtered out
(GBINDER_STATUS_FAILED is 1, GBINDER_STATUS_DEAD_OBJECT is 2). -/
def filterStatus (n : Nat) : Int :=
  let st := signed32 n
  if st = -(EAGAIN : Int) ∨ st = 1 ∨ st = 2 then -(EFAULT : Int) else st

/-- gbinder_io.c:493-504 `decode_ptr_cookie` and gbinder_io.c:480-490 `decode_cookie`. -/
def decodePtr (io : Io) (data : Bytes) : Option Nat := uptrAt io data 0

/-- gbinder_driver.c:530-547: data of an incoming transaction. The result is the interface. -/
def takeRequest (c : Cfg) (W : World) (f : Nat) (tx : TxData) (s : St) : Run (Option Bytes) :=
  if tx.data ≠ 0 ∧ tx.size ≠ 0 then
    let s := s.add (.own tx.data)
    match (W.mem s.log).load tx.data tx.size with
    | none => .stop (.ub .oob) s
    | some b =>
      match RemoteReq.setData c.io c.proto tx.code b tx.objects with
      | .error k => .stop (.ub k) s
      | .ok q => .done q.iface s
  else (freeBuffer W c.io f tx.data s).bind fun _ s => .done none s

/-- gbinder_driver.c:549-575: who handles the transaction, and how. -/
def dispatch (W : World) (known : Bool) (tx : TxData) (iface : Option Bytes) (s : St) :
    Option Writer × Int :=
  match (if known then W.support s.log tx.target iface tx.code else .notSupported) with
  | .notSupported => (none, -(EBADMSG : Int))
  | k => W.handle s.log k tx iface

/-- gbinder_driver.c:440-513 `gbinder_driver_reply_status`, `gbinder_driver_reply_data`. -/
def sendReply (c : Cfg) (W : World) (f : Nat) (reply : Option Writer) (status : Int) (s : St) :
    Run Unit :=
  let (pl, offs, st) := W.place s.log
  match reply with
  | some w =>
    let (b, o) := replyCommand c.io w pl offs
    (write W f b ((s.add (.holds pl w.bytes)).add (.holds offs o))).bind fun _ s => .done () s
  | none =>
    (write W f (statusReplyCommand c.io st)
      (s.add (.holds st (leBytes 4 (status % 2 ^ 32).toNat)))).bind fun _ s => .done () s

mutual

/-- gbinder_driver.c:515-597 `gbinder_driver_handle_transaction`. -/
def handleTransaction (c : Cfg) (W : World) : Nat → Bytes → St → Run Unit
  | 0, _, s => .stop .fuel s
  | f + 1, data, s =>
    match decodeTransactionData c.io (W.mem s.log) data with
    | .error k => .stop (.ub k) s
    | .ok tx =>
      let known := W.getLocal s.log tx.target
      (takeRequest c W f tx s).bind fun iface s =>
      let (reply, status) := dispatch W known tx iface s
      let s := s.add (.answer known tx iface reply status)
      if tx.oneway then .done () s
      else (sendReply c W f reply status s).bind fun _ s => waitReplied c W f s

/-- gbinder_driver.c:584-590: the loop waiting until the reply is handled. -/
def waitReplied (c : Cfg) (W : World) : Nat → St → Run Unit
  | 0, s => .stop .fuel s
  | f + 1, s =>
    (writeRead W f [] s).bind fun r s =>
    match r.1 with
    | some _ => .done () s
    | none => (txstatus c W f false s).bind fun st s =>
      if st = -(EAGAIN : Int) then waitReplied c W f s else .done () s

/-- gbinder_driver.c:621-729 `gbinder_driver_handle_command`. The commands are told apart by
their codes, which are all different. -/
def handleCommand (c : Cfg) (W : World) : Nat → Nat → Bytes → St → Run Unit
  | 0, _, _, s => .stop .fuel s
  | f + 1, cmd, data, s =>
    if cmd = BR.increfs.code c.io then
      match decodePtr c.io data with
      | none => .stop (.ub .oob) s
      | some p => cmdData W c.io f .increfsDone data
          (if W.getLocal s.log p then s.add (.increfs p) else s)
    else if cmd = BR.decrefs.code c.io then
      match decodePtr c.io data with
      | none => .stop (.ub .oob) s
      | some p => .done () (if W.getLocal s.log p then { s with unrefs := s.unrefs ++ [(false, p)] } else s)
    else if cmd = BR.acquire.code c.io then
      match decodePtr c.io data with
      | none => .stop (.ub .oob) s
      | some p =>
        if W.getLocal s.log p then .done () (s.add (.acquire p))
        else cmdData W c.io f .acquireDone data s
    else if cmd = BR.release.code c.io then
      match decodePtr c.io data with
      | none => .stop (.ub .oob) s
      | some p => .done () (if W.getLocal s.log p then { s with unrefs := s.unrefs ++ [(true, p)] } else s)
    else if cmd = BR.transaction.code c.io then handleTransaction c W f data s
    else if cmd = BR.deadBinder.code c.io then
      match decodePtr c.io data with
      | none => .stop (.ub .oob) s
      | some h =>
        if W.getRemote s.log (h % 2 ^ 32) then .done () (s.add (.death (h % 2 ^ 32)))
        else cmdData W c.io f .deadBinderDone data s
    else .done () s

/-- gbinder_driver.c:774-854 `gbinder_driver_txstatus`; `reply` if a GBinderRemoteReply has been
passed in. -/
def txstatus (c : Cfg) (W : World) : Nat → Bool → St → Run Int
  | 0, _, s => .stop .fuel s
  | f + 1, reply, s =>
    match nextCommand s with
    | none => .done (-(EAGAIN : Int)) (compact s)
    | some (cmd, data) =>
      let s := s.swallow cmd data
      if cmd = BR.transactionComplete.code c.io then
        if reply then txstatus c W f reply s else .done 0 (compact s)
      else if cmd = BR.deadReply.code c.io then .done 2 (compact s)
      else if cmd = BR.failedReply.code c.io then .done 1 (compact s)
      else if cmd = BR.reply.code c.io then
        match decodeTransactionData c.io (W.mem s.log) data with
        | .error k => .stop (.ub k) s
        | .ok tx =>
          (if tx.data ≠ 0 ∧ tx.size ≠ 0 ∧ reply then .done () (s.add (.own tx.data))
           else freeBuffer W c.io f tx.data s).bind fun _ s =>
          .done (filterStatus tx.status) (compact s)
      else (handleCommand c W f cmd data s).bind fun _ s => txstatus c W f reply s

end

/-- gbinder_driver.c:752-772 `gbinder_driver_handle_commands`. -/
def handleCommands (c : Cfg) (W : World) : Nat → St → Run Unit
  | 0, s => .stop .fuel s
  | f + 1, s =>
    match nextCommand s with
    | none => .done () (compact s)
    | some (cmd, data) =>
      (handleCommand c W f cmd data (s.swallow cmd data)).bind fun _ s => handleCommands c W f s

/-- gbinder_driver.c:409-416 `gbinder_driver_context_cleanup` with 599-619: the deferred unrefs.
The list of buffers is not part of this model. -/
def cleanupContext (s : St) : St :=
  { s with
    unrefs := []
    log := s.log ++ s.unrefs.map fun x => if x.1 then .release x.2 else .decrefs x.2 }

/-- gbinder_driver.c:1211-1219: the loop of `gbinder_driver_read`. -/
def readLoop (c : Cfg) (W : World) : Nat → St → Run (Option Nat)
  | 0, s => .stop .fuel s
  | f + 1, s =>
    if s.buf ≠ [] ∧ W.canLoop s.log then
      (writeRead W f [] s).bind fun r s =>
      match r.1 with
      | some e => .done (some e) s
      | none => (handleCommands c W f s).bind fun _ s => readLoop c W f s
    else .done none s

/-- gbinder_driver.c:1196-1223 `gbinder_driver_read`: `some e` is the result `-e`. -/
def read (c : Cfg) (W : World) (f : Nat) (s : St) : Run (Option Nat) :=
  (writeRead W f [] s).bind fun r s =>
  match r.1 with
  | some e => .done (some e) (cleanupContext s)
  | none =>
    (handleCommands c W f s).bind fun _ s =>
    (readLoop c W f s).bind fun r s => .done r (cleanupContext s)

/-- gbinder_driver.c:1283-1291: waiting for the status of the transaction. -/
def transactLoop (c : Cfg) (W : World) (reply : Bool) : Nat → Bytes → St → Run Int
  | 0, _, s => .stop .fuel s
  | f + 1, w, s =>
    (writeRead W f w s).bind fun r s =>
    match r.1 with
    | some e => .done (-(e : Int)) s
    | none => (txstatus c W f reply s).bind fun st s =>
      if st = -(EAGAIN : Int) then transactLoop c W reply f r.2 s else .done st s

/-- gbinder_driver.c:1298-1307: the commands left over, more commands if the last one is not
complete. -/
def finishLoop (c : Cfg) (W : World) : Nat → Int → St → Run Int
  | 0, _, s => .stop .fuel s
  | f + 1, st, s =>
    if s.buf ≠ [] then
      (writeRead W f [] s).bind fun r s =>
      match r.1 with
      | some e => .done (-(e : Int)) s
      | none => (handleCommands c W f s).bind fun _ s => finishLoop c W f st s
    else .done st s

/-- gbinder_driver.c:1225-1313 `gbinder_driver_transact`; `reply` if a reply is expected. -/
def transact (c : Cfg) (W : World) (f : Nat) (handle code : Nat) (req : Writer) (reply : Bool)
    (s : St) : Run Int :=
  let (pl, offs, _) := W.place s.log
  let (w, o) := transactionCommand c.io req handle code (!reply) pl offs
  (transactLoop c W reply f w ((s.add (.holds pl req.bytes)).add (.holds offs o))).bind fun st s =>
  if 0 ≤ st then
    (handleCommands c W f s).bind fun _ s =>
    (finishLoop c W f st s).bind fun st s => .done st (cleanupContext s)
  else .done st (cleanupContext s)

end Gb.Driver
