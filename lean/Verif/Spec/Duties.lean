import Verif.Spec.Driver
/-
What the kernel expects in response to the commands it delivers (Linux, drivers/android/binder.c):
one BC_REPLY for each BR_TRANSACTION unless TF_ONE_WAY is set, BC_INCREFS_DONE for each BR_INCREFS,
BC_ACQUIRE_DONE for each BR_ACQUIRE, BC_DEAD_BINDER_DONE for each BR_DEAD_BINDER.
-/
set_option autoImplicit false

namespace Gb.Driver

/-- The command word of a write. -/
def word (b : Bytes) : Nat := leVal (b.take 4)

/-- Commands written in response to something. -/
def isResponse (io : Io) (b : Bytes) : Bool :=
  word b = BC.reply.code io ∨ word b = BC.replySg.code io ∨ word b = BC.increfsDone.code io ∨
  word b = BC.acquireDone.code io ∨ word b = BC.deadBinderDone.code io

/-- The steps which matter here: responses written to the kernel (not those which the kernel has
refused with EAGAIN), calls to the objects and what has been put in memory for the kernel. -/
def isAct (io : Io) : Ev → Bool
  | .ioctl w none (.err e) => e ≠ EAGAIN ∧ isResponse io w
  | .ioctl w none (.ok _ _) => isResponse io w
  | .answer .. | .holds .. | .increfs .. | .acquire .. | .death .. => true
  | _ => false

def acts (io : Io) (l : List Ev) : List Ev := l.filter (isAct io)

/-- The bytes of a response to a transaction, once the handler has answered it: what the memory
holds, and the command. -/
def replyActs (io : Io) (reply : Option Writer) (status : Int) (pl offs st : Nat) (res : KRes) :
    List Ev :=
  match reply with
  | some w => [.holds pl w.bytes, .holds offs (replyCommand io w pl offs).2,
               .ioctl (replyCommand io w pl offs).1 none res]
  | none => [.holds st (leBytes 4 (status % 2 ^ 32).toNat), .ioctl (statusReplyCommand io st) none res]

/-- The pointer or the handle at the beginning of the data. -/
def target (io : Io) (d : Bytes) : Nat := leVal (d.take io.ptrSize)

/-- Who answers a transaction: the object if there is one and it supports the transaction, otherwise
the status is -EBADMSG. -/
def Answered (W : World) (known : Bool) (tx : TxData) (iface : Option Bytes) (reply : Option Writer)
    (status : Int) : Prop :=
  (known = true ∧ ∃ l k, k ≠ .notSupported ∧ W.support l tx.target iface tx.code = k ∧
    W.handle l k tx iface = (reply, status)) ∨
  ((known = false ∨ ∃ l, W.support l tx.target iface tx.code = .notSupported) ∧
    reply = none ∧ status = -(EBADMSG : Int))

/-- What has to be done about a command. -/
inductive Response (W : World) (io : Io) (c : Nat) (d : Bytes) : List Ev → Prop
  /-- A one-way transaction is passed to the object and is not replied to. -/
  | oneway {m : Mem} {known : Bool} {tx : TxData} {iface : Option Bytes} {reply : Option Writer}
      {status : Int} : c = BR.transaction.code io → decodeTransactionData io m d = .ok tx →
      tx.oneway = true → Answered W known tx iface reply status →
      Response W io c d [.answer known tx iface reply status]
  /-- Any other transaction is passed to the object and is replied to, once, with what the object
  has come up with. -/
  | twoway {m : Mem} {known : Bool} {tx : TxData} {iface : Option Bytes} {reply : Option Writer}
      {status : Int} {pl offs st : Nat} {res : KRes} : c = BR.transaction.code io →
      decodeTransactionData io m d = .ok tx → tx.oneway = false → Answered W known tx iface reply status → res ≠ .err EAGAIN →
      Response W io c d (.answer known tx iface reply status ::
        replyActs io reply status pl offs st res)
  | increfs {res : KRes} : c = BR.increfs.code io → res ≠ .err EAGAIN →
      Response W io c d [.increfs (target io d),
        .ioctl (leBytes 4 (BC.increfsDone.code io) ++ d) none res]
  | increfsUnknown {res : KRes} : c = BR.increfs.code io → res ≠ .err EAGAIN →
      Response W io c d [.ioctl (leBytes 4 (BC.increfsDone.code io) ++ d) none res]
  /-- The object takes care of it. -/
  | acquire : c = BR.acquire.code io → Response W io c d [.acquire (target io d)]
  | acquireUnknown {res : KRes} : c = BR.acquire.code io → res ≠ .err EAGAIN →
      Response W io c d [.ioctl (leBytes 4 (BC.acquireDone.code io) ++ d) none res]
  /-- The object takes care of it. -/
  | death : c = BR.deadBinder.code io → Response W io c d [.death (target io d % 2 ^ 32)]
  | deathUnknown {res : KRes} : c = BR.deadBinder.code io → res ≠ .err EAGAIN →
      Response W io c d [.ioctl (leBytes 4 (BC.deadBinderDone.code io) ++ d) none res]
  /-- Nothing has to be done about anything else. -/
  | other : c ≠ BR.transaction.code io → c ≠ BR.increfs.code io → c ≠ BR.acquire.code io →
      c ≠ BR.deadBinder.code io → Response W io c d []

/-- Steps up to the next command. -/
def upToCommand (l : List Ev) : List Ev := l.takeWhile fun e => e.command.isNone

end Gb.Driver
