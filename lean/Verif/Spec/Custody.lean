import Verif.Spec.Status
/-
What becomes of the buffers which the kernel passes to the library with BR_TRANSACTION and BR_REPLY: each one has to be
given back with BC_FREE_BUFFER. A buffer which has data in it and is needed gets an owner (what the owner does is the
subject of Verif/Spec/Buffers.lean), any other is returned immediately. There's no buffer if the address is zero.
-/
set_option autoImplicit false

namespace Gb.Driver

/-- The `data.ptr.buffer` field of struct binder_transaction_data. -/
def txBuffer (io : Io) (d : Bytes) : Nat := leVal ((d.drop (4 * io.ptrSize + 16)).take io.ptrSize)

/-- The `data_size` field of struct binder_transaction_data. -/
def txDataSize (io : Io) (d : Bytes) : Nat := leVal ((d.drop (2 * io.ptrSize + 16)).take io.ptrSize)

/-- What has to be done next. -/
inductive Due
  | nothing
  | keep (addr : Nat)
  | free (addr : Nat)
  deriving DecidableEq, Repr

/-- What has to be done about the buffer: it's kept if somebody wants what's there. There's just a status in it if it
has the TF_STATUS_CODE flag. -/
def dueFor (io : Io) (wanted : Bool) (d : Bytes) : Due :=
  if txBuffer io d = 0 then .nothing
  else if wanted = true ∧ txFlags io d / 8 % 2 = 0 ∧ txDataSize io d ≠ 0 then .keep (txBuffer io d)
  else .free (txBuffer io d)

/-- What is being waited for, the last one first: `true` if there'll be a reply, `false` if it's enough that the
kernel has accepted what has been sent. -/
structure Custody where
  waits : List Bool
  due : Due := .nothing
  deriving DecidableEq, Repr

/-- The command for the kernel to take the buffer back. -/
def freeCommand (io : Io) (a : Nat) : Bytes := leBytes 4 (BC.freeBuffer.code io) ++ leBytes io.ptrSize a

/-- A command is taken from the read buffer. Nobody is waiting for a report if nothing has been sent. -/
def Custody.command (io : Io) (s : Custody) (c : Nat) (d : Bytes) : Custody :=
  if c = BR.transaction.code io then
    { waits := if repliedTo io c d then false :: s.waits else s.waits, due := dueFor io true d }
  else if isReport io c then
    match s.waits with
    | [] => s
    | w :: ws =>
      if c = BR.transactionComplete.code io ∧ w = true then s
      else { waits := ws, due := if c = BR.reply.code io then dueFor io w d else .nothing }
  else s

/-- The log is scanned; `none` if something is wrong: something else has been done although a buffer is due, it's the
wrong buffer or it's given back although it's been given to its owner. -/
def Custody.step (io : Io) (s : Custody) (e : Ev) : Option Custody :=
  match e, s.due with
  | .own a, .keep b => if a = b then some { s with due := .nothing } else none
  | .own _, _ => none
  | .ioctl b none res, .free a =>
    if b = freeCommand io a then some (if res = .err EAGAIN then s else { s with due := .nothing }) else none
  | .ioctl b none _, .nothing => if leVal (b.take 4) = BC.freeBuffer.code io then none else some s
  | .ioctl _ (some _) (.err n), .nothing => some (if n = EAGAIN then s else { s with waits := s.waits.tail })
  | .ioctl _ (some _) (.ok _ _), .nothing => some s
  | .cmd c d, .nothing => some (s.command io c d)
  | .answer .., .nothing | .holds .., .nothing | .increfs .., .nothing | .acquire .., .nothing
  | .decrefs .., .nothing | .release .., .nothing | .death .., .nothing => some s
  | _, _ => none

def custody (io : Io) : Custody → List Ev → Option Custody
  | s, [] => some s
  | s, e :: l => (s.step io e).bind fun s => custody io s l

/-- What a call is waiting for. -/
def Call.waits : Call → List Bool
  | .read => []
  | .transact _ _ _ reply => [reply]

end Gb.Driver
