import Verif.Spec.Driver
/-
Which of the commands delivered by the kernel tells how an outgoing transaction has ended.

The kernel reports the outcome of what a thread has sent with BR_TRANSACTION_COMPLETE,
BR_DEAD_REPLY, BR_FAILED_REPLY and BR_REPLY. If an incoming transaction is being replied to while
an outgoing one is pending, then the first such report which follows is about the reply.
-/
set_option autoImplicit false

namespace Gb.Driver

/-- The `flags` field of struct binder_transaction_data. -/
def txFlags (io : Io) (d : Bytes) : Nat := leVal ((d.drop (2 * io.ptrSize + 4)).take 4)

/-- The library sends a reply to this command (a transaction which isn't one-way, or which has the
TF_STATUS_CODE flag, see C21). -/
def repliedTo (io : Io) (c : Nat) (d : Bytes) : Bool :=
  c = BR.transaction.code io ∧ (txFlags io d / tfStatusCode % 2 = 1 ∨ txFlags io d % 2 ≠ tfOneWay)

/-- A report about something that has been sent. -/
def isReport (io : Io) (c : Nat) : Bool :=
  c = BR.transactionComplete.code io ∨ c = BR.deadReply.code io ∨ c = BR.failedReply.code io ∨
  c = BR.reply.code io

/-- How many replies are being waited for, and the step which has ended the transaction, with what
happened before it. -/
structure Track where
  depth : Nat := 0
  ended : Option (List Ev × Ev) := none
  deriving DecidableEq, Repr

/-- `reply` if the transaction isn't one-way. -/
def Track.step (io : Io) (reply : Bool) (t : Track) (pre : List Ev) (e : Ev) : Track :=
  match e with
  | .cmd c d =>
    if repliedTo io c d then { t with depth := t.depth + 1 }
    else if isReport io c then
      if t.depth ≠ 0 then { t with depth := t.depth - 1 }
      else if t.ended ≠ none then t
      -- The reply is yet to come
      else if c = BR.transactionComplete.code io ∧ reply then t
      else { t with ended := some (pre, e) }
    else t
  | .ioctl _ (some _) (.err n) =>
    if n = EAGAIN then t
    else if t.depth ≠ 0 then { t with depth := t.depth - 1 }
    else { t with ended := some (pre, e) }
  | _ => t

/-- The steps of a log, the last one first. -/
def trackRev (io : Io) (reply : Bool) : List Ev → Track
  | [] => {}
  | e :: l => (trackRev io reply l).step io reply l.reverse e

def track (io : Io) (reply : Bool) (l : List Ev) : Track := trackRev io reply l.reverse

/-- What the step which ends a transaction says about its status. A status chosen by the peer is
passed as it is, unless it could be mistaken for something else. -/
inductive Verdict (W : World) (io : Io) (reply : Bool) (pre : List Ev) : Ev → Int → Prop
  | complete {d : Bytes} : reply = false →
      Verdict W io reply pre (.cmd (BR.transactionComplete.code io) d) 0
  | dead {d : Bytes} : Verdict W io reply pre (.cmd (BR.deadReply.code io) d) 2
  | failed {d : Bytes} : Verdict W io reply pre (.cmd (BR.failedReply.code io) d) 1
  | reply {d : Bytes} {tx : TxData} {v : Int} :
      decodeTransactionData io (W.mem (pre ++ [.cmd (BR.reply.code io) d])) d = .ok tx →
      -2 ^ 31 ≤ v → v < 2 ^ 31 → v % 2 ^ 32 = (tx.status : Int) % 2 ^ 32 →
      Verdict W io reply pre (.cmd (BR.reply.code io) d)
        (if v = -(EAGAIN : Int) ∨ v = 1 ∨ v = 2 then -(EFAULT : Int) else v)
  | error {w : Bytes} {room n : Nat} : n ≠ EAGAIN →
      Verdict W io reply pre (.ioctl w (some room) (.err n)) (-(n : Int))

end Gb.Driver
