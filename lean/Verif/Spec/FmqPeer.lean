import Verif.Model.Fmq
/-
Specification: a process at the other end of a synchronized fast message queue which follows the rules but isn't
necessarily using libgbinder (normally it's Android's libfmq, MessageQueue.h, not part of the repository).

The rules: both counters count bytes. The writer stores anything anywhere in the ring where there's nothing unread,
in any order, as often as it wants, and then adds the number of bytes to the write counter, not more than there's
room for. The reader looks at what is unread and then adds the number of bytes to the read counter, not more than
there is.
-/
set_option autoImplicit false

namespace Gb.FmqPeer
open Gb.Fmq

/-- Calls to libgbinder which read. -/
def reads : Label → Bool
  | .rBegin _ | .rPlan | .rCopy | .rEnd => true
  | _ => false

/-- What happens next, at this end or at the other one. -/
inductive Move
  | own (l : Label)
  /-- The other end stores a byte. -/
  | put (p : Nat) (b : UInt8)
  /-- The other end adds some messages. -/
  | publish (n : Nat)
  /-- The other end takes some messages. -/
  | take (n : Nat)
  deriving DecidableEq, Repr

/-- The bytes in the ring, `n` of them from the counter `k` on. -/
def window (c : Cfg) (s : State) (k n : Nat) : Bytes := (List.range n).map fun j => s.ring ((k + j) % c.size)

/-- This end reads, the other end writes. -/
def stepIn (c : Cfg) (s : State) : Move → Out State
  | .own l => if reads l then step c s l else .no
  | .put p b =>
    if p < c.size ∧ ∀ k < s.wp, s.rp ≤ k → k % c.size ≠ p then .ok { s with ring := upd s.ring p b } else .no
  | .publish n =>
    if s.wp + n * c.item ≤ s.rp + c.size then
      .ok { s with wp := (s.wp + n * c.item) % 2 ^ 64, sent := s.sent ++ window c s s.wp (n * c.item) }
    else .no
  | .take _ => .no

/-- This end writes, the other end reads. -/
def stepOut (c : Cfg) (s : State) : Move → Out State
  | .own l => if reads l then .no else step c s l
  | .take n =>
    if s.rp + n * c.item ≤ s.wp then
      .ok { s with rp := (s.rp + n * c.item) % 2 ^ 64, reads := s.reads ++ [(s.rp, window c s s.rp (n * c.item))] }
    else .no
  | _ => .no

end Gb.FmqPeer
