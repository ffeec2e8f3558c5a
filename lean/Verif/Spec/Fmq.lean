import Verif.Model.Fmq
/-
When unsynchronized fast message queues behave.
-/
set_option autoImplicit false

namespace Gb.Fmq

/-- The calculation of the contiguous space in gbinder_fmq_available_to_write_bytes takes the read
pointer into account, even though the writer of an unsynchronized queue doesn't have to wait for
the reader. It gives a right answer if nothing has been read (the read pointer is not shared, it's
always zero in the process which only writes to the queue), or if there's enough room for the data,
or if the reader has already been overrun. -/
def Fits (c : Cfg) (s : State) : Prop :=
  ∀ o, s.writer = some o →
    s.rp = 0 ∨ s.wp + o.data.length ≤ s.rp + c.size ∨ s.rp + c.size < s.wp

/-- Reads and writes don't overlap. -/
def Alone (c : Cfg) (s : State) : Label → Prop
  | .wBegin _ _ => s.reader = none
  | .rBegin _ => s.writer = none
  | .wPlan => Fits c s
  | _ => True

end Gb.Fmq
