import Verif.Lemmas.Junk
import Verif.Model.FmqDesc
import Verif.Spec.Demo
/-
C54. Writing a parcel never stores outside of the memory allocated for it.

`Env.slack` is the number of bytes which happen to be allocated (by GByteArray) past the length
asked for.  Code that stays within what it has asked for has the same outcome whatever it is: in
particular for `slack = 0`, when any store past the end is undefined (`UB.oob`).

Full statement: for all calls.  It fails for arrays of descriptors on 64-bit (`C54_fails`).
-/
set_option autoImplicit false

namespace Gb.C54

/-- C54 for the 32-bit ABI, and for 64-bit if no descriptor arrays (append_fmq_descriptor; append_fds, which is
declared but isn't there) are written. -/
theorem C54_in_bounds_partial (e : Env) (slack : Nat → Nat) (w : Writer) (ops : List WOp)
    (h : w.io = .io32 ∨ ∀ op ∈ ops, op.sendsFds = false) :
    WOp.runAll { e with slack := slack } w ops = WOp.runAll e w ops :=
  Like.runAll (any := true) (e := e) (e' := { e with slack := slack }) ⟨rfl, fun h => by cases h⟩ ops w
    (.inr h)

/-- Overwriting stays inside of the parcel or does nothing, whatever is there behind it. The offsets
for which `offset + 4` wraps around are excluded (`C09.C09_fails`). -/
theorem C54_overwrite_partial (w : Writer) (offset : Nat) (v : UInt32) (ho : offset + 4 < 2 ^ 64) :
    ∃ w', w.overwriteInt32 offset v = .ok w' ∧ w'.bytes.length = w.bytes.length := by
  unfold Writer.overwriteInt32
  rw [Nat.mod_eq_of_lt ho]
  split
  · rename_i h
    rw [store_ok (by simp; omega)]
    exact ⟨{ w with bytes := poke w.bytes offset (leBytes 4 v.toNat) }, rfl, by simp [poke]; omega⟩
  · exact ⟨w, rfl, rfl⟩

/-- The description of a queue for ten messages of three bytes. -/
def queue : Fmq.Desc := Fmq.describe ⟨30, 3, true⟩ 1 7 none false

def queueMem : Mem :=
  [(0x1000, queue.bytes 0x2000 0x3000), (0x2000, queue.grantors.flatMap Fmq.Grantor.bytes), (0x3000, queue.fdsBytes)]

/-- gbinder_writer_append_fmq_descriptor writes a 32-byte object into 28 bytes. Undefined if there is nothing behind
them, fine otherwise. -/
theorem C54_fails_fmq :
    WOp.runAll Demo.env { io := .io64, protocol := .hidl, mem := queueMem } [.fmqDescriptor 0x1000] = .error .oob ∧
    (WOp.runAll { Demo.env with slack := fun _ => 4 }
      { io := .io64, protocol := .hidl, mem := queueMem } [.fmqDescriptor 0x1000]).isOk = true := by
  decide +kernel

/-- A GBinderFds with one descriptor: the 32-byte object is written into 28 bytes. Undefined
if there is nothing behind them, fine otherwise. -/
theorem C54_fails :
    WOp.runAll Demo.env { io := .io64, protocol := .hidl, mem := Demo.mem } [.fds 64 none] =
      .error .oob ∧
    (WOp.runAll { Demo.env with slack := fun _ => 4 }
      { io := .io64, protocol := .hidl, mem := Demo.mem } [.fds 64 none]).isOk = true := by
  decide +kernel

/-- Calls meeting the hypotheses; they succeed without any spare capacity. -/
example : (∀ op ∈ Demo.ops, op.sendsFds = false) ∧
    (WOp.runAll Demo.env { io := .io64, protocol := .aidl3, mem := Demo.mem } Demo.ops).isOk = true :=
  ⟨by simp [Demo.ops, WOp.sendsFds], by decide +kernel⟩
example : (WOp.runAll Demo.env { io := .io32, protocol := .aidl3, mem := Demo.mem }
    (.fds 64 none :: Demo.ops)).isOk = true := by decide +kernel

example : (3 + 4 < 2 ^ 64) ∧ Writer.overwriteInt32
    { io := .io64, protocol := .aidl, bytes := [1, 2, 3, 4, 5, 6] } 3 0 =
    .ok { io := .io64, protocol := .aidl, bytes := [1, 2, 3, 4, 5, 6] } := by decide

end Gb.C54
