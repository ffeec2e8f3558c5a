import Verif.Model.Reader
import Verif.Spec.Calls
/-
Specification: how the binder driver of the Linux kernel hands a parcel over to the receiver
(`binder_transaction`, `binder_fixup_parent`, `binder_translate_fd_array` of
drivers/android/binder.c, which is not part of the repository).
-/
set_option autoImplicit false

namespace Gb.Kernel

/-- The sender's memory is `src`, the parcel `b` with the objects `objs` at the offsets `offs`.
The receiver gets the parcel `b'` and the memory `dst`; `addr i` is where the contents of the
buffer number `i` went. Nothing is assumed about these addresses except that they are not NULL. -/
structure Transfer (io : Io) (src : Mem) (b : Bytes) (offs : List Nat) (objs : List KObj)
    (addr : Nat → Nat) (dst : Mem) (b' : Bytes) : Prop where
  /-- The parcel has been accepted. -/
  found : accepts io b offs = some objs
  fixed : ∃ r, fixups [] 0 0 objs = some r
  /-- The parcel has the same size, and is the same outside of the objects. -/
  size : b'.length = b.length
  data : ∀ k < b.length,
    (∀ (i : Nat) o x n, offs[i]? = some o → getObject io b o = some (x, n) → k < o ∨ o + n ≤ k) →
    b'[k]? = b[k]?
  /-- In the buffer objects, the address is replaced with the receiver's one. -/
  buffers : ∀ (i : Nat) o a len par, offs[i]? = some o → objs[i]? = some (.buffer a len par) →
    getObject io b' o = some (.buffer (addr i) len par, 8 + 4 * word io)
  /-- The receiver's memory. -/
  sane : dst.Sane (256 ^ word io)
  place : ∀ (i : Nat) a len par, objs[i]? = some (.buffer a len par) →
    addr i ≠ 0 ∧ addr i < 256 ^ word io
  /-- The contents of the buffers is copied; then the addresses of their children (and
  translated file descriptors) are written over. -/
  copy : ∀ (i : Nat) a len par, objs[i]? = some (.buffer a len par) →
    ∃ c c', src.load a len = some c ∧ dst.load (addr i) len = some c' ∧
      (∀ (j : Nat) aj lj off, objs[j]? = some (.buffer aj lj (some (i, off))) →
        slice c' off (word io) = some (leBytes (word io) (addr j))) ∧
      (∀ k < len,
        (∀ (j : Nat) aj lj off, objs[j]? = some (.buffer aj lj (some (i, off))) →
          k < off ∨ off + word io ≤ k) →
        (∀ (j : Nat) n off, objs[j]? = some (.fda n i off) → k < off ∨ off + 4 * n ≤ k) →
        c'[k]? = c[k]?)

end Gb.Kernel

namespace Gb

/-- A receiver which has read everything up to `pos` and has seen `n` objects. -/
def Reader.since (io : Io) (proto : Protocol) (b : Bytes) (objects : List Nat) (pos n : Nat) : Reader :=
  { Reader.init io proto b objects true 0 b.length with pos := pos, objects := objects.drop n }

end Gb

namespace Gb

/-- A parcel is built by the calls `pre`, `op` and `post` (the writer being in the states `w0`,
`w1` and `w'` after them) and transferred to the receiver. While the parcel is being built,
the memory holding the argument of `op` is not touched, and the calls that follow do not
use the objects created by `op` as parents of their own. -/
structure Sent (e : Env) (io : Io) (p : Protocol) (m : Mem) (pre : List WOp) (op : WOp)
    (post : List WOp) (w0 w1 w' : Writer) (addr : Nat → Nat) (dst : Mem) (b' : Bytes) : Prop where
  before : WOp.runAll e { io := io, protocol := p, mem := m } pre = .ok w0
  call : op.run e w0 = .ok w1
  after : WOp.runAll e w1 post = .ok w'
  append : ∀ off v, WOp.overwriteInt32 off v ∉ pre ++ post
  still : ∀ m, WOp.memory m ∉ post
  noParent : ∀ op ∈ post, op.parent = none
  small : w'.bytes.length < 2 ^ 32
  sane : w'.mem.Sane (256 ^ Kernel.word io)
  transfer : ∃ objs, Kernel.Transfer io w'.mem w'.bytes w'.offsets objs addr dst b'

end Gb
