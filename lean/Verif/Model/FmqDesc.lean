import Verif.Model.FmqLayout
import Verif.Model.Writer
/-
src/gbinder_fmq.c: the description of a fast message queue, which is sent to those who are going to use it.
-/
set_option autoImplicit false

namespace Gb.Fmq

/-- gbinder_fmq_p.h:71-79 `GBinderMQDescriptor` and what it points to, except for the addresses. -/
structure Desc where
  grantors : List Grantor
  fds : List Nat
  quantum : Nat
  flags : Nat
  deriving DecidableEq, Repr

/-- gbinder_fmq_p.h:58-69, the bytes of a grantor: flags, fd_index, offset, padding and extent. They are allocated
with g_new0 (gbinder_fmq.c:135-136), flags and padding are zero. -/
def Grantor.bytes (g : Grantor) : Bytes :=
  leBytes 4 0 ++ leBytes 4 g.fdIndex ++ leBytes 4 g.offset ++ leBytes 4 0 ++ leBytes 8 g.extent

/-- gbinder_fmq.c:294-306 GBinderFds (include/gbinder_types.h): version, num_fds, num_ints (zero, allocated with
g_malloc0) and the descriptors. -/
def Desc.fdsBytes (d : Desc) : Bytes :=
  leBytes 4 (12 + 4 * d.fds.length) ++ leBytes 4 d.fds.length ++ leBytes 4 0 ++ d.fds.flatMap (leBytes 4)

/-- gbinder_fmq.c:311-318, the bytes of the descriptor (gbinder_fmq_p.h:71-87), `g` and `f` are the addresses of the
grantors and of the file descriptors. -/
def Desc.bytes (d : Desc) (g f : Nat) : Bytes :=
  Writer.hidlVecBytes g d.grantors.length true ++ leBytes 8 f ++ leBytes 4 d.quantum ++ leBytes 4 d.flags

/-- gbinder_fmq.c:292-318: the description of a new queue. `type` is 1 for GBINDER_FMQ_TYPE_SYNC_READ_WRITE and 2 for
GBINDER_FMQ_TYPE_UNSYNC_WRITE (include/gbinder_fmq.h:41-44), `user` is the descriptor supplied by the caller (if it
isn't -1). -/
def describe (c : Cfg) (type : Nat) (shmem : Nat) (user : Option Nat) (eventFlag : Bool) : Desc :=
  ⟨grantors c.size user.isNone eventFlag, shmem :: user.toList, c.item, type⟩

/-- gbinder_fmq.c:292-318: where all that is in the memory. -/
def Desc.At (d : Desc) (m : Mem) (a : Nat) : Prop :=
  ∃ g f, g ≠ 0 ∧ f ≠ 0 ∧ m.load a 32 = some (d.bytes g f) ∧
    m.load g (24 * d.grantors.length) = some (d.grantors.flatMap Grantor.bytes) ∧
    m.load f (12 + 4 * d.fds.length) = some d.fdsBytes

end Gb.Fmq
