import Verif.Model.Fmq
/-
src/gbinder_fmq.c: where the parts of a fast message queue are.
-/
set_option autoImplicit false

namespace Gb.Fmq

/-- gbinder_fmq_p.h:58-63 `GBinderFmqGrantorDescriptor` (flags are always zero). -/
structure Grantor where
  fdIndex : Nat
  offset : Nat
  extent : Nat
  deriving DecidableEq, Repr

/-- `G_ALIGN8` of a gsize (of libglibutil, used at gbinder_fmq.c:159, 285). -/
def alignUp8 (n : Nat) : Nat := (n + 7) % 2 ^ 64 / 8 * 8

/-- gbinder_fmq.c:126-163 the loop in `gbinder_fmq_create_grantors` -/
def grantorsFrom (ownData : Bool) : Nat → Nat → List Nat → List Grantor
  | _, _, [] => []
  | pos, offset, size :: sizes =>
    if pos = 2 ∧ ownData = false then
      ⟨1, alignUp8 0 % 2 ^ 32, size⟩ :: grantorsFrom ownData (pos + 1) offset sizes
    else
      ⟨0, alignUp8 offset % 2 ^ 32, size⟩ ::
        grantorsFrom ownData (pos + 1) ((offset + size) % 2 ^ 64) sizes

/-- gbinder_fmq.c:126-163 `gbinder_fmq_create_grantors`, `ownData` is false if `num_fds` is 2. -/
def grantors (queueSize : Nat) (ownData eventFlag : Bool) : List Grantor :=
  grantorsFrom ownData 0 0 ([8, 8, queueSize] ++ if eventFlag then [4] else [])

/-- gbinder_fmq.c:277-291 the size of the shared memory allocated by `gbinder_fmq_new`. The size of
the page is a power of two, masking is done as rounding down to a multiple of that. -/
def shmemSize (page queueSize : Nat) (ownData eventFlag : Bool) : Nat :=
  let fixed := 16 + if eventFlag then 4 else 0
  let total := if ownData then alignUp8 queueSize + fixed else fixed
  (total + page - 1) % 2 ^ 64 / page * page

/-- A mapping: offset in the file, the number of bytes and where in it the data is
(gbinder_fmq.c:175-183). -/
structure Mapping where
  offset : Nat
  length : Nat
  at_ : Nat
  deriving DecidableEq, Repr

/-- gbinder_fmq.c:165-188 `gbinder_fmq_map_grantor_descriptor`. map_offset and map_length are
guint32. -/
def mapping (page : Nat) (g : Grantor) : Mapping :=
  let off := g.offset / page * page
  ⟨off, (g.offset - off + g.extent) % 2 ^ 32, g.offset - off⟩

end Gb.Fmq
