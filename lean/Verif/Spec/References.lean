import Verif.Spec.Kernel
/-
Specification: how the binder driver of the Linux kernel translates references to objects
(`binder_translate_binder` and `binder_translate_handle` of drivers/android/binder.c, which is
not part of the repository).
-/
set_option autoImplicit false

namespace Gb.Kernel

/-- The parcel `b` with the objects `objs` at the offsets `offs` arrives as `b'`. `node` are the
handles of the receiver for the objects of the sender, which the kernel tells apart by their
pointers (`binder_get_node`); `other` are
the handles of the receiver for the handles of the sender, `none` where the object behind the
handle belongs to the receiver. -/
structure References (io : Io) (b : Bytes) (offs : List Nat) (objs : List KObj)
    (node : Nat → Nat) (other : Nat → Option Nat) (b' : Bytes) : Prop where
  found : getObjects io b 0 offs = some objs
  size : b'.length = b.length
  /-- The parcel is the same outside of the objects. -/
  data : ∀ k < b.length,
    (∀ (i : Nat) o x n, offs[i]? = some o → getObject io b o = some (x, n) → k < o ∨ o + n ≤ k) →
    b'[k]? = b[k]?
  /-- A reference to an object of the sender becomes a handle. -/
  binder : ∀ (i : Nat) o ptr cookie, offs[i]? = some o → objs[i]? = some (.binder ptr cookie) →
    fieldAt b o 4 = tBinder →
    fieldAt b' o 4 = tHandle ∧ fieldAt b' (o + 8) 4 = node ptr
  /-- Different objects of the sender have different handles. -/
  node_inj : ∀ p p', node p = node p' → p = p'
  /-- A handle becomes a handle, or a reference to an object of the receiver. -/
  handle : ∀ (i : Nat) o h, offs[i]? = some o → objs[i]? = some (.handle h) →
    fieldAt b o 4 = tHandle →
    match other h with
    | some h' => fieldAt b' o 4 = tHandle ∧ fieldAt b' (o + 8) 4 = h'
    | none => fieldAt b' o 4 = tBinder ∧ fieldAt b' (o + 8) (word io) ≠ 0

end Gb.Kernel
