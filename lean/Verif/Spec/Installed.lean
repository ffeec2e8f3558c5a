import Verif.Spec.Kernel
/-
Specification: how the binder driver of the Linux kernel passes descriptors to the receiver
(`binder_translate_fd`, `binder_apply_fd_fixups` of drivers/android/binder.c, which is not part of the
repository).
-/
set_option autoImplicit false

namespace Gb.Kernel

/-- The parcel `b` with the objects `objs` at the offsets `offs` arrives as `b'`; `fd i` is the new
descriptor of the receiver for the object number `i`. -/
structure Installed (io : Io) (b : Bytes) (offs : List Nat) (objs : List KObj) (fd : Nat → Nat)
    (b' : Bytes) : Prop where
  found : getObjects io b 0 offs = some objs
  size : b'.length = b.length
  files : ∀ (i : Nat) o n, offs[i]? = some o → objs[i]? = some (.fd n) →
    fieldAt b' o 4 = tFd ∧ fieldAt b' (o + 8) 4 = fd i
  /-- The types of other objects may be changed by the kernel, but not to that of a descriptor. -/
  others : ∀ (i : Nat) o x, offs[i]? = some o → objs[i]? = some x → (∀ n, x ≠ .fd n) →
    fieldAt b' o 4 ≠ tFd

/-- The descriptors installed in the receiver, `i` being the number of the first object. -/
def installed (fd : Nat → Nat) : Nat → List KObj → List Nat
  | _, [] => []
  | i, .fd _ :: l => fd i :: installed fd (i + 1) l
  | i, _ :: l => installed fd (i + 1) l

end Gb.Kernel
