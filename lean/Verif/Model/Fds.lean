import Verif.Model.Io
/-
Closing of the descriptors which have been received together with a buffer.
-/
set_option autoImplicit false

namespace Gb

/-- gbinder_io.c:589-609 `decode_fd_object`: the descriptor in the object at `off`, if it is one. `size` is
what's available. -/
def decodeFdObject (io : Io) (b : Bytes) (off size : Nat) : Except UB (Option Nat) :=
  if io.flatSize ≤ size then
    match u32At b off with
    | none => .error .oob
    | some ty =>
      if ty = typeFd then
        match u32At b (off + 8) with
        | none => .error .oob
        | some n => .ok (some n)
      else .ok none
  else .ok none

/-- gbinder_driver.c:1130-1154 `gbinder_driver_close_fds`: the descriptors passed to `close`. -/
def closeFds (io : Io) (b : Bytes) : List Nat → Except UB (List Nat)
  | [] => .ok []
  | off :: rest => do
    let fd ← if off < b.length then decodeFdObject io b off (b.length - off) else .ok none
    let l ← closeFds io b rest
    .ok (fd.toList ++ l)

end Gb
