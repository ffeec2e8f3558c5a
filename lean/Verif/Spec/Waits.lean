import Verif.Spec.Status
/-
Waiting for the kernel.
-/
set_option autoImplicit false

namespace Gb.Driver

/-- Writing alone doesn't wait. -/
def World.Prompt (W : World) : Prop := ∀ l w, W.kernel l w none ≠ none

/-- The number of times the kernel has been asked for something to do. -/
def reads (l : List Ev) : Nat := l.countP fun e => match e with | .ioctl _ (some _) _ => true | _ => false

/-- The number of times the kernel hasn't accepted commands, and they had to be written again. -/
def retries (l : List Ev) : Nat := l.countP fun e => match e with | .ioctl _ none (.err e) => decide (e = EAGAIN) | _ => false

/-- The kernel has something to say no more than `n` times, and it doesn't accept commands right away no more than `m` times. -/
structure World.Stops (W : World) (n m : Nat) : Prop where
  reads : ∀ l w r, n ≤ reads l → W.kernel l w (some r) = none
  retries : ∀ l w, m ≤ retries l → W.kernel l w none ≠ some (.err EAGAIN)

/-- The call hasn't returned because it's waiting for the kernel. -/
def Run.waits {α : Type} : Run α → Bool
  | .stop .blocked _ => true
  | _ => false

/-- The call goes on and on. -/
def Run.spins {α : Type} : Run α → Bool
  | .stop .fuel _ => true
  | _ => false

end Gb.Driver
