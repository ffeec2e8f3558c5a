import Verif.Lemmas.NestedBuf
/-
C90. Each call gets its own reply, no matter how calls are nested and how many commands the kernel stores in a read buffer at once.
-/
set_option autoImplicit false

namespace Gb.C90
open NestedBuf

/-- C90: no matter in which portions commands are read, nothing is ever left behind in a read buffer when its call returns; each read
buffer is there as long as it's needed. -/
theorem C90_buffers_safe {s : State} (h : Reach step {} s) (l : Label) : step s l ≠ .ub := (step_ok (Rel.of h) l).1

/-- C90: so the portions don't matter, whatever happens could also happen if commands were read one by one from the kernel, and what
holds for those executions (`C90_own` etc.) holds for all. -/
theorem C90_buffers {s : State} (h : Reach step {} s) :
    ∃ s' : Nested.State, Reach Nested.step {} s' ∧ s'.log = s.base.log ∧ s'.frames = s.base.frames ∧ s'.chain = s.base.chain ∧
      s'.dead = s.base.dead ∧ ∀ t, s'.todo t = (s.bufs t).flatten ++ s.base.todo t :=
  ⟨abs s, (Rel.of h).reach, rfl, rfl, rfl, rfl, fun _ => rfl⟩

/-- C90: in particular, what a call returns is the reply to that very call; replies and errors aren't lost. -/
theorem C90_buffers_own {s : State} (h : Reach step {} s) {t : Nat} :
    (∀ k i, .result t k i ∈ s.base.log → k = i ∧ .made t i ∈ s.base.log ∧ .answered i ∈ s.base.log) ∧
    (∀ k i, .failed t k i ∈ s.base.log → i = some k ∧ .made t k ∈ s.base.log) ∧ ∀ i, .lost t i ∉ s.base.log := by
  have := Nested.Told.reach (Rel.of h).reach
  exact ⟨fun k i he => this.result t k i he, fun k i he => this.failed t k i he, fun i => this.lost t i⟩

/-- C90: while a handler is running there's nothing in the read buffer from which its transaction was taken, nor in those of the calls
which are waiting further out. -/
theorem C90_buffers_handling {s : State} (h : Reach step {} s) {t i : Nat} {fs : List Nested.Frame} (ht : s.base.dead t = false)
    (hf : s.base.frames t = .handle i :: fs) : (∀ b ∈ s.bufs t, b = []) ∧ s.base.todo t = [] := by
  have := ((Nested.Inv.reach (Rel.of h).reach).active (s := abs s) ht hf).1
  simpa [abs] using this

/-- Two commands at once: the confirmation of the reply of a handler, and the reply which the thread has been waiting for. -/
def portions : List Label :=
  [.base (.call 0 0), .base (.pick 1 0), .fetch 1 5, .take 1, .base (.callTo 1 0 0), .fetch 0 1, .fetch 0 7, .take 0, .take 0,
   .base (.oneway 0), .fetch 0 1, .take 0, .base (.reply 0 0 true), .fetch 1 2, .take 1, .take 1, .base (.reply 1 0 true), .fetch 0 2,
   .take 0, .take 0]

example : (exec step {} portions).holds (fun s => decide (s.base.log = [.made 0 0, .made 1 1, .answered 1, .result 1 1 1,
    .answered 0, .result 0 0 0] ∧ s.base.frames 0 = [] ∧ s.bufs 0 = [[]] ∧ s.bufs 1 = [[]] ∧ s.base.chain 0 = [])) = true := by
  decide +kernel

example : (exec step {} (portions.take 18)).holds (fun s => decide (s.bufs 0 = [[.complete, .reply 0], []] ∧
    s.base.frames 0 = [.replied, .call 0])) = true := by decide +kernel

end Gb.C90
