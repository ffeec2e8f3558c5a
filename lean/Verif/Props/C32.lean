import Verif.Lemmas.LocalObjLog
import Verif.Lemmas.LocalObjWeak
import Verif.Lemmas.LocalObjMove
/-
C32: the strong reference count of a local object equals the number of BR_ACQUIRE minus BR_RELEASE
handled and never goes below zero; the object is kept alive while the count is positive, and also
as long as the kernel has a strong reference.

The kernel is assumed to send BR_RELEASE only for what has been acknowledged with BC_ACQUIRE_DONE
(Linux: binder_thread_read, BINDER_WORK_NODE). Executions are arbitrary interleavings.
-/
set_option autoImplicit false

namespace Gb.C32
open LocalObj

/-- The count is what it should be, for the object which exists at this address. (Being a natural
number in the model, it doesn't say anything about being non-negative, but the balance does.) -/
theorem C32_balance {s : State} (h : Reach step {} s) {p : Nat} {o : Obj} (ho : s.objs p = some o) :
    (o.strong : Int) = balance p s.log := by
  have := (log_reach h p).strong
  rw [ho] at this
  exact this

/-- The weak references are counted too: the number of BR_INCREFS minus the number of BR_DECREFS. -/
theorem C32_weak {s : State} (h : Reach step {} s) {p : Nat} {o : Obj} (ho : s.objs p = some o) :
    o.weak = weakBalance p s.log := weak_reach h p o ho

example : (exec step {} [.new 7, .getLocal 7, .handle .increfs 7, .put 7, .run ⟨.increfs, 7, false⟩]).holds
    (fun s => (s.objs 7).any (·.weak == 1) && weakBalance 7 s.log == 1) = true := by decide +kernel

/-- BR_RELEASE never finds the count at zero. -/
theorem C32_release {s s' : State} (h : Reach step {} s) {p : Nat}
    (hs : step s (.run ⟨.release, p, false⟩) = .ok s') :
    ∃ o, s.objs p = some o ∧ 0 < o.strong ∧ balance p s'.log = balance p s.log - 1 ∧
      0 ≤ balance p s'.log := by
  have hl := log_reach (h.step hs) p
  have hv := inv_reach h p
  simp only [step] at hs
  split at hs
  case isFalse => cases hs
  rename_i hm
  obtain ⟨o, ho, hr⟩ := alive_of_owner (inv_reach h) (.inr (.inr (.inr (.inl ⟨_, hm.1, rfl⟩))))
  have hst : 0 < o.strong := by
    have h1 := hv.credit
    have h2 : 0 < (s.view p).tr := by
      simp only [State.view, State.tr, List.countP_pos_iff]
      exact ⟨_, hm.1, by simp⟩
    have h3 : (s.view p).strong = o.strong := (view_some ho).2.1
    omega
  refine ⟨o, ho, hst, ?_, ?_⟩
  · have hlog : s'.log = s.log ++ [.ran .release p] := by
      simp only [runTask, State.add, ho, hst, gt_iff_lt, if_true] at hs
      obtain ⟨o', _, ⟨_, rfl⟩ | ⟨_, rfl⟩⟩ := unref_ok hs <;> rfl
    rw [hlog, balance_append]
    simp
  · rw [← hl.strong]
    exact Int.natCast_nonneg _

/-- The balance is never negative, and while it is positive, the object exists, its reference count
is positive and it can be found by its address. -/
theorem C32_alive {s : State} (h : Reach step {} s) (p : Nat) :
    0 ≤ balance p s.log ∧
    (0 < balance p s.log → s.table p = true ∧ ∃ o, s.objs p = some o ∧ 1 ≤ o.refs) := by
  have hb := (log_reach h p).strong
  have hv := inv_reach h p
  refine ⟨by rw [← hb]; exact Int.natCast_nonneg _, fun hp => ?_⟩
  have hpos : 0 < strongOf (s.objs p) := by omega
  cases ho : s.objs p with
  | none => rw [ho] at hpos; cases hpos
  | some o =>
    have hs := view_some ho
    rw [ho] at hpos
    have hpos : 0 < o.strong := hpos
    refine ⟨?_, o, rfl, ?_⟩
    · cases ht : s.table p with
      | true => rfl
      | false =>
        have := hv.gone (by simp [State.view, State.tab, ht]) hs.1
        omega
    · have := hv.refs
      omega

/-- The kernel has a strong reference if more BC_ACQUIRE_DONE have been sent than BR_RELEASE have
been received. Then the object exists and can be found. -/
theorem C32_kernel {s : State} (h : Reach step {} s) {p : Nat}
    (hk : count (.handled .release p) s.log < count (.ack p) s.log) :
    s.table p = true ∧ ∃ o, s.objs p = some o ∧ 1 ≤ o.refs := by
  refine (C32_alive h p).2 ?_
  have h1 := (log_reach h p).credit
  have h2 := (inv_reach h p).credit
  have h3 := (log_reach h p).strong
  have h4 : (s.view p).credit = s.credit p := rfl
  have h5 : (s.view p).strong = strongOf (s.objs p) := rfl
  omega

/-- When everything has been handled (there's nothing in the queues), the count is exactly the
number of strong references which the kernel has. -/
theorem C32_quiet {s : State} (h : Reach step {} s) {p : Nat} {o : Obj} (ho : s.objs p = some o)
    (ht : s.tasks = []) (hu : s.unrefs = []) :
    o.strong + count (.handled .release p) s.log = count (.handled .acquire p) s.log := by
  have h1 := (log_reach h p).credit
  have h2 := (inv_reach h p).credit
  have h3 := (log_reach h p).acks
  have h4 := view_some ho
  simp only [State.view, State.ur, State.tr, State.ta, ht, hu, List.countP_nil, ho, strongOf,
    Nat.add_zero] at h2
  simp only [State.tq, ht, List.countP_nil] at h3
  omega

/-- Whatever hasn't been handled yet, can be (there's nothing that others have to do about it). After that, the references to an object
are those of the application and the strong ones, of which there's one for each BR_ACQUIRE minus one for each BR_RELEASE; and an object
without references is gone. -/
theorem C32_settles {s : State} (h : Reach step {} s) :
    ∃ ls s', (∀ l ∈ ls, Label.settling l) ∧ exec step s ls = .ok s' ∧ s'.user = s.user ∧ ∀ p o, s'.objs p = some o →
      o.refs = s.user p + o.strong ∧ 0 < o.refs ∧
      o.strong + count (.handled .release p) s'.log = count (.handled .acquire p) s'.log := by
  obtain ⟨ls, s', h1, h2, h3, ⟨e1, e2, e3, e4⟩, h4⟩ := settles h
  refine ⟨ls, s', h1, h2, h4, fun p o ho => ?_⟩
  have g := inv_reach h3 p
  have k := view_some ho
  have g1 := g.refs
  have g2 := g.pos k.1
  have a1 : (s'.view p).user = s.user p := by rw [← h4]; rfl
  have a2 : (s'.view p).h = 0 := by simp [State.view, State.h, e1]
  have a3 : (s'.view p).u = 0 := by simp [State.view, State.u, e2]
  have a4 : (s'.view p).t = 0 := by simp [State.view, State.t, e3]
  have a5 : (s'.view p).dg = 0 := by simp [State.view, State.dy, e4]
  have a6 : (s'.view p).dd = 0 := by simp [State.view, State.dy, e4]
  have a7 : (s'.view p).df = 0 := by simp [State.view, State.dy, e4]
  have a8 : (s'.view p).dr = 0 := by simp [State.view, State.dy, e4]
  have k1 := k.2
  refine ⟨?_, ?_, C32_quiet h3 ho e3 e2⟩ <;> omega

/-! ### Examples -/

/-- Two strong references, one of which is then released, while the application has none. -/
def demo : List Label :=
  [.new 16, .getLocal 16, .handle .acquire 16, .getLocal 16, .handle .acquire 16, .put 16, .put 16,
   .run ⟨.acquire, 16, false⟩, .run ⟨.acquire, 16, false⟩, .done ⟨.acquire, 16, true⟩, .unref 16,
   .getLocal 16, .handle .release 16, .done ⟨.acquire, 16, true⟩, .cleanup .release 16, .put 16,
   .run ⟨.release, 16, false⟩, .done ⟨.release, 16, true⟩]

example : (exec step {} demo).holds (fun s =>
    s.objs 16 = some { refs := 1, strong := 1 } ∧ balance 16 s.log = 1 ∧
      count (.ack 16) s.log = 2 ∧ s.tasks = [] ∧ s.unrefs = []) = true := by decide +kernel

/-- `C32_settles`: there's a lot to do. -/
example : (exec step {} (demo.take 13)).holds (fun s =>
    s.user 16 = 0 ∧ s.tasks ≠ [] ∧ s.unrefs ≠ [] ∧ count (.handled .acquire 16) s.log = 2 ∧
      count (.handled .release 16) s.log = 1) = true := by decide +kernel

end Gb.C32
