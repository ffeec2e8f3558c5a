import Verif.Lemmas.LocalObj
/-
C30: a binder pointer received from the kernel is resolved to a local object only if that object is
currently registered and alive; unknown pointers are never dereferenced.

Executions are arbitrary interleavings of the steps taken by any number of threads
(Model/LocalObj.lean); the pointers are arbitrary too.
-/
set_option autoImplicit false

namespace Gb.C30
open LocalObj

/-- A pointer is found in the table only if there is an object at this address: it has been created
and its memory hasn't been freed yet. -/
theorem C30_registered {s : State} (h : Reach step {} s) {p : Nat} (hp : s.table p = true) :
    p ≠ 0 ∧ ∃ o, s.objs p = some o := by
  have hv := inv_reach h p
  cases ho : s.objs p with
  | none =>
    have := (hv.none (view_none ho).1).1
    simp only [State.view, State.tab, hp, if_true] at this
    cases this
  | some o => exact ⟨hv.null (view_some ho).1, o, rfl⟩

/-- If there is no object at the address which the kernel has passed, then nothing happens: nobody
gets a reference, the memory is not accessed. -/
theorem C30_unknown {s : State} (h : Reach step {} s) {p : Nat} (hp : s.objs p = none) :
    step s (.getLocal p) = .ok s := by
  have : ¬ (p ≠ 0 ∧ s.table p = true) := fun hc => by
    obtain ⟨_, o, ho⟩ := C30_registered h hc.2
    rw [hp] at ho; cases ho
  simp only [step, if_neg this]

/-- Whoever has got a reference from the lookup, has a valid one until it is released: the memory
isn't freed, and the reference count is positive. -/
theorem C30_held {s : State} (h : Reach step {} s) {p : Nat} (hp : p ∈ s.held) :
    ∃ o, s.objs p = some o ∧ 1 ≤ o.refs :=
  alive_of_owner (inv_reach h) (.inr (.inl hp))

/-- As long as a reference is held by anyone but a thread which is releasing it, the object can be
found. -/
theorem C30_findable {s : State} (h : Reach step {} s) {p : Nat}
    (hp : 0 < s.user p ∨ p ∈ s.held ∨ ∃ t ∈ s.tasks, t.obj = p) : s.table p = true := by
  have ha := alive_of_owner (p := p) (inv_reach h) (by
    rcases hp with hp | hp | hp
    · exact .inl hp
    · exact .inr (.inl hp)
    · exact .inr (.inr (.inr (.inl hp))))
  obtain ⟨o, ho, _⟩ := ha
  have hv := inv_reach h p
  cases ht : s.table p with
  | true => rfl
  | false =>
    have hg := hv.gone (by simp [State.view, State.tab, ht]) (view_some ho).1
    exfalso
    rcases hp with hp | hp | ⟨t, hp, rfl⟩
    · have : 0 < (s.view p).user := hp
      omega
    · have : 0 < (s.view p).h := by
        simp only [State.view, State.h, List.countP_pos_iff]
        exact ⟨_, hp, by simp⟩
      omega
    · have : 0 < (s.view t.obj).t := by
        simp only [State.view, State.t, List.countP_pos_iff]
        exact ⟨_, hp, by simp⟩
      omega

/-- The full claim is that no execution has undefined behaviour. What is proved: if there is any,
then it begins with the lookup of an object which is still in the table although another thread
has already brought its reference count down to zero and is about to finalize it. Nothing else can
go wrong. -/
theorem C30_partial {ls : List Label} (h : exec step {} ls = .ub) :
    ∃ pre p post s o, ls = pre ++ .getLocal p :: post ∧ exec step {} pre = .ok s ∧
      s.table p = true ∧ s.objs p = some o ∧ o.refs = 0 ∧ ⟨p, .finalizing⟩ ∈ s.dying := by
  suffices H : ∀ (ls : List Label) (s0 : State) (pre0 : List Label), exec step {} pre0 = .ok s0 →
      exec step s0 ls = .ub → ∃ pre p post s o, pre0 ++ ls = pre ++ .getLocal p :: post ∧
        exec step {} pre = .ok s ∧ s.table p = true ∧ s.objs p = some o ∧ o.refs = 0 ∧
        ⟨p, .finalizing⟩ ∈ s.dying by
    simpa using H ls {} [] rfl h
  intro ls
  induction ls with
  | nil => intro s0 pre0 _ h; cases h
  | cons l ls ih =>
    intro s0 pre0 h0 h
    simp only [exec] at h
    split at h
    · rename_i s1 h1
      have h2 : exec step {} (pre0 ++ [l]) = .ok s1 := by
        rw [exec_append, h0]; simp [exec, h1]
      obtain ⟨pre, p, post, s, o, hh, rest⟩ := ih s1 (pre0 ++ [l]) h2 h
      exact ⟨pre, p, post, s, o, by simpa using hh, rest⟩
    · cases h
    · rename_i hu
      have hi := inv_reach ⟨pre0, h0⟩
      obtain ⟨p, o, rfl, ht, ho, hr⟩ := step_ub hi hu
      refine ⟨pre0, p, ls, s0, o, rfl, h0, ht, ho, hr, ?_⟩
      have hv := hi p
      have hs := view_some ho
      have h1 : (s0.view p).tab = 1 := by simp [State.view, State.tab, ht]
      have h2 : 1 ≤ (s0.view p).df := by
        have a := hv.pos hs.1
        have b := hv.rem
        omega
      simp only [State.view, State.dy] at h2
      obtain ⟨d, hd, he⟩ := List.countP_pos_iff.1 h2
      simp only [decide_eq_true_eq] at he
      rw [← he]; exact hd

/-! ### Examples -/

/-- The application releases its reference while a looper thread is handling BR_ACQUIRE; the object
survives. -/
def demo : List Label :=
  [.new 16, .getLocal 24, .unref 16, .getLocal 16, .dispose 16, .settle 16, .handle .acquire 16,
   .put 16, .run ⟨.acquire, 16, false⟩, .done ⟨.acquire, 16, true⟩]

example : (exec step {} demo).holds (fun s =>
    s.table 16 = true ∧ s.table 24 = false ∧ s.objs 16 = some { refs := 1, strong := 1 }) = true := by
  decide +kernel

/-- The last reference is being released by one thread (which has called dispose), a second one
looks the object up (so that dispose doesn't remove it from the table) and releases it again; now
the first thread goes on and finds that its reference is the last one after all. The third thread
looks the object up before finalize removes it from the table. -/
theorem C30_fails : ∃ ls, exec step {} ls = .ub :=
  ⟨[.new 16, .unref 16, .getLocal 16, .dispose 16, .put 16, .settle 16, .getLocal 16],
    Out.isUb_iff.1 (by decide +kernel)⟩

end Gb.C30
