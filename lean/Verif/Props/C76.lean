import Verif.Lemmas.SharingMove
/-
C76: a local object which has been sent to another process stays alive, and can be called, as long as
any process has a reference to it, even if the application has dropped its own references; and when
everybody has dropped theirs, it's freed.

Executions are arbitrary: any number of processes which acquire, release, pass on and call the object
whenever they can, any number of threads sending it, and any order in which BR_ACQUIRE, BR_RELEASE
etc. are handled. The kernel is modelled too (Model/Sharing), that's where the count of references in
C32 comes from.
-/
set_option autoImplicit false

namespace Gb.C76
open Gb.Sharing

/-- While anybody else has a strong reference to the object, it's alive and can be found by its
address. Partial: the application has to keep its own reference until the request (or the reply) has
been sent, see `C76_fails_dropped`. -/
theorem C76_alive_partial {p : Nat} {s : State} (h : ReachIf (step p) (Kept p) {} s) (hs : Shared s) :
    Alive p s := by
  have i := inv_reach h
  refine i.alive ?_
  obtain ⟨l, _, h2, h3⟩ := i.refs
  rcases hs with ⟨c, hc⟩ | hi
  · have := List.length_pos_of_mem ((h2 c).2 (by simp only [State.strong]; omega))
    omega
  · have := i.loc
    omega

/-- And it's the same object: nothing that happens then frees it, and no other object is created at
the same address. Partial, see `C76_fails_reuse`. -/
theorem C76_same_partial {p : Nat} {s s' : State} (h : ReachIf (step p) (Kept p) {} s) (hs : Shared s) {l : Label}
    (hl : step p s l = .ok s') :
    LocalObj.count (.freed p) s'.obj.log = LocalObj.count (.freed p) s.obj.log ∧
    LocalObj.count (.new p) s'.obj.log = LocalObj.count (.new p) s.obj.log := by
  have i := inv_reach h
  obtain ⟨_, o, ho, h1⟩ := C76_alive_partial h hs
  have hun : ∀ t : State, t.unused.obj = t.obj := by intro t; unfold State.unused; split <;> rfl
  have hnode : ∀ (t : State) n, (t.readNode n).obj = t.obj := by
    intro t n; unfold State.readNode; repeat' split
    all_goals rfl
  have hinc : ∀ (t : State) c n, (t.incRef c n).obj = t.obj := by
    intro t c n; unfold State.incRef State.incNode
    split
    · cases n with
      | none => rfl
      | some n => dsimp only; split <;> rfl
    · rfl
  have hdec : ∀ (t : State) c, (t.decRef c).obj = t.obj := by
    intro t c; unfold State.decRef; split
    · exact hun _
    · rfl
  have hev : ∀ {a b : LocalObj.State} {m : LocalObj.Label}, LocalObj.step a m = .ok b →
      m ≠ .free p → m ≠ .new p →
      LocalObj.count (.freed p) b.log = LocalObj.count (.freed p) a.log ∧
      LocalObj.count (.new p) b.log = LocalObj.count (.new p) a.log := by
    intro a b m hm n1 n2
    rw [(LocalObj.step_log hm p).1]
    cases m with
    | new q =>
      have : q ≠ p := fun h => n2 (by rw [h])
      simp [LocalObj.Label.ev, LocalObj.count_append, this]
    | free q =>
      have : q ≠ p := fun h => n1 (by rw [h])
      simp [LocalObj.Label.ev, LocalObj.count_append, this]
    | done t =>
      simp only [LocalObj.Label.ev]
      split <;> simp [LocalObj.count_append]
    | _ => simp [LocalObj.Label.ev, LocalObj.count_append]
  have hfound : ∀ {t t' : State} {k : LocalObj.Kind}, t.found p k = .ok t' →
      LocalObj.count (.freed p) t'.obj.log = LocalObj.count (.freed p) t.obj.log ∧
      LocalObj.count (.new p) t'.obj.log = LocalObj.count (.new p) t.obj.log := by
    intro t t' k ht
    simp only [State.found] at ht
    split at ht
    · rename_i a ha
      split at ht
      · rename_i b hb
        cases ht
        have e1 := hev ha (by simp) (by simp)
        have e2 := hev hb (by simp) (by simp)
        exact ⟨e2.1.trans e1.1, e2.2.trans e1.2⟩
      · cases ht
      · cases ht
    · cases ht
    · cases ht
  cases l with
  | obj m =>
    simp only [step] at hl
    split at hl
    · cases hl
    split at hl
    · rename_i b hb
      cases hl
      have n1 : m ≠ .free p := by
        rintro rfl
        simp only [LocalObj.step] at hb
        split at hb
        · rename_i hd
          have g := LocalObj.inv_reach i.obj p
          have h2 : 0 < (s.obj.view p).dr := by
            simp only [LocalObj.State.view, LocalObj.State.dy, List.countP_pos_iff]
            exact ⟨_, hd, by simp⟩
          have h3 := g.zero (by omega)
          simp only [LocalObj.State.view, ho, LocalObj.refsOf] at h3
          omega
        · cases hb
      have n2 : m ≠ .new p := by
        rintro rfl
        simp only [LocalObj.step] at hb
        split at hb
        · rename_i hn
          rw [ho] at hn
          simp at hn
        · cases hb
      have e := hev hb n1 n2
      split
      · simp only [State.ack, hun]; exact e
      · exact e
    · cases hl
    · cases hl
  | take t =>
    cases hp : pop t s.inbox with
    | none => simp only [step, hp] at hl; cases hl
    | some x =>
      rcases x with ⟨x, l⟩
      cases x with
      | acquire =>
        simp only [step, hp] at hl
        split at hl
        · exact hfound (t := { s with inbox := l }) hl
        · cases hl; simp only [State.ack, hun, and_self]
      | release =>
        simp only [step, hp] at hl
        split at hl
        · exact hfound (t := { s with inbox := l }) hl
        · cases hl; exact ⟨rfl, rfl⟩
      | complete => simp only [step, hp] at hl; cases hl; exact ⟨rfl, rfl⟩
      | node => simp only [step, hp] at hl; cases hl
  | _ =>
    simp only [step] at hl
    repeat' split at hl
    all_goals first
      | (cases hl; done)
      | (cases hl; simp only [hnode, hinc, hdec, hun, and_self]; done)
      | (cases hl; exact ⟨rfl, rfl⟩)

/-- BR_ACQUIRE and BR_RELEASE always find the object, and there's always something to release: what
C32 assumes about the kernel is true. -/
theorem C76_found_partial {p : Nat} {s : State} (h : ReachIf (step p) (Kept p) {} s) {t : Nat}
    {l : List (Nat × Item)} {k : LocalObj.Kind}
    (hp : (k = .acquire ∧ pop t s.inbox = some (.acquire, l)) ∨ (k = .release ∧ pop t s.inbox = some (.release, l))) :
    ∃ s', step p s (.take t) = .ok s' ∧ s'.inbox = l ∧ s'.obj.log = s.obj.log ++ [.handled k p] := by
  have i := inv_reach h
  have hm : (k = .acquire ∧ (t, .acquire) ∈ s.inbox) ∨ (k = .release ∧ (t, .release) ∈ s.inbox) := by
    rcases hp with ⟨hk, hp⟩ | ⟨hk, hp⟩
    · exact .inl ⟨hk, (pop_mem hp).1⟩
    · exact .inr ⟨hk, (pop_mem hp).1⟩
  obtain ⟨ha, hc⟩ := mem_inbox_alive i (t := t) (hm.imp And.right And.right)
  have hn := ha.ne i.obj
  obtain ⟨o, o', h1, h2, h3⟩ := found_ok (s := { s with inbox := l }) (k := k) ha i.obj
    (by rintro rfl; exact hc (by rcases hm with ⟨hk, _⟩ | ⟨_, hk⟩; cases hk; exact hk))
  refine ⟨{ s with inbox := l, obj := o' }, ?_, rfl, ?_⟩
  · rcases hp with ⟨rfl, hp⟩ | ⟨rfl, hp⟩
    · simp only [step, hp]; rw [if_pos hn]; exact h3
    · simp only [step, hp]; rw [if_pos hn]; exact h3
  · simp only [(LocalObj.step_log h2 p).1, (LocalObj.step_log h1 p).1, LocalObj.Label.ev, List.append_nil]

/-- A transaction sent by any of the processes finds the object, and a thread which handles it has a
reference while it does. -/
theorem C76_call_partial {p : Nat} {s : State} (h : ReachIf (step p) (Kept p) {} s) (hs : Shared s) :
    ∃ s', step p s (.obj (.getLocal p)) = .ok s' ∧ p ∈ s'.obj.held ∧
      ∃ o o', s.obj.objs p = some o ∧ s'.obj.objs p = some o' ∧ o'.refs = o.refs + 1 := by
  have i := inv_reach h
  have ha := C76_alive_partial h hs
  have hn := ha.ne i.obj
  obtain ⟨_, o, ho, h1⟩ := ha
  refine ⟨{ s with obj := { s.obj with
    held := p :: s.obj.held, objs := upd s.obj.objs p (some { o with refs := o.refs + 1 }) } }, ?_, ?_, o,
    { o with refs := o.refs + 1 }, ho, ?_, rfl⟩
  · simp only [step, reduceCtorEq, or_self, if_false, LocalObj.step]
    rw [if_pos (show p ≠ 0 ∧ s.obj.table p = true from hn)]
    simp only [LocalObj.State.addRef, ho]
    rw [if_neg (by omega)]
  · simp
  · simp [upd_same]

/-- When everything has been handled, the object knows whether the others have references to it. -/
theorem C76_quiet_partial {p : Nat} {s : State} (h : ReachIf (step p) (Kept p) {} s) {o : LocalObj.Obj}
    (ho : s.obj.objs p = some o) (hi : s.inbox = []) (hd : s.todo = []) (hw : s.work = .nowhere)
    (ht : s.obj.tasks = []) (hu : s.obj.unrefs = []) :
    (Shared s → o.strong = 1) ∧ (¬Shared s → o.strong = 0) := by
  have i := inv_reach h
  have ha := i.acks
  have hc := i.credit
  have hp : s.pending = false := by
    cases hp : s.pending with
    | false => rfl
    | true => simp [hi, LocalObj.State.tq, ht, hp] at ha
  have hcr : s.obj.credit p = o.strong := by
    have h2 := (LocalObj.inv_reach i.obj p).credit
    simpa [LocalObj.State.view, LocalObj.State.ur, LocalObj.State.tr, LocalObj.State.ta, ht, hu, ho,
      LocalObj.strongOf] using h2
  simp only [hi, hp, List.countP_nil, Nat.add_zero, and_true, hcr] at hc
  obtain ⟨l, _, h2, h3⟩ := i.refs
  have hl := i.loc
  simp only [hp, Bool.false_eq_true, if_false, Nat.add_zero] at hl
  refine ⟨fun hs => ?_, fun hs => ?_⟩
  · have hpos : 0 < s.internal + s.localRefs := by
      rcases hs with ⟨c, hc⟩ | hi
      · have := List.length_pos_of_mem ((h2 c).2 (by simp only [State.strong]; omega))
        omega
      · omega
    cases hh : s.has with
    | true => simp only [hh, if_true] at hc; omega
    | false =>
      obtain ⟨t, ht⟩ := i.acq hpos hh
      rw [hw] at ht; cases ht
  · simp only [Shared, not_or, not_exists, Nat.not_lt] at hs
    have hz : l = [] := by
      cases l with
      | nil => rfl
      | cons c l =>
        have h4 := (h2 c).1 (by simp)
        have := hs.1 c
        simp only [State.strong] at h4
        omega
    cases hh : s.has with
    | false => simp only [hh, Bool.false_eq_true, if_false] at hc; omega
    | true =>
      have := i.rel hh (by rw [← h3, hz]; simp only [List.length_nil]; omega)
      rw [hw] at this; cases this

/-- So when nobody has references to it, neither the others nor the application, and nothing is being
handled, then either there's no object anymore, or someone is just about to free it. -/
theorem C76_freed_partial {p : Nat} {s : State} (h : ReachIf (step p) (Kept p) {} s) (hs : ¬Shared s)
    (hi : s.inbox = []) (hd : s.todo = []) (hw : s.work = .nowhere) (ht : s.obj.tasks = [])
    (hu : s.obj.unrefs = []) (hh : s.obj.held = []) (hn : s.obj.user p = 0) :
    s.obj.objs p = none ∨ ∃ st, (⟨p, st⟩ : LocalObj.Dying) ∈ s.obj.dying := by
  have i := inv_reach h
  cases ho : s.obj.objs p with
  | none => exact .inl rfl
  | some o =>
    right
    have h1 := (C76_quiet_partial h ho hi hd hw ht hu).2 hs
    have g := LocalObj.inv_reach i.obj p
    have h2 := LocalObj.view_some ho
    have h3 := g.refs
    have h4 := g.pos h2.1
    have hdy : ∀ st, 0 < s.obj.dy p st → (⟨p, st⟩ : LocalObj.Dying) ∈ s.obj.dying := by
      intro st hst
      simp only [LocalObj.State.dy, List.countP_pos_iff, decide_eq_true_eq] at hst
      obtain ⟨x, hx, rfl⟩ := hst
      exact hx
    by_cases h5 : (s.obj.view p).df + (s.obj.view p).dr = 0
    · have h6 := h4 h5
      have e1 : (s.obj.view p).user = 0 := hn
      have e2 : (s.obj.view p).h = 0 := by simp [LocalObj.State.view, LocalObj.State.h, hh]
      have e3 : (s.obj.view p).u = 0 := by simp [LocalObj.State.view, LocalObj.State.u, hu]
      have e4 : (s.obj.view p).t = 0 := by simp [LocalObj.State.view, LocalObj.State.t, ht]
      have e5 := h2.2.1
      by_cases h7 : 0 < (s.obj.view p).dg
      · exact ⟨_, hdy .disposing h7⟩
      · exact ⟨_, hdy .disposed (show 0 < (s.obj.view p).dd by omega)⟩
    · by_cases h7 : 0 < (s.obj.view p).df
      · exact ⟨_, hdy .finalizing h7⟩
      · exact ⟨_, hdy .removed (show 0 < (s.obj.view p).dr by omega)⟩

/-- The only thing that can go wrong is that a thread finds the object which is being freed by another
one (see C30). Nothing of this kind can happen while it's shared (`C76_call_partial`). -/
theorem C76_safe_partial {p : Nat} {s : State} (h : ReachIf (step p) (Kept p) {} s) {l : Label}
    (hl : step p s l = .ub) : ∃ q o, l = .obj (.getLocal q) ∧ s.obj.objs q = some o ∧ o.refs = 0 := by
  have i := inv_reach h
  cases l with
  | obj m =>
    simp only [step] at hl
    split at hl
    · cases hl
    split at hl
    · cases hl
    · cases hl
    · rename_i hm
      obtain ⟨q, o, rfl, _, h1, h2⟩ := LocalObj.step_ub (LocalObj.inv_reach i.obj) hm
      exact ⟨q, o, rfl, h1, h2⟩
  | take t =>
    cases hp : pop t s.inbox with
    | none => simp only [step, hp] at hl; cases hl
    | some x =>
      rcases x with ⟨x, l⟩
      cases x with
      | acquire =>
        obtain ⟨s', h1, _⟩ := C76_found_partial h (.inl ⟨rfl, hp⟩)
        rw [h1] at hl; cases hl
      | release =>
        obtain ⟨s', h1, _⟩ := C76_found_partial h (.inr ⟨rfl, hp⟩)
        rw [h1] at hl; cases hl
      | _ => simp only [step, hp] at hl; cases hl
  | _ =>
    simp only [step] at hl
    repeat' split at hl
    all_goals cases hl

/-! ### What's missing -/

/-- When nobody has references to the object, neither the others nor the application, it's always freed: no matter what hasn't been done
yet at that point, that can be done without anyone else doing anything, and then the object is gone. -/
theorem C76_released_partial {p : Nat} {s : State} (h : ReachIf (step p) (Kept p) {} s) (hs : ¬Shared s) (hn : s.obj.user p = 0) :
    ∃ ls s', (∀ l ∈ ls, Settling l) ∧ exec (step p) s ls = .ok s' ∧ s'.obj.objs p = none ∧ ¬Shared s' := by
  have hsafe : ∀ s, ReachIf (step p) (Kept p) {} s → ∀ l, LocalObj.Label.settling l → step p s (.obj l) ≠ .ub := by
    intro s h l hl hu
    obtain ⟨q, o, he, _⟩ := C76_safe_partial h hu
    cases he
    exact hl
  obtain ⟨ls, s', h1, h2, h3, ⟨e1, e2, e3, e4, e5, e6, e7⟩, a1, a2, a3, a4, a5⟩ := settles hsafe h
  have hs' : ¬Shared s' := by unfold Shared at *; rw [a1, a2, a3]; exact hs
  refine ⟨ls, s', h1, h2, ?_, hs'⟩
  rcases C76_freed_partial h3 hs' e1 e2 e3 e6 e5 e4 (a5 ▸ hn) with h4 | ⟨st, h4⟩
  · exact h4
  · rw [e7] at h4; cases h4

/-- The object is added to a request, the application drops its reference, and then sends the request:
gbinder_writer_data_append_local_object doesn't take any reference (gbinder_writer.c:1164-1184). -/
def dropped : List Label :=
  [.obj (.new 16), .append, .obj (.unref 16), .obj (.dispose 16), .obj (.settle 16), .obj (.invalidate 16),
   .obj (.free 16), .send 1 2, .read 1, .take 1, .read 1, .take 1]

/-- Another process has a reference to an object which doesn't exist anymore. -/
theorem C76_fails_dropped : ∃ s, Reach (step 16) {} s ∧ Shared s ∧ s.sent = [] ∧ ¬Alive 16 s := by
  have h : (exec (step 16) {} dropped).holds (fun s => s.sent = [] ∧ 0 < s.buffers 2 ∧ s.obj.table 16 = false) = true := by
    decide +kernel
  cases he : exec (step 16) {} dropped with
  | ok s =>
    rw [he] at h
    simp only [Out.holds, decide_eq_true_eq] at h
    refine ⟨s, ⟨_, he⟩, .inl ⟨2, .inr h.2.1⟩, h.1, fun ha => ?_⟩
    rw [ha.1] at h
    cases h.2.2
  | no => rw [he] at h; cases h
  | ub => rw [he] at h; cases h

/-- If another object has been created at the same address, it's the one that gets the transactions. -/
def reused : List Label :=
  [.obj (.new 16), .append, .obj (.unref 16), .obj (.dispose 16), .obj (.settle 16), .obj (.invalidate 16),
   .obj (.free 16), .obj (.new 16), .send 1 2, .read 1, .take 1, .read 1, .take 1, .acquire 2, .call 2]

theorem C76_fails_reuse : ∃ s, Reach (step 16) {} s ∧ Shared s ∧ 0 < s.incoming ∧ Alive 16 s ∧
    LocalObj.count (.freed 16) s.obj.log = 1 ∧ LocalObj.count (.handled .acquire 16) s.obj.log = 1 := by
  have h : (exec (step 16) {} reused).holds (fun s => 0 < s.incoming ∧ s.obj.table 16 = true ∧
      (s.obj.objs 16).map (·.refs) = some 3 ∧ LocalObj.count (.freed 16) s.obj.log = 1 ∧
      LocalObj.count (.handled .acquire 16) s.obj.log = 1) = true := by
    decide +kernel
  cases he : exec (step 16) {} reused with
  | ok s =>
    rw [he] at h
    simp only [Out.holds, decide_eq_true_eq] at h
    obtain ⟨h1, h2, h3, h4, h5⟩ := h
    refine ⟨s, ⟨_, he⟩, .inr h1, h1, ⟨h2, ?_⟩, h4, h5⟩
    cases ho : s.obj.objs 16 with
    | none => rw [ho] at h3; cases h3
    | some o => rw [ho] at h3; simp only [Option.map_some, Option.some.injEq] at h3; exact ⟨o, rfl, by omega⟩
  | no => rw [he] at h; cases h
  | ub => rw [he] at h; cases h

/-! ### Examples -/

/-- The application does what it has to. -/
def keptRun (p : Nat) (s : State) : List Label → Bool
  | [] => true
  | l :: ls => decide (Kept p s l) && match step p s l with
    | .ok s' => keptRun p s' ls
    | _ => false

theorem reachIf_of_exec {p : Nat} {ls : List Label} : ∀ {s : State},
    ReachIf (step p) (Kept p) {} s → keptRun p s ls = true →
    ∃ s', exec (step p) s ls = .ok s' ∧ ReachIf (step p) (Kept p) {} s' := by
  induction ls with
  | nil => intro s h _; exact ⟨s, rfl, h⟩
  | cons l ls ih =>
    intro s h hn
    simp only [keptRun, Bool.and_eq_true, decide_eq_true_eq] at hn
    obtain ⟨h1, h2⟩ := hn
    split at h2
    · rename_i s1 hs
      obtain ⟨s', h3, h4⟩ := ih (.step l h h1 hs) h2
      exact ⟨s', by simp only [exec, hs, h3], h4⟩
    · cases h2

/-- The object is sent to the process 2, which acquires it, the application drops its reference, then
2 passes the object to 3. -/
def share : List Label :=
  [.obj (.new 16), .append, .send 1 2, .read 1, .acquire 2, .read 1, .take 1, .obj (.put 16), .take 1, .obj (.unref 16),
   .obj (.run ⟨.acquire, 16, false⟩), .obj (.done ⟨.acquire, 16, true⟩), .free 2, .give 2 3]

/-- Then 2 calls it, and all references are released. -/
def unshare : List Label :=
  [.call 2, .release 2, .free 3, .obj (.getLocal 16), .obj (.put 16), .freeIncoming, .readProc 4, .take 4,
   .obj (.cleanup .release 16), .obj (.put 16), .obj (.run ⟨.release, 16, false⟩), .obj (.done ⟨.release, 16, true⟩),
   .obj (.dispose 16), .obj (.settle 16), .obj (.invalidate 16), .obj (.free 16)]

/-- The hypotheses of `C76_alive_partial`, `C76_same_partial`, `C76_call_partial` and
`C76_quiet_partial` are satisfied, and there's nobody but other processes to keep the object alive. -/
example : ∃ s o, ReachIf (step 16) (Kept 16) {} s ∧ Shared s ∧ s.obj.user 16 = 0 ∧ s.obj.objs 16 = some o ∧ o.refs = 1 ∧
    s.inbox = [] ∧ s.todo = [] ∧ s.work = .nowhere ∧ s.obj.tasks = [] ∧ s.obj.unrefs = [] := by
  obtain ⟨s, h1, h2⟩ := reachIf_of_exec (p := 16) (ls := share) .init (by decide +kernel)
  have h3 : (exec (step 16) {} share).holds (fun s => 0 < s.acquired 2 ∧ s.obj.user 16 = 0 ∧
      s.obj.objs 16 = some { refs := 1, strong := 1 } ∧ s.inbox = [] ∧ s.todo = [] ∧ s.work = .nowhere ∧
      s.obj.tasks = [] ∧ s.obj.unrefs = []) = true := by decide +kernel
  rw [h1] at h3
  simp only [Out.holds, decide_eq_true_eq] at h3
  obtain ⟨h4, h5, h6, h7⟩ := h3
  exact ⟨s, _, h2, .inl ⟨2, .inl h4⟩, h5, h6, rfl, h7⟩

/-- BR_ACQUIRE, and then BR_RELEASE, is going to be handled (`C76_found_partial`). -/
example : keptRun 16 {} (share.take 6) = true ∧ (exec (step 16) {} (share.take 6)).holds (fun s =>
    pop 1 s.inbox = some (.acquire, [(1, .complete)])) = true ∧
    keptRun 16 {} (share ++ unshare.take 7) = true ∧ (exec (step 16) {} (share ++ unshare.take 7)).holds (fun s =>
    pop 4 s.inbox = some (.release, []) ∧ s.obj.credit 16 = 1) = true := by decide +kernel

/-- In the end it's freed (`C76_freed_partial`). -/
example : keptRun 16 {} (share ++ unshare) = true ∧ (exec (step 16) {} (share ++ unshare)).holds (fun s =>
    s.obj.objs 16 = none ∧ s.inbox = [] ∧ s.todo = [] ∧ s.work = .nowhere ∧ s.obj.tasks = [] ∧ s.obj.unrefs = [] ∧
    s.obj.held = [] ∧ s.obj.user 16 = 0 ∧ s.acquired 2 = 0 ∧ s.buffers 3 = 0 ∧ s.incoming = 0) = true := by
  decide +kernel

/-- `C76_safe_partial`: it's being freed, and a thread finds it. -/
example : keptRun 16 {} [.obj (.new 16), .obj (.unref 16), .obj (.getLocal 16), .obj (.dispose 16), .obj (.put 16),
      .obj (.settle 16)] = true ∧
    (exec (step 16) {} [.obj (.new 16), .obj (.unref 16), .obj (.getLocal 16), .obj (.dispose 16), .obj (.put 16),
      .obj (.settle 16), .obj (.getLocal 16)]).isUb = true := by decide +kernel

/-- `C76_released_partial`: everybody has dropped the object, and the main thread hasn't even handled BR_ACQUIRE. -/
example : ∃ s, ReachIf (step 16) (Kept 16) {} s ∧ ¬Shared s ∧ s.obj.user 16 = 0 ∧ s.obj.objs 16 ≠ none ∧ s.obj.tasks ≠ [] := by
  obtain ⟨s, h1, h2⟩ := reachIf_of_exec (p := 16) (ls := share.take 10 ++ [.free 2, .release 2]) .init (by decide +kernel)
  have h3 : (exec (step 16) {} (share.take 10 ++ [.free 2, .release 2])).holds (fun s => s.internal = 0 ∧ s.incoming = 0 ∧ s.obj.user 16 = 0 ∧
      s.obj.objs 16 ≠ none ∧ s.obj.tasks ≠ []) = true := by decide +kernel
  rw [h1] at h3
  simp only [Out.holds, decide_eq_true_eq] at h3
  obtain ⟨h4, h5, h6⟩ := h3
  refine ⟨s, h2, ?_, h6⟩
  obtain ⟨l, _, hl, hlen⟩ := (inv_reach h2).refs
  have : l = [] := List.eq_nil_of_length_eq_zero (by omega)
  subst this
  rintro (⟨c, hc⟩ | hc)
  · exact absurd ((hl c).2 (by simp only [State.strong]; omega)) (by simp)
  · omega

end Gb.C76
