import Verif.Lemmas.ClientCallsFrame
import Verif.Lemmas.ClientCallsMove
/-
C70. Asynchronous calls made with gbinder_client_transact, and what is kept alive by them.
-/
set_option autoImplicit false

namespace Gb.C70
open ClientCalls
open Buffers (total)

/-- No client, request, reply or remote object is used after it has been freed. -/
theorem C70_safe {s : State} (h : Reach step {} s) (l : Label) : step s l ≠ .ub := (step_inv (reach_inv h) l).1

/-- Each call lives the way it's supposed to, see `Life.next`. -/
theorem C70_life {s : State} (h : Reach step {} s) (p : Nat) : ∃ l, life p s.log = some l ∧ (l = .new ↔ s.tx.calls ≤ p) ∧
    (l = .gone ↔ p < s.tx.calls ∧ s.calls p = none) := by
  have hi := reach_inv h
  have hp := hi.calls p
  by_cases hc : s.tx.calls ≤ p
  · exact ⟨.new, hp.new hc, by simp [hc], by simp; omega⟩
  · cases hd : s.calls p with
    | none => exact ⟨.gone, hp.gone (by omega) hd, by simp; omega, by simp; omega⟩
    | some c =>
      cases ho : c.over with
      | true => exact ⟨_, (hp.over c hd ho).2, by simp; omega, by simp⟩
      | false =>
        obtain ⟨t, res, told, _, g⟩ := hp.live c hd ho
        exact ⟨_, g.life, by simp; omega, by simp⟩

theorem life_none (p : Nat) (evs : List Ev) : evs.foldl (fun o e => o.bind (Life.next p · e)) (none : Option Life) = none := by
  induction evs with
  | nil => rfl
  | cons e evs ih => simpa using ih

theorem life_split {p : Nat} {a : List Ev} {e : Ev} {b : List Ev} {c : Life} (h : life p (a ++ e :: b) = some c) :
    ∃ c1 c2, life p a = some c1 ∧ c1.next p e = some c2 ∧ b.foldl (fun o e => o.bind (·.next p e)) (some c2) = some c := by
  rw [life_append, List.foldl_cons] at h
  cases h1 : life p a with
  | none => rw [h1] at h; simp only [Option.bind_none] at h; rw [life_none] at h; cases h
  | some c1 =>
    rw [h1] at h
    simp only [Option.bind_some] at h
    cases h2 : c1.next p e with
    | none => rw [h2, life_none] at h; cases h
    | some c2 => exact ⟨c1, c2, rfl, h2, by rw [← h2]; exact h⟩

/-- What's known about the past of a call. -/
def Past (p : Nat) (a : List Ev) : Life → Prop
  | .new => (∀ e ∈ a, e.who ≠ some p)
  | .live c h q x res told can => Ev.called p c h q x ∈ a ∧ (∀ c' h' q' x', Ev.called p c' h' q' x' ∈ a → c' = c ∧ h' = h ∧ q' = q ∧ x' = x) ∧
      (∀ r st, res = some (r, st) → Ev.performed p h x.code x.oneway q r st ∈ a) ∧
      (res = none → ∀ h k o q r st, Ev.performed p h k o q r st ∉ a) ∧
      (∀ h' k o q' r st, Ev.performed p h' k o q' r st ∈ a → res = some (r, st)) ∧
      (told = false → ∀ c r st d, Ev.told p c r st d ∉ a) ∧ (can = false → Ev.cancelled p ∉ a) ∧ (∀ d, Ev.destroyed p d ∉ a) ∧ Ev.over p ∉ a ∧
      (can = true → Ev.cancelled p ∈ a) ∧ (told = true → ∃ c r st d, Ev.told p c r st d ∈ a)
  | .leaving c => (∃ h q x, Ev.called p c h q x ∈ a) ∧ (∀ c' h' q' x', Ev.called p c' h' q' x' ∈ a → c' = c) ∧ (∃ d, Ev.destroyed p d ∈ a) ∧ Ev.over p ∉ a
  | .gone => (∃ c h q x, Ev.called p c h q x ∈ a) ∧ (∃ d, Ev.destroyed p d ∈ a) ∧ Ev.over p ∈ a

theorem past {p : Nat} {a : List Ev} {c : Life} (h : life p a = some c) : Past p a c := by
  revert c
  have key : ∀ r : List Ev, ∀ c, life p r.reverse = some c → Past p r.reverse c := by
    intro r
    induction r with
    | nil => intro c h; simp [life] at h; subst h; simp [Past]
    | cons e r ih =>
      intro c h
      rw [List.reverse_cons] at h ⊢
      obtain ⟨c1, c2, h1, h2, h3⟩ := life_split h
      simp at h3
      subst h3
      have hp := ih c1 h1
      by_cases hw : e.who = some p
      · cases e <;> simp only [Ev.who, reduceCtorEq, Option.some.injEq] at hw <;> subst hw <;> cases c1 <;>
          simp only [Life.next, if_true] at h2 <;> repeat' split at h2
        all_goals first
          | (cases h2; done)
          | (simp at h2; done)
          | cases h2
            simp only [Past, Ev.who, List.mem_append, List.mem_singleton, reduceCtorEq, or_false, Ev.destroyed.injEq, Ev.called.injEq, Ev.told.injEq,
              Ev.performed.injEq, Ev.cancelled.injEq, Ev.over.injEq] at hp ⊢
            grind
      · have h3 : life p (r.reverse ++ [e]) = life p r.reverse := life_other (by simpa using hw) _
        rw [h3, h1] at h
        cases h
        clear h2 h3 h1 ih
        have hm : ∀ e', e'.who = some p → (e' ∈ r.reverse ++ [e] ↔ e' ∈ r.reverse) := by
          intro e' he'
          simp only [List.mem_append, List.mem_singleton, or_iff_left_iff_imp]
          rintro rfl
          exact absurd he' hw
        cases c1 with
        | new => simp only [Past] at hp ⊢; grind
        | _ =>
          simp only [Past] at hp ⊢
          simp only [hm _ (show (Ev.told p _ _ _ _).who = some p from rfl), hm _ (show (Ev.called p _ _ _ _).who = some p from rfl),
            hm _ (show (Ev.performed p _ _ _ _ _ _).who = some p from rfl), hm _ (show (Ev.cancelled p).who = some p from rfl),
            hm _ (show (Ev.destroyed p _).who = some p from rfl), hm _ (show (Ev.over p).who = some p from rfl)]
          exact hp
  intro c h
  have := key a.reverse c (by simpa using h)
  simpa using this

/-- The callback gets what the driver has returned when it was given the request, with the handle of the remote object of the client, the code
and the flag; and it gets the client and the data which it was passed with. It's called once at most, before `destroy`, and not
after the call has been cancelled. -/
theorem C70_told {s : State} (h : Reach step {} s) {p c d : Nat} {r : Option Nat} {st : Int} {a b : List Ev}
    (hl : s.log = a ++ .told p c r st d :: b) :
    (∃ hd q x, Ev.called p c hd q x ∈ a ∧ x.data = d ∧ x.reply = true ∧ Ev.performed p hd x.code x.oneway q r st ∈ a) ∧
    Ev.cancelled p ∉ a ∧ (∀ d, Ev.destroyed p d ∉ a) ∧ ∀ c r st d, Ev.told p c r st d ∉ a ∧ Ev.told p c r st d ∉ b := by
  obtain ⟨l, hc, _⟩ := C70_life h p
  rw [hl] at hc
  have key : ∀ {a b c r st d}, life p (a ++ Ev.told p c r st d :: b) = some l →
      ∃ hd q x, life p a = some (.live c hd q x (some (r, st)) false false) ∧ x.data = d ∧ x.reply = true := by
    intro a b c r st d hc
    obtain ⟨c1, c2, h1, h2, _⟩ := life_split hc
    simp only [Life.next, if_true] at h2
    split at h2
    · split at h2
      · rename_i he
        obtain ⟨rfl, rfl, rfl, he1, rfl⟩ := he
        exact ⟨_, _, _, h1, rfl, he1⟩
      · cases h2
    · cases h2
  obtain ⟨hd, q, x, hw, hx1, hx2⟩ := key hc
  obtain ⟨p1, _, p3, _, _, p6, p7, p8, _⟩ := past hw
  refine ⟨⟨hd, q, x, p1, hx1, hx2, p3 _ _ rfl⟩, p7 rfl, p8, fun c' r' st' d' => ⟨p6 rfl _ _ _ _, fun hm => ?_⟩⟩
  obtain ⟨b1, b2, rfl⟩ := List.append_of_mem hm
  obtain ⟨_, _, _, hw', _⟩ := key (a := a ++ .told p c r st d :: b1) (b := b2) (c := c') (r := r') (st := st') (d := d') (by simpa using hc)
  exact (past hw').2.2.2.2.2.1 rfl c r st d (by simp)

/-- The request is passed to the driver once at most, with the handle, the code and the flag of the call. -/
theorem C70_performed {s : State} (h : Reach step {} s) {p hd k q : Nat} {o : Bool} {r : Option Nat} {st : Int} {a b : List Ev}
    (hl : s.log = a ++ .performed p hd k o q r st :: b) :
    (∃ c x, Ev.called p c hd q x ∈ a ∧ k = x.code ∧ o = x.oneway) ∧
    ∀ hd k o q r st, Ev.performed p hd k o q r st ∉ a ∧ Ev.performed p hd k o q r st ∉ b := by
  obtain ⟨l, hc, _⟩ := C70_life h p
  rw [hl] at hc
  have key : ∀ {a b hd k o q r st}, life p (a ++ Ev.performed p hd k o q r st :: b) = some l →
      ∃ c x can, life p a = some (.live c hd q x none false can) ∧ k = x.code ∧ o = x.oneway := by
    intro a b hd k o q r st hc
    obtain ⟨c1, c2, h1, h2, _⟩ := life_split hc
    simp only [Life.next, if_true] at h2
    split at h2
    · split at h2
      · rename_i he
        obtain ⟨rfl, he1, he2, rfl⟩ := he
        exact ⟨_, _, _, h1, he1, he2⟩
      · cases h2
    · cases h2
  obtain ⟨c, x, can, hw, hx1, hx2⟩ := key hc
  obtain ⟨p1, _, _, p4, _⟩ := past hw
  refine ⟨⟨c, x, p1, hx1, hx2⟩, fun hd' k' o' q' r' st' => ⟨p4 rfl _ _ _ _ _ _, fun hm => ?_⟩⟩
  obtain ⟨b1, b2, rfl⟩ := List.append_of_mem hm
  obtain ⟨_, _, _, hw', _⟩ := key (a := a ++ .performed p hd k o q r st :: b1) (b := b2) (hd := hd') (k := k') (o := o') (q := q') (r := r') (st := st')
    (by simpa using hc)
  exact (past hw').2.2.2.1 rfl hd k o q r st (by simp)

/-- The callback isn't called after gbinder_client_cancel. -/
theorem C70_cancel {s : State} (h : Reach step {} s) {p : Nat} {a b : List Ev} (hl : s.log = a ++ .cancelled p :: b) (c : Nat) (r : Option Nat)
    (st : Int) (d : Nat) : Ev.told p c r st d ∉ b := by
  intro hm
  obtain ⟨b1, b2, rfl⟩ := List.append_of_mem hm
  exact (C70_told h (a := a ++ .cancelled p :: b1) (b := b2) (by simpa using hl)).2.1 (by simp)

/-- `destroy` is called once at most, with the data it was passed with, and then nothing else happens to the call. -/
theorem C70_destroyed {s : State} (h : Reach step {} s) {p : Nat} {d : Option Nat} {a b : List Ev} (hl : s.log = a ++ .destroyed p d :: b) :
    (∃ c hd q x, Ev.called p c hd q x ∈ a ∧ d = if x.destroy then some x.data else none) ∧ (∀ d, Ev.destroyed p d ∉ a) ∧
    ∀ e ∈ b, e.who = some p → e = .over p := by
  obtain ⟨l, hc, _⟩ := C70_life h p
  rw [hl] at hc
  obtain ⟨c1, c2, h1, h2, _⟩ := life_split hc
  simp only [Life.next, if_true] at h2
  split at h2
  · obtain ⟨he, _⟩ := Option.ite_none_right_eq_some.1 h2
    · obtain ⟨p1, _, _, _, _, _, _, p8, _⟩ := past h1
      refine ⟨⟨_, _, _, _, p1, he⟩, p8, fun e hm hw => ?_⟩
      obtain ⟨b1, b2, rfl⟩ := List.append_of_mem hm
      obtain ⟨c3, c4, h3, h4, _⟩ := life_split (a := a ++ .destroyed p d :: b1) (e := e) (b := b2) (by simpa using hc)
      have hp := past h3
      cases c3 with
      | new => exact absurd rfl (hp (.destroyed p d) (by simp))
      | live => exact absurd (by simp) (hp.2.2.2.2.2.2.2.1 d)
      | leaving | gone =>
        cases e <;> simp only [Ev.who, reduceCtorEq, Option.some.injEq] at hw <;> subst hw <;> simp [Life.next] at h4 <;> rfl
  · cases h2

/-- Nothing is left of a call after it's over, and it isn't before `destroy` has been called. -/
theorem C70_over {s : State} (h : Reach step {} s) {p : Nat} {a b : List Ev} (hl : s.log = a ++ .over p :: b) :
    (∃ d, Ev.destroyed p d ∈ a) ∧ ∀ e ∈ b, e.who ≠ some p := by
  obtain ⟨l, hc, _⟩ := C70_life h p
  rw [hl] at hc
  obtain ⟨c1, c2, h1, h2, _⟩ := life_split hc
  simp only [Life.next, if_true] at h2
  split at h2
  · refine ⟨(past h1).2.2.1, fun e hm hw => ?_⟩
    obtain ⟨b1, b2, rfl⟩ := List.append_of_mem hm
    obtain ⟨c3, c4, h3, h4, _⟩ := life_split (a := a ++ .over p :: b1) (e := e) (b := b2) (by simpa using hc)
    have hp := past h3
    cases c3 with
    | new => exact absurd rfl (hp (.over p) (by simp))
    | live => exact absurd (by simp) hp.2.2.2.2.2.2.2.2.1
    | leaving => exact absurd (by simp) hp.2.2.2
    | gone => cases e <;> simp only [Ev.who, reduceCtorEq, Option.some.injEq] at hw <;> subst hw <;> simp [Life.next] at h4
  · cases h2

/-! ### References -/

/-- Nothing is freed twice. -/
theorem C70_once {s : State} (h : Reach step {} s) (o : Obj) : s.log.count (.made o) ≤ 1 ∧ s.log.count (.freed o) ≤ s.log.count (.made o) := by
  have hm := (reach_inv h).refs.mark o
  have h1 := hm.live
  have h2 := hm.dead
  omega

theorem not_freed {s : State} (h : Reach step {} s) {o : Obj} (ho : 0 < s.refs o) : Ev.freed o ∉ s.log :=
  List.count_eq_zero.1 (((reach_inv h).refs.mark o).live ho).2

/-- What the application has a reference to isn't freed. -/
theorem C70_kept {s : State} (h : Reach step {} s) {o : Obj} (ho : s.log.count (.unref o) < s.log.count (.ref o)) : Ev.freed o ∉ s.log := by
  have hi := reach_inv h
  refine not_freed h ?_
  rw [hi.refs.count]
  have := (hi.refs.mark o).app
  omega

theorem call_of {s : State} (h : Reach step {} s) {p c hd q : Nat} {x : Args} (hc : Ev.called p c hd q x ∈ s.log) (ho : Ev.over p ∉ s.log) :
    ∃ k, s.calls p = some k ∧ ((∃ d, Ev.destroyed p d ∈ s.log) → k.over = true) ∧
      k.client = c ∧ (k.over = false → k.req = q ∧ ∀ h' k' o' q' r st, Ev.performed p h' k' o' q' r st ∈ s.log → k.reply = r) := by
  have hi := reach_inv h
  have hp := hi.calls p
  obtain ⟨l, hl, h1, h2⟩ := C70_life h p
  have hpast := past hl
  cases l with
  | new => exact absurd rfl (hpast _ hc)
  | gone => exact absurd hpast.2.2 ho
  | leaving =>
    cases hk : s.calls p with
    | none =>
      exfalso
      have := h1.2
      by_cases hn : s.tx.calls ≤ p
      · simp at this; omega
      · rw [hp.gone (by omega) hk] at hl; cases hl
    | some k =>
      have hov : k.over = true := by
        cases hov : k.over with
        | true => rfl
        | false =>
          obtain ⟨t, res, told, _, g⟩ := hp.live k hk hov
          rw [g.life] at hl; cases hl
      refine ⟨k, rfl, fun _ => hov, ?_, fun hov => ?_⟩
      · rw [(hp.over k hk hov).2] at hl
        cases hl
        exact (hpast.2.1 _ _ _ _ hc).symm
      · obtain ⟨t, res, told, _, g⟩ := hp.live k hk hov
        rw [g.life] at hl; cases hl
  | live c' h' q' x' res told can =>
    obtain ⟨p1, p2, p3, p4, p5, _, _, p8, _⟩ := hpast
    cases hk : s.calls p with
    | none =>
      exfalso
      have := h1.2
      by_cases hn : s.tx.calls ≤ p
      · simp at this; omega
      · rw [hp.gone (by omega) hk] at hl; cases hl
    | some k =>
      have hov : k.over = false := by
        cases hov : k.over with
        | false => rfl
        | true => rw [(hp.over k hk hov).2] at hl; cases hl
      obtain ⟨t, res', told', _, g⟩ := hp.live k hk hov
      rw [g.life] at hl
      cases hl
      obtain ⟨e1, _, e3, _⟩ := p2 _ _ _ _ hc
      exact ⟨k, rfl, fun ⟨d, hd⟩ => absurd hd (p8 d), e1.symm, fun _ => ⟨e3.symm, fun h' k' o' q' r st hperf => (g.full r st (p5 _ _ _ _ _ _ hperf)).1⟩⟩

/-- The client isn't freed, and nor is its remote object, until the calls made with it are over. -/
theorem C70_client {s : State} (h : Reach step {} s) {p c hd q : Nat} {x : Args} (hc : Ev.called p c hd q x ∈ s.log) (ho : Ev.over p ∉ s.log) :
    Ev.freed (.client c) ∉ s.log ∧ ∃ k, s.clients c = some k ∧ Ev.freed (.remote k.remote) ∉ s.log ∧ ∀ r ∈ k.ranges, Ev.freed (.request r.2) ∉ s.log := by
  have hi := reach_inv h
  obtain ⟨k, hk, _, hkc, _⟩ := call_of h hc ho
  have hpos : 0 < s.refs (.client c) := by
    have := hi.refs.call hk (.client c)
    have := List.count_pos_iff.2 (show Obj.client c ∈ k.holds by simp [Call.holds, hkc])
    omega
  obtain ⟨cl, hcl⟩ := hi.refs.client (i := c) (by omega)
  refine ⟨not_freed h hpos, cl, hcl, not_freed h ?_, fun r hr => not_freed h ?_⟩
  · have := hi.refs.ofClient hcl (.remote cl.remote)
    have := List.count_pos_iff.2 (show Obj.remote cl.remote ∈ cl.holds by simp [Client.holds])
    omega
  · have := hi.refs.ofClient hcl (.request r.2)
    have := List.count_pos_iff.2 (show Obj.request r.2 ∈ cl.holds by simp [Client.holds]; exact ⟨r.1, hr⟩)
    omega

/-- The request and the reply aren't freed before `destroy` is about to be called. -/
theorem C70_request {s : State} (h : Reach step {} s) {p c hd q : Nat} {x : Args} (hc : Ev.called p c hd q x ∈ s.log)
    (hn : ∀ d, Ev.destroyed p d ∉ s.log) :
    Ev.freed (.request q) ∉ s.log ∧ ∀ h' k o q' r st, Ev.performed p h' k o q' (some r) st ∈ s.log → Ev.freed (.reply r) ∉ s.log := by
  have hi := reach_inv h
  have ho : Ev.over p ∉ s.log := by
    intro hm
    obtain ⟨a, b, e⟩ := List.append_of_mem hm
    obtain ⟨⟨d, hd⟩, _⟩ := C70_over h e
    exact hn d (by rw [e]; simp [hd])
  obtain ⟨k, hk, _, _, hr⟩ := call_of h hc ho
  have hov : k.over = false := by
    cases hov : k.over with
    | false => rfl
    | true =>
      obtain ⟨_, hl⟩ := (hi.calls p).over k hk hov
      obtain ⟨_, _, ⟨d, hd⟩, _⟩ := past hl
      exact absurd hd (hn d)
  obtain ⟨e2, e3⟩ := hr hov
  refine ⟨not_freed h ?_, fun h' k' o q' r st hp => not_freed h ?_⟩
  · have := hi.refs.call hk (.request q)
    have := List.count_pos_iff.2 (show Obj.request q ∈ k.holds by simp [Call.holds, hov, Call.inner, e2])
    omega
  · have := hi.refs.call hk (.reply r)
    have := List.count_pos_iff.2 (show Obj.reply r ∈ k.holds by simp [Call.holds, hov, Call.inner, e3 _ _ _ _ _ _ hp])
    omega

/-- Once the application has dropped its references and all calls are over, everything has been freed. -/
theorem C70_all {s : State} (h : Reach step {} s) (ha : ∀ o, s.log.count (.unref o) = s.log.count (.ref o))
    (hc : ∀ p c hd q x, Ev.called p c hd q x ∈ s.log → Ev.over p ∈ s.log) (o : Obj) (ho : Ev.made o ∈ s.log) : s.log.count (.freed o) = 1 := by
  have hi := reach_inv h
  have happ : ∀ o, s.app o = 0 := by
    intro o
    have := (hi.refs.mark o).app
    have := ha o
    omega
  have hcalls : ∀ p, s.calls p = none := by
    intro p
    cases hk : s.calls p with
    | none => rfl
    | some k =>
      exfalso
      have hp := hi.calls p
      cases hov : k.over with
      | true =>
        obtain ⟨_, hl⟩ := hp.over k hk hov
        obtain ⟨⟨hd, q, x, h1⟩, _, _, h2⟩ := past hl
        exact h2 (hc p _ hd q x h1)
      | false =>
        obtain ⟨t, res, told, _, g⟩ := hp.live k hk hov
        have hl := past g.life
        exact hl.2.2.2.2.2.2.2.2.1 (hc _ _ _ _ _ hl.1)
  have hz : ∀ o, total (fun p => callRefs o (s.calls p)) s.tx.calls = 0 := by
    intro o
    refine Nat.eq_zero_of_not_pos fun hpos => ?_
    obtain ⟨p, _, hp⟩ := Buffers.total_pos hpos
    rw [hcalls p] at hp
    simp [callRefs] at hp
  have hclients : ∀ i, s.clients i = none := by
    intro i
    rw [hi.refs.alive, hi.refs.count, happ, hz]
    have : total (fun j => clientRefs (.client i) (s.clients j)) s.next = 0 := by
      refine Nat.eq_zero_of_not_pos fun hpos => ?_
      obtain ⟨j, _, hj⟩ := Buffers.total_pos hpos
      cases hk : s.clients j with
      | none => rw [hk] at hj; simp [clientRefs] at hj
      | some k =>
        rw [hk] at hj
        have hj : 0 < k.holds.count (.client i) := hj
        have := List.count_pos_iff.1 hj
        simp [Client.holds] at this
    rw [this]
    rfl
  have hr : s.refs o = 0 := by
    rw [hi.refs.count, happ, hz]
    have : total (fun j => clientRefs o (s.clients j)) s.next = 0 := by
      refine Nat.eq_zero_of_not_pos fun hpos => ?_
      obtain ⟨j, _, hj⟩ := Buffers.total_pos hpos
      rw [hclients j] at hj
      simp [clientRefs] at hj
    rw [this]
    rfl
  have := (hi.refs.mark o).dead hr
  have := List.count_pos_iff.2 ho
  omega

/-! ### Which calls are made -/

/-- Unless gbinder_ipc_exit gets in the way, the callback, if there's one, is called before `destroy`, if the call isn't cancelled. -/
theorem C70_completed {s : State} (h : ReachIf step (fun _ l => ∀ p, l ≠ .flush p) {} s) {p : Nat} {d : Option Nat} (hf : Ev.destroyed p d ∈ s.log) :
    (∃ c r st d, Ev.told p c r st d ∈ s.log) ∨ Ev.cancelled p ∈ s.log ∨ ∃ c hd q x, Ev.called p c hd q x ∈ s.log ∧ x.reply = false := by
  have key : (p ∈ s.tx.finishing ∨ ∃ d, Ev.destroyed p d ∈ s.log) →
      (∃ c r st d, Ev.told p c r st d ∈ s.log) ∨ Ev.cancelled p ∈ s.log ∨ ∃ c hd q x, Ev.called p c hd q x ∈ s.log ∧ x.reply = false := by
    clear hf
    induction h with
    | init => simp
    | @step s s' l hr hok hs ih =>
      have hi := reach_inv hr.reach
      have hf := step_frame hi hs
      obtain ⟨evs, hl, hl1, _⟩ := hf.log
      intro hx
      by_cases hq : p ∈ s.tx.finishing ∨ ∃ d, Ev.destroyed p d ∈ s.log
      · have := ih hq
        rw [hl]
        simp only [List.mem_append]
        grind
      · have hdone : l = .done p := by
          rcases hx with hx | ⟨d, hx⟩
          · rcases hf.finishing p hx with h1 | h1 | h1
            · exact absurd (.inl h1) hq
            · exact h1
            · exact absurd h1 (hok p)
          · rw [hl] at hx
            rcases List.mem_append.1 hx with hx | hx
            · exact absurd (.inr ⟨d, hx⟩) hq
            · cases hl1 p d hx
              simp only [step] at hs
              split at hs
              · cases hs
              · cases hs
              · rename_i tx ha
                exact absurd (.inl (Async.free_facts hi.facts ha).2.1) hq
        subst hdone
        simp only [step] at hs
        split at hs
        · cases hs
        · cases hs
        · rename_i tx ha
          split at hs
          · rename_i t c ht hc
            have hov : c.over = false := by
              obtain ⟨c', h1, h2⟩ := (hi.calls p).tx t ht
              rw [hc] at h1; cases h1; exact h2
            obtain ⟨t', res, told, h1, g⟩ := (hi.calls p).live c hc hov
            rw [ht] at h1
            cases h1
            have hp := past g.life
            split at hs
            · rename_i hcan
              cases hs
              simp only [Bool.or_eq_true, Bool.not_eq_true'] at hcan
              rcases hcan with hcan | hcan
              · exact .inr (.inl (hp.2.2.2.2.2.2.2.2.2.1 hcan))
              · exact .inr (.inr ⟨_, _, _, _, hp.1, hcan⟩)
            · split at hs
              · cases hs
              · cases hs
                exact .inl ⟨c.client, c.reply, c.status, c.args.data, by simp [State.see]⟩
          · cases hs
  exact key (.inr ⟨d, hf⟩)

/-- The request which is used: the given one, or the one for the first range which isn't below the code. -/
def Chosen (c : Client) (req : Option Nat) (code q : Nat) : Prop :=
  req = some q ∨ req = none ∧ ∃ a k b, c.ranges = a ++ (k, q) :: b ∧ code ≤ k ∧ ∀ x ∈ a, x.1 < code

theorem findRange_none {l : List (Nat × Nat)} {code : Nat} : findRange l code = none ↔ ∀ x ∈ l, x.1 < code := by
  induction l with
  | nil => simp [findRange]
  | cons r l ih =>
    simp only [findRange]
    split
    · simp; intro h; omega
    · simp [ih]; intro _; omega

theorem findRange_some {l : List (Nat × Nat)} {code q : Nat} (h : findRange l code = some q) :
    ∃ a k b, l = a ++ (k, q) :: b ∧ code ≤ k ∧ ∀ x ∈ a, x.1 < code := by
  induction l with
  | nil => cases h
  | cons r l ih =>
    simp only [findRange] at h
    split at h
    · cases h; exact ⟨[], r.1, l, rfl, by assumption, by simp⟩
    · obtain ⟨a, k, b, h1, h2, h3⟩ := ih h
      refine ⟨r :: a, k, b, by rw [h1]; rfl, h2, ?_⟩
      intro x hx
      rcases List.mem_cons.1 hx with rfl | hx
      · omega
      · exact h3 x hx

theorem called_once {p : Nat} {log : List Ev} {l : Life} (h : life p log = some l) {c hd q c' hd' q' : Nat} {x x' : Args}
    (h1 : Ev.called p c' hd' q' x' ∈ log) (h2 : Ev.called p c hd q x ∈ log) : x' = x := by
  have key : ∀ {a b c hd q x}, life p (a ++ Ev.called p c hd q x :: b) = some l → life p a = some .new := by
    intro a b c hd q x hc
    obtain ⟨c1, c2, k1, k2, _⟩ := life_split hc
    simp only [Life.next, if_true] at k2
    split at k2
    · rename_i e; rw [k1, e]
    · cases k2
  obtain ⟨a, b, rfl⟩ := List.append_of_mem h1
  rcases List.mem_append.1 h2 with h3 | h3
  · exact absurd rfl (past (key h) _ h3)
  · rcases List.mem_cons.1 h3 with h3 | h3
    · cases h3; rfl
    · obtain ⟨b1, b2, rfl⟩ := List.append_of_mem h3
      have := key (a := a ++ Ev.called p c' hd' q' x' :: b1) (b := b2) (c := c) (hd := hd) (q := q) (x := x) (by simpa using h)
      exact absurd rfl (past this (Ev.called p c' hd' q' x') (by simp))

/-- Nothing else is needed for a call to get finished, whatever has happened before: the threads only have to go on, and the driver has to return
something. Then `reply` is called, unless the call has been cancelled by then (or gbinder_ipc_exit has been called, or `reply` is NULL), and nothing
is left of the call. -/
theorem C70_progress {s : State} (h : ReachIf step (fun _ l => ∀ p, l ≠ .flush p) {} s) {p c hd q : Nat} {x : Args}
    (hc : Ev.called p c hd q x ∈ s.log) {reply : Bool} {status : Int}
    (hr : (x.oneway = true → reply = false) ∧ (x.oneway = false → reply = true ∨ status ≠ 0)) :
    ∃ ls s', exec step s ls = .ok s' ∧
      (∀ l ∈ ls, l ∈ [.check p, .exec p, .executed p reply status, .post p, .done p, .free p, .leave p]) ∧ Ev.over p ∈ s'.log ∧
      ((∃ c r st d, Ev.told p c r st d ∈ s'.log) ∨ Ev.cancelled p ∈ s.log ∨ x.reply = false) := by
  suffices key : ∀ (n : Nat) (s : State), ReachIf step (fun _ l => ∀ p, l ≠ .flush p) {} s → Ev.called p c hd q x ∈ s.log →
      Async.left s.tx p = n → ∃ ls s', exec step s ls = .ok s' ∧ (∀ l ∈ ls, l ∈ own p reply status) ∧
        ReachIf step (fun _ l => ∀ p, l ≠ .flush p) {} s' ∧ Ev.over p ∈ s'.log ∧ (Ev.cancelled p ∈ s'.log → Ev.cancelled p ∈ s.log) by
    obtain ⟨ls, s', h1, h2, h3, h4, h5⟩ := key _ s h hc rfl
    refine ⟨ls, s', h1, h2, h4, ?_⟩
    have hcalled : Ev.called p c hd q x ∈ s'.log := by
      have : ∀ (ls : List Label) (s s' : State), Reach step {} s → exec step s ls = .ok s' → Ev.called p c hd q x ∈ s.log →
          Ev.called p c hd q x ∈ s'.log := by
        intro ls
        induction ls with
        | nil => intro s s' _ e hm; cases e; exact hm
        | cons l ls ih =>
          intro s s' hr e hm
          simp only [exec] at e
          split at e
          · rename_i s1 e1
            obtain ⟨evs, hl, -⟩ := (step_frame (reach_inv hr) e1).log
            exact ih s1 s' (hr.step e1) e (by rw [hl]; simp [hm])
          · cases e
          · cases e
      exact this ls s s' h.reach h1 hc
    obtain ⟨a, b, hab⟩ := List.append_of_mem h4
    obtain ⟨d, hd'⟩ := (C70_over h3.reach hab).1
    rcases C70_completed h3 (p := p) (d := d) (by rw [hab]; simp [hd']) with h6 | h6 | ⟨c', hd', q', x', h6, h7⟩
    · exact .inl h6
    · exact .inr (.inl (h5 h6))
    · refine .inr (.inr ?_)
      have hx : x' = x := by
        obtain ⟨l, hl, -⟩ := C70_life h3.reach p
        exact called_once hl h6 hcalled
      rw [← hx]; exact h7
  intro n
  induction n using Nat.strongRecOn with
  | _ n ih =>
    intro s h hc hn
    have hi := reach_inv h.reach
    have hlt : p < s.tx.calls := by
      apply Nat.lt_of_not_le
      intro hle
      exact past ((hi.calls p).new hle) _ hc rfl
    have leave : ∀ c0, s.calls p = some c0 → c0.over = true → ∃ ls s', exec step s ls = .ok s' ∧ (∀ l ∈ ls, l ∈ own p reply status) ∧
        ReachIf step (fun _ l => ∀ p, l ≠ .flush p) {} s' ∧ Ev.over p ∈ s'.log ∧ (Ev.cancelled p ∈ s'.log → Ev.cancelled p ∈ s.log) := by
      intro c0 hc0 ho
      cases hs : step s (.leave p) with
      | ub => exact absurd hs (C70_safe h.reach _)
      | no => simp only [step, hc0, ho, if_true] at hs; exact absurd hs (dropClient_no _ _)
      | ok s' =>
        have hlog : ∃ evs, s'.log = s.log ++ [.over p] ++ evs ∧ ∀ e ∈ evs, e.plain = false := by
          simp only [step, hc0, ho, if_true] at hs
          exact (dropClient_still hs).log
        obtain ⟨evs, hl, he⟩ := hlog
        refine ⟨[.leave p], s', by simp [exec, hs], by simp [own], h.step (.leave p) (by simp) hs, by rw [hl]; simp, ?_⟩
        intro hm
        rw [hl] at hm
        simp only [List.mem_append, List.mem_singleton, reduceCtorEq, or_false] at hm
        rcases hm with hm | hm
        · exact hm
        · have := he _ hm
          simp [Ev.plain] at this
    cases hd0 : s.calls p with
    | none => exact ⟨[], s, rfl, by simp, h, (past ((hi.calls p).gone hlt hd0)).2.2, id⟩
    | some c0 =>
      cases ho : c0.over with
      | true => exact leave c0 hd0 ho
      | false =>
        obtain ⟨t, res, told, ht, g⟩ := (hi.calls p).live c0 hd0 ho
        obtain ⟨l, tx, hl, ha, hm⟩ := hi.facts.move ht
        have hx : c0.args = x := ((past g.life).2.1 _ _ _ _ hc).2.2.2.symm
        have hp : plausible c0.args.oneway reply status = true := by
          rw [hx]
          unfold plausible
          cases hw : x.oneway with
          | true => simp [hr.1 hw]
          | false => simpa using hr.2 hw
        obtain ⟨l', s1, h1, h2, h3, h4⟩ := lift (C70_safe h.reach) hd0 hp hl ha
        have hok : ∀ p, l' ≠ .flush p := by
          intro p' e
          subst e
          simp [own] at h1
        obtain ⟨evs, hlog, -⟩ := (step_frame hi h2).log
        obtain ⟨ls, s', k1, k2, k3, k4, k5⟩ := ih (Async.left s1.tx p) (by rw [h3, ← hn]; exact hm) s1 (h.step l' hok h2) (by rw [hlog]; simp [hc]) rfl
        refine ⟨l' :: ls, s', by simp [exec, h2, k1], ?_, k3, k4, fun e => h4 _ (k5 e)⟩
        intro y hy
        rcases List.mem_cons.1 hy with rfl | hy
        · exact h1
        · exact k2 y hy

/-- A call is refused if the remote object is dead, or if there's neither a request nor a range for the code. Otherwise it's made, with the
handle of the remote object. -/
theorem C70_call {s s' : State} {i : Nat} {req : Option Nat} {a : Args} (hs : step s (.call (some i) req a) = .ok s') :
    ∃ c, s.clients i = some c ∧
      ((s.dead c.remote = true ∨ req = none ∧ ∀ x ∈ c.ranges, x.1 < a.code) ∧ s' = s.see [.refused] ∨
        s.dead c.remote = false ∧ ∃ q, Chosen c req a.code q ∧ s'.log = s.log ++ [.called s.tx.calls i (s.handle c.remote) q a]) := by
  simp only [step] at hs
  split at hs
  · simp only [transact] at hs
    split at hs
    · cases hs
    · rename_i c hc
      refine ⟨c, hc, ?_⟩
      split at hs
      · cases hs
      · split at hs
        · rename_i hd
          cases hs
          exact .inl ⟨.inl hd, rfl⟩
        · rename_i hd
          split at hs
          · rename_i hch
            cases hs
            refine .inl ⟨.inr ?_, rfl⟩
            simp only [choose] at hch
            split at hch
            · cases hch
            · exact ⟨rfl, findRange_none.1 hch⟩
          · rename_i q hch
            refine .inr ⟨by simpa using hd, q, ?_, ?_⟩
            · simp only [choose] at hch
              split at hch
              · cases hch; exact .inl rfl
              · exact .inr ⟨rfl, findRange_some hch⟩
            · split at hs
              · cases hs
              · cases hs
              · rename_i tx ha
                cases ht : s.take (.client i) with
                | no => rw [ht] at hs; cases hs
                | ub => rw [ht] at hs; cases hs
                | ok t =>
                  rw [ht] at hs
                  cases take_eq ht
                  simp only [Out.andThen] at hs
                  cases ht2 : State.take { s with refs := set s.refs (.client i) (s.refs (.client i) + 1) } (.request q) with
                  | no => rw [ht2] at hs; cases hs
                  | ub => rw [ht2] at hs; cases hs
                  | ok t2 =>
                    rw [ht2] at hs
                    cases take_eq ht2
                    cases hs
                    rfl
  · cases hs

theorem ranges_map (n : Nat) (l : List Nat) : (ranges n l).map (·.1) = l := by
  induction l generalizing n with
  | nil => rfl
  | cons c l ih => simp [ranges, ih]

theorem ranges_snd (n : Nat) (l : List Nat) : (ranges n l).map (·.2) = List.range' n l.length := by
  induction l generalizing n with
  | nil => rfl
  | cons c l ih => simp [ranges, ih, List.range'_succ]

/-- What a new client has: the remote object, and a new request for each range of codes, and one for all codes if there are none. -/
theorem C70_new {s s' : State} (h : Reach step {} s) {r : Nat} {infos : List Nat} (hs : step s (.newClient (some r) infos) = .ok s') :
    ∃ i c, s.clients i = none ∧ s'.clients i = some c ∧ Ev.ref (.client i) ∈ s'.log ∧ Ev.made (.client i) ∉ s.log ∧ c.remote = r ∧
      c.ranges.map (·.1) = (if infos = [] then [2 ^ 32 - 1] else infos) ∧ (c.ranges.map (·.2)).Nodup ∧
      ∀ x ∈ c.ranges, Ev.made (.request x.2) ∉ s.log ∧ Ev.made (.request x.2) ∈ s'.log := by
  have hi := reach_inv h
  simp only [step] at hs
  split at hs
  · obtain ⟨_, _, _, a4, a5⟩ := newClient_eq hs
    have fresh : ∀ o : Obj, s.next ≤ o.no → Ev.made o ∉ s.log := fun o ho => List.count_eq_zero.1 ((hi.refs.mark o).fresh ho).2
    refine ⟨_, _, ?_, by rw [a4]; exact upd_same _ _ _, by rw [a5]; simp, fresh _ (by simp [Obj.no]), rfl, ranges_map _ _, ?_, ?_⟩
    · cases hc : s.clients (s.next + (codes infos).length) with
      | none => rfl
      | some c => have := hi.refs.clientLt hc; omega
    · show ((ranges s.next (codes infos)).map (·.2)).Nodup
      rw [ranges_snd]
      exact List.nodup_range'
    · intro x hx
      have hx2 : x.2 ∈ (ranges s.next (codes infos)).map (·.2) := List.mem_map.2 ⟨x, hx, rfl⟩
      rw [ranges_snd] at hx2
      have := (List.mem_range'_1.1 hx2).1
      refine ⟨fresh _ (by simpa [Obj.no] using this), ?_⟩
      rw [a5]
      refine List.mem_append_left _ (List.mem_append_right _ (List.mem_map.2 ⟨x, hx, rfl⟩))
  · cases hs

/-- A client stays the same until it's freed, and so does the handle of its remote object, which is dead if and only if it has died. -/
theorem C70_same {s s' : State} (h : Reach step {} s) {l : Label} (hs : step s l = .ok s') {i : Nat} {c : Client} (hc : s.clients i = some c) :
    s'.handle c.remote = s.handle c.remote ∧ (s'.clients i = some c ∨ s'.clients i = none ∧ Ev.freed (.client i) ∈ s'.log) := by
  have hi := reach_inv h
  have hf := step_frame hi hs
  refine ⟨hf.handle _ ?_, hf.clients i c hc⟩
  have hpos : 0 < s.refs (.remote c.remote) := by
    have := hi.refs.ofClient hc (.remote c.remote)
    have := List.count_pos_iff.2 (show Obj.remote c.remote ∈ c.holds by simp [Client.holds])
    omega
  refine Nat.lt_of_not_le fun hle => ?_
  have := ((hi.refs.mark (.remote c.remote)).fresh hle).1
  omega

theorem C70_dead {s : State} (h : Reach step {} s) (r : Nat) : s.dead r = true ↔ Ev.died r ∈ s.log := by
  have : Inv s ∧ ∀ r, s.dead r = true ↔ Ev.died r ∈ s.log := by
    refine Reach.invariant (P := fun s => Inv s ∧ ∀ r, s.dead r = true ↔ Ev.died r ∈ s.log) ⟨Inv.init, by simp⟩ ?_ h
    intro s l s' ⟨hi, ih⟩ hs
    refine ⟨(step_inv hi l).2 s' hs, fun r => ?_⟩
    obtain ⟨evs, h1, _, h3⟩ := (step_frame hi hs).log
    rw [h3 r, ih r, h1, List.mem_append]
  exact this.2 r

/-- A client isn't created without a remote object. -/
theorem C70_null {s : State} (infos : List Nat) (req : Option Nat) (a : Args) :
    step s (.newClient none infos) = .ok s ∧ step s (.call none req a) = .ok (s.see [.refused]) := ⟨rfl, rfl⟩

/-! ### Examples -/

def run (s : State) : List Label → Option State
  | [] => some s
  | l :: ls =>
    match step s l with
    | .ok s' => run s' ls
    | _ => none

theorem run_reach {s s' : State} {ls : List Label} (h : ReachIf step (fun _ l => ∀ p, l ≠ .flush p) {} s)
    (hn : ls.all (fun l => match l with | .flush _ => false | _ => true) = true) (hr : run s ls = some s') :
    ReachIf step (fun _ l => ∀ p, l ≠ .flush p) {} s' := by
  induction ls generalizing s with
  | nil => cases hr; exact h
  | cons l ls ih =>
    simp only [run] at hr
    simp only [List.all_cons, Bool.and_eq_true] at hn
    split at hr
    · rename_i s1 h1
      refine ih (.step l h ?_ h1) hn.2 hr
      rintro p rfl
      cases hn.1
    · cases hr

/-- A client for two ranges of codes, a call with the default request for the second one, a call with another request which is cancelled, a
refused one, and one with no callback. Everything's dropped when the calls have been made, and the callback keeps the reply. -/
def script : List Label := [
  .newRemote 5, .newClient (some 0) [10, 20], .newRequest,
  .call (some 3) none ⟨15, false, true, true, 77⟩, .call (some 3) (some 4) ⟨99, false, true, true, 78⟩, .call (some 3) none ⟨30, false, true, true, 79⟩,
  .call (some 3) none ⟨7, true, false, false, 80⟩, .cancel 3 2, .unref (.client 3), .unref (.remote 0), .unref (.request 4),
  .check 0, .exec 0, .executed 0 true 0, .post 0, .done 0, .ref (.reply 5), .free 0, .leave 0,
  .check 1, .post 1, .done 1, .free 1, .leave 1,
  .check 2, .exec 2, .executed 2 false (-5), .post 2, .done 2, .free 2, .leave 2, .unref (.reply 5)]

example : ∃ s, ReachIf step (fun _ l => ∀ p, l ≠ .flush p) {} s ∧
    Ev.called 0 3 5 2 ⟨15, false, true, true, 77⟩ ∈ s.log ∧ Ev.performed 0 5 15 false 2 (some 5) 0 ∈ s.log ∧ Ev.told 0 3 (some 5) 0 77 ∈ s.log ∧
    Ev.destroyed 0 (some 77) ∈ s.log ∧ Ev.cancelled 1 ∈ s.log ∧ Ev.destroyed 1 (some 78) ∈ s.log ∧ Ev.refused ∈ s.log ∧
    Ev.performed 2 5 7 true 1 none (-5) ∈ s.log ∧ Ev.destroyed 2 none ∈ s.log ∧ (∀ p ∈ [0, 1, 2], Ev.over p ∈ s.log) ∧
    (∀ o ∈ [Obj.remote 0, .request 1, .request 2, .client 3, .request 4, .reply 5],
      s.log.count (.unref o) = s.log.count (.ref o) ∧ Ev.made o ∈ s.log) := by
  have h : (run {} script).map (fun s => decide (
    Ev.called 0 3 5 2 ⟨15, false, true, true, 77⟩ ∈ s.log ∧ Ev.performed 0 5 15 false 2 (some 5) 0 ∈ s.log ∧ Ev.told 0 3 (some 5) 0 77 ∈ s.log ∧
    Ev.destroyed 0 (some 77) ∈ s.log ∧ Ev.cancelled 1 ∈ s.log ∧ Ev.destroyed 1 (some 78) ∈ s.log ∧ Ev.refused ∈ s.log ∧
    Ev.performed 2 5 7 true 1 none (-5) ∈ s.log ∧ Ev.destroyed 2 none ∈ s.log ∧ (∀ p ∈ [0, 1, 2], Ev.over p ∈ s.log) ∧
    (∀ o ∈ [Obj.remote 0, .request 1, .request 2, .client 3, .request 4, .reply 5],
      s.log.count (.unref o) = s.log.count (.ref o) ∧ Ev.made o ∈ s.log))) = some true := by decide +kernel
  obtain ⟨s, hs, hd⟩ := Option.map_eq_some_iff.1 h
  exact ⟨s, run_reach .init (by decide) hs, of_decide_eq_true hd⟩

/-- The application has nothing but the calls aren't over; and it has the reply when they are. -/
example : (∃ s, Reach step {} s ∧ Ev.called 0 3 5 2 ⟨15, false, true, true, 77⟩ ∈ s.log ∧ (∀ d ∈ [none, some 77], Ev.destroyed 0 d ∉ s.log) ∧
      Ev.performed 0 5 15 false 2 (some 5) 0 ∈ s.log ∧ s.log.count (.unref (.client 3)) = s.log.count (.ref (.client 3)) ∧ Ev.over 0 ∉ s.log) ∧
    ∃ s, Reach step {} s ∧ (∀ p ∈ [0, 1, 2], Ev.over p ∈ s.log) ∧ s.log.count (.unref (.reply 5)) < s.log.count (.ref (.reply 5)) := by
  constructor
  · have h : (run {} (script.take 14)).map (fun s => decide (Ev.called 0 3 5 2 ⟨15, false, true, true, 77⟩ ∈ s.log ∧
      (∀ d ∈ [none, some 77], Ev.destroyed 0 d ∉ s.log) ∧
      Ev.performed 0 5 15 false 2 (some 5) 0 ∈ s.log ∧ s.log.count (.unref (.client 3)) = s.log.count (.ref (.client 3)) ∧ Ev.over 0 ∉ s.log)) = some true := by
      decide +kernel
    obtain ⟨s, hs, hd⟩ := Option.map_eq_some_iff.1 h
    exact ⟨s, (run_reach .init (by decide) hs).reach, of_decide_eq_true hd⟩
  · have h : (run {} (script.take 31)).map (fun s => decide ((∀ p ∈ [0, 1, 2], Ev.over p ∈ s.log) ∧
      s.log.count (.unref (.reply 5)) < s.log.count (.ref (.reply 5)))) = some true := by decide +kernel
    obtain ⟨s, hs, hd⟩ := Option.map_eq_some_iff.1 h
    exact ⟨s, (run_reach .init (by decide) hs).reach, of_decide_eq_true hd⟩

/-- The object has died. -/
example : ∃ s, Reach step {} s ∧ Ev.died 0 ∈ s.log ∧ s.log.getLast? = some .refused := by
  have h : (run {} [.newRemote 5, .newClient (some 0) [], .die 0, .call (some 2) none ⟨1, false, true, true, 3⟩]).map (fun s =>
    decide (Ev.died 0 ∈ s.log ∧ s.log.getLast? = some .refused)) = some true := by decide +kernel
  obtain ⟨s, hs, hd⟩ := Option.map_eq_some_iff.1 h
  exact ⟨s, (run_reach .init (by decide) hs).reach, of_decide_eq_true hd⟩

/-- One which isn't over, and which hasn't been cancelled. -/
example : ∃ s, ReachIf step (fun _ l => ∀ p, l ≠ .flush p) {} s ∧ Ev.called 0 3 5 2 ⟨15, false, true, true, 77⟩ ∈ s.log ∧ Ev.over 0 ∉ s.log ∧
    Ev.cancelled 0 ∉ s.log := by
  have h : (run {} (script.take 14)).map (fun s => decide (Ev.called 0 3 5 2 ⟨15, false, true, true, 77⟩ ∈ s.log ∧ Ev.over 0 ∉ s.log ∧
    Ev.cancelled 0 ∉ s.log)) = some true := by decide +kernel
  obtain ⟨s, hs, hd⟩ := Option.map_eq_some_iff.1 h
  exact ⟨s, run_reach .init (by decide) hs, of_decide_eq_true hd⟩

end Gb.C70
