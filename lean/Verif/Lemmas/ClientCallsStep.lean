import Verif.Lemmas.ClientCalls
/-
All steps preserve the invariant.
-/
set_option autoImplicit false

namespace Gb.ClientCalls

open Async (Before After Facts)
open Buffers (total total_congr le_total)
open Proxy (total_upd_of total_new)

def Fine (o : Out State) : Prop := o ≠ .ub ∧ ∀ s', o = .ok s' → Inv s'

theorem Fine.ok {s : State} (h : Inv s) : Fine (.ok s) := ⟨by simp, fun _ e => by cases e; exact h⟩
theorem Fine.no : Fine .no := ⟨by simp, fun _ e => by cases e⟩

theorem Inv.lent {s : State} (h : Inv s) {o : Obj} (ho : s.lent o = true) : 0 < s.refs o := by
  simp only [State.lent, List.any_eq_true] at ho
  obtain ⟨p, hp, hc⟩ := ho
  obtain ⟨t, ht⟩ := h.facts.alive (.inr (.inr hp))
  obtain ⟨c, h1, h2⟩ := (h.calls p).tx t ht
  rw [h1] at hc
  have hm : o ∈ c.holds := by
    simp only [Option.any_some, Bool.or_eq_true, decide_eq_true_eq, Option.any_eq_true] at hc
    rcases hc with e | ⟨r, e1, e2⟩
    · subst e; simp [Call.holds]
    · subst e2
      simp [Call.holds, h2, Call.inner, e1]
  have := h.refs.call h1 o
  have := List.count_pos_iff.2 hm
  omega

theorem Inv.has {s : State} (h : Inv s) {o : Obj} (ho : s.has o = true) : 0 < s.refs o := by
  simp only [State.has, Bool.or_eq_true, decide_eq_true_eq] at ho
  rcases ho with ho | ho
  · rw [h.refs.count]; omega
  · exact h.lent ho

theorem findRange_mem {l : List (Nat × Nat)} {code q : Nat} (h : findRange l code = some q) : ∃ c, (c, q) ∈ l := by
  induction l with
  | nil => cases h
  | cons r l ih =>
    simp only [findRange] at h
    split at h
    · cases h; exact ⟨r.1, by simp⟩
    · obtain ⟨c, hc⟩ := ih h; exact ⟨c, by simp [hc]⟩

theorem quiet_make (s : State) (o : Obj) : Quiet s (s.make o) := ⟨rfl, rfl, rfl, [.made o], rfl, by simp [Ev.plain]⟩
theorem quiet_give (s : State) (o : Obj) : Quiet s (s.give o) := ⟨rfl, rfl, rfl, [.ref o], rfl, by simp [Ev.plain]⟩

theorem makeAll_spec {l : List Nat} : ∀ {s : State} {x : List Obj}, Refs s x →
    Refs (s.makeAll ((ranges s.next l).map fun r => .request r.2)) ((ranges s.next l).map (fun r => Obj.request r.2) ++ x) ∧
    Quiet s (s.makeAll ((ranges s.next l).map fun r => .request r.2)) := by
  induction l with
  | nil => intro s x h; exact ⟨h, Quiet.refl s⟩
  | cons c l ih =>
    intro s x h
    have h1 := h.make (o := .request s.next) rfl (by simp)
    obtain ⟨h2, h3⟩ := ih h1
    refine ⟨?_, (quiet_make s _).trans h3⟩
    simp only [ranges, List.map_cons, State.makeAll]
    have hn : (s.make (.request s.next)).next = s.next + 1 := rfl
    rw [hn] at h2
    refine ⟨?_, h2.alive, h2.lt, h2.mark⟩
    intro o
    rw [h2.count o]
    simp only [List.count_append, List.count_cons, List.cons_append]
    omega

theorem new_client {s : State} (h : Inv s) {r : Nat} (hr : 0 < s.refs (.remote r)) (infos : List Nat) : Fine (newClient s r infos) := by
  obtain ⟨s1, e1, r1, d1⟩ := h.refs.take hr
  simp only [newClient, e1, Out.andThen]
  obtain ⟨r2, q2⟩ := makeAll_spec (l := codes infos) r1
  have q1 : Quiet s s1 := by subst d1; exact ⟨rfl, rfl, rfl, [], by simp, by simp⟩
  generalize hs2 : s1.makeAll ((ranges s1.next (codes infos)).map fun r => .request r.2) = s2 at *
  have r3 : Refs s2 ((Client.holds ⟨r, ranges s1.next (codes infos)⟩) ++ []) := by
    refine ⟨?_, r2.alive, r2.lt, r2.mark⟩
    intro o
    rw [r2.count o]
    simp [Client.holds]
  have r4 := r3.makeClient
  refine Fine.ok (h.quiet ?_ r4.give)
  refine (q1.trans q2).trans (Quiet.trans ?_ (quiet_give _ _))
  exact ⟨rfl, rfl, rfl, [.made (.client s2.next)], rfl, by simp [Ev.plain]⟩

theorem new_remote {s : State} (h : Inv s) (hd : Nat) :
    Inv (State.give { s.make (.remote s.next) with handle := upd s.handle s.next hd } (.remote s.next)) := by
  have r1 := h.refs.make (o := .remote s.next) rfl (by simp)
  have r2 : Refs { s.make (.remote s.next) with handle := upd s.handle s.next hd } [.remote s.next] :=
    r1.plain (evs := []) (by simp) (by simp) rfl rfl rfl rfl rfl rfl
  refine ⟨h.facts, fun p => ?_, r2.give⟩
  exact (h.calls p).other (evs := [.made (.remote s.next), .ref (.remote s.next)]) rfl rfl id (fun x _ => x) id id
    (by simp [State.give, State.make, State.see]) (by simp [Ev.who])

theorem do_call {s : State} (h : Inv s) {i : Nat} (hi : 0 < s.refs (.client i)) {req : Option Nat} (hq : ∀ q, req = some q → 0 < s.refs (.request q))
    (a : Args) : Fine (transact s i req a) := by
  obtain ⟨c, hc⟩ := h.refs.client (i := i) (by omega)
  simp only [transact, hc]
  have hrem : 0 < s.refs (.remote c.remote) := by
    have := h.refs.ofClient hc (.remote c.remote)
    have := List.count_pos_iff.2 (show Obj.remote c.remote ∈ c.holds by simp [Client.holds])
    omega
  rw [if_neg (by omega)]
  split
  · exact Fine.ok (h.plain rfl rfl)
  · split
    · exact Fine.ok (h.plain rfl rfl)
    · rename_i q hq'
      have hreq : 0 < s.refs (.request q) := by
        simp only [choose] at hq'
        split at hq'
        · cases hq'; exact hq _ rfl
        · obtain ⟨k, hk⟩ := findRange_mem hq'
          have := h.refs.ofClient hc (.request q)
          have := List.count_pos_iff.2 (show Obj.request q ∈ c.holds by simp [Client.holds]; exact ⟨k, hk⟩)
          omega
      split
      · exact Fine.no
      · rename_i hu
        exact absurd hu (h.facts.safe _)
      · rename_i tx hs
        obtain ⟨⟨id, htx⟩, hcalls, hb, ha, _⟩ := Async.submit_facts hs
        obtain ⟨s1, e1, r1, d1⟩ := h.refs.take hi
        have hreq1 : 0 < s1.refs (.request q) := by subst d1; simp only [set]; simpa using hreq
        obtain ⟨s2, e2, r2, d2⟩ := r1.take hreq1
        simp only [e1, e2, Out.andThen]
        have hs2 : s2 = { s with refs := s2.refs } := by subst d2; subst d1; rfl
        generalize s2.refs = R at hs2
        subst hs2
        refine Fine.ok ⟨h.facts.step hs, fun p => ?_, ?_⟩
        · by_cases hp : p = s.tx.calls
          · subst hp
            have hn := (h.calls s.tx.calls).new (Nat.le_refl _)
            constructor
            · intro (x : tx.calls ≤ s.tx.calls); omega
            · intro _ y
              simp only [State.see, upd_same] at y; cases y
            · intro c' x y
              simp only [State.see, upd_same] at x; cases x; cases y
            · intro c' x y
              simp only [State.see, upd_same] at x; cases x
              refine ⟨{ id }, none, false, ?_, ?_, fun _ => rfl, fun z => ?_, fun _ => ⟨rfl, rfl⟩, by simp⟩
              · show tx.txs _ = _
                rw [htx, upd_same]
              · show life s.tx.calls (s.log ++ [_]) = _
                rw [life_append, hn]
                simp [Life.next]
              · have z : After s.tx s.tx.calls := (ha _).1 z
                obtain ⟨t, ht⟩ := h.facts.alive (.inr (.inl z))
                rw [h.facts.tab.fresh _ (Nat.le_refl _)] at ht
                cases ht
            · intro t _
              exact ⟨_, upd_same _ _ _, rfl⟩
          · refine (h.calls p).other (evs := [.called s.tx.calls i (s.handle c.remote) q a]) ?_ ?_ ?_ ?_ ?_ (ha p).1 rfl ?_
            · exact upd_ne _ _ hp
            · show tx.txs p = _
              rw [htx, upd_ne _ _ hp]
            · intro (x : tx.calls ≤ p); omega
            · intro (x : p < tx.calls) _; omega
            · intro x
              rcases (hb p).1 x with x | x
              · exact x
              · exact absurd x hp
            · simp [Ev.who]
              exact fun e => hp e.symm
        · exact Refs.newCall (c := { client := i, handle := s.handle c.remote, req := q, args := a }) (x := []) r2 rfl rfl rfl rfl hcalls rfl
            (evs := [.called s.tx.calls i (s.handle c.remote) q a]) rfl (by simp [Ev.plain])

theorem do_executed {s : State} (h : Inv s) {p : Nat} {tx : Async.State} (hs : Async.step s.tx (.executed p) = .ok tx) {c : Call}
    (hc : s.calls p = some c) (r : Option Nat) (st : Int) {s1 : State} (q1 : Quiet s s1) (hn : s1.clients = s.clients)
    (hr : Refs s1 (r.toList.map .reply)) :
    Inv (State.see { s1 with tx := tx, calls := upd s1.calls p (some { c with reply := r, status := st }) }
      [.performed p c.handle c.args.code c.args.oneway c.req r st]) := by
  obtain ⟨hbp, htxs, hcalls, hb, ha, hf⟩ := Async.executed_facts h.facts hs
  obtain ⟨t, ht⟩ := h.facts.alive (.inl hbp)
  obtain ⟨c', h1, h2⟩ := (h.calls p).tx t ht
  rw [hc] at h1
  cases h1
  obtain ⟨t', res, told, h3, g⟩ := (h.calls p).live c hc h2
  rw [ht] at h3
  cases h3
  have hres := g.before hbp
  subst hres
  obtain ⟨hrep, htold⟩ := g.empty rfl
  subst htold
  have hlt := h.refs.lt p c hc
  obtain ⟨evs, he1, he2⟩ := q1.log
  have hlog1 : life p s1.log = life p s.log := by rw [he1]; exact life_other (plain_who he2 p) _
  refine ⟨h.facts.step hs, fun q => ?_, ?_⟩
  · by_cases hq : q = p
    · subst hq
      constructor
      · intro (x : tx.calls ≤ q); omega
      · intro _ y
        simp only [State.see, upd_same] at y; cases y
      · intro c' x y
        simp only [State.see, upd_same] at x; cases x
        rw [h2] at y; cases y
      · intro c' x y
        simp only [State.see, upd_same] at x; cases x
        refine ⟨t, some (r, st), false, ?_, ?_, fun z => ?_, fun _ => ⟨rfl, by simp⟩, by simp, ?_⟩
        · show tx.txs _ = _
          rw [htxs]; exact ht
        · show life q (s1.log ++ [_]) = _
          rw [life_append, hlog1, g.life]
          simp [Life.next]
        · exact absurd rfl ((hb q).1 z).2
        · intro r' st' e; cases e; exact ⟨rfl, rfl⟩
      · intro t' _
        exact ⟨_, upd_same _ _ _, h2⟩
    · refine (h.calls q).other (evs := evs ++ [.performed p c.handle c.args.code c.args.oneway c.req r st]) ?_ ?_ ?_ ?_ (fun x => ((hb q).1 x).1) ?_ ?_ ?_
      · show upd s1.calls p _ q = _
        rw [upd_ne _ _ hq, q1.calls]
      · show tx.txs q = _
        rw [htxs]
      · show tx.calls ≤ q → _
        rw [hcalls]; exact id
      · show q < tx.calls → _
        rw [hcalls]; exact fun x _ => x
      · intro x
        rcases (ha q).1 x with x | x
        · exact x
        · exact absurd x hq
      · show s1.log ++ _ = _
        rw [he1, List.append_assoc]
      · intro e he
        rcases List.mem_append.1 he with he | he
        · exact plain_who he2 q e he
        · simp only [List.mem_singleton] at he
          subst he
          simp [Ev.who]
          exact fun e => hq e.symm
  · refine hr.setCall (p := p) (v := some { c with reply := r, status := st }) (y := []) ?_ rfl rfl rfl rfl ?_ rfl
      (evs := [.performed p c.handle c.args.code c.args.oneway c.req r st]) rfl (by simp [Ev.plain]) ?_
    · rw [q1.tx]; exact hlt
    · show tx.calls = s1.tx.calls
      rw [q1.tx, hcalls]
    · intro o
      rw [q1.calls, hc]
      simp only [callRefs, Call.holds, h2, Call.inner, hrep]
      simp only [Bool.false_eq_true, if_false, List.count_append, List.count_cons, List.count_nil, Option.toList_none, List.map_nil]
      omega

theorem do_done {s : State} (h : Inv s) {p : Nat} {tx : Async.State} (hs : Async.step s.tx (.done p) = .ok tx) {c : Call}
    (hc : s.calls p = some c) {t : Async.Tx} (ht : s.tx.txs p = some t) (hcan : t.cancelled = false) (hfn : c.args.reply = true) :
    Inv (State.see { s with tx := tx } [.told p c.client c.reply c.status c.args.data]) := by
  obtain ⟨hap, htxs, hcalls, hb, ha, hf⟩ := Async.done_facts h.facts hs
  obtain ⟨c', h1, h2⟩ := (h.calls p).tx t ht
  rw [hc] at h1
  cases h1
  obtain ⟨t', res, told, h3, g⟩ := (h.calls p).live c hc h2
  rw [ht] at h3
  cases h3
  obtain ⟨htold, hres⟩ := g.after hap
  subst htold
  have hlt := h.refs.lt p c hc
  cases res with
  | none => exact absurd rfl (hres hcan)
  | some x =>
    obtain ⟨r, st⟩ := x
    obtain ⟨hr1, hr2⟩ := g.full r st rfl
    refine ⟨h.facts.step hs, fun q => ?_, h.refs.plain (evs := [.told p c.client c.reply c.status c.args.data]) rfl (by simp [Ev.plain]) rfl rfl rfl rfl hcalls rfl⟩
    by_cases hq : q = p
    · subst hq
      constructor
      · intro (x : tx.calls ≤ q); omega
      · intro _ (y : s.calls q = none); rw [hc] at y; cases y
      · intro c' (x : s.calls q = some c') y
        rw [hc] at x; cases x
        rw [h2] at y; cases y
      · intro c' (x : s.calls q = some c') y
        rw [hc] at x; cases x
        refine ⟨t, some (r, st), true, ?_, ?_, fun z => ?_, fun z => ?_, by simp, g.full⟩
        · show tx.txs _ = _
          rw [htxs]; exact ht
        · show life q (s.log ++ [_]) = _
          rw [life_append, g.life, hcan]
          simp [Life.next, hr1, hr2, hfn]
        · exact absurd (g.before ((hb q).1 z)) (by simp)
        · exact absurd rfl ((ha q).1 z).2
      · intro t' _
        exact ⟨c, hc, h2⟩
    · refine (h.calls q).other rfl ?_ ?_ ?_ (hb q).1 (fun x => ((ha q).1 x).1) (evs := [.told p c.client c.reply c.status c.args.data]) rfl ?_
      · show tx.txs q = _
        rw [htxs]
      · show tx.calls ≤ q → _
        rw [hcalls]; exact fun x => x
      · show q < tx.calls → _
        rw [hcalls]; exact fun x _ => x
      · simp [Ev.who]
        exact fun e => hq e.symm

theorem do_free {s : State} (h : Inv s) {p : Nat} {tx : Async.State} (hs : Async.step s.tx (.free p) = .ok tx) {c : Call}
    (hc : s.calls p = some c) : ∃ s1, s.dropAll c.inner = .ok s1 ∧
    Inv (State.see { s1 with tx := tx, calls := upd s1.calls p (some { c with over := true }) }
      [.destroyed p (if c.args.destroy then some c.args.data else none)]) := by
  obtain ⟨⟨t, ht⟩, hfin, htxs, hcalls, hb, ha, hf⟩ := Async.free_facts h.facts hs
  obtain ⟨c', h1, h2⟩ := (h.calls p).tx t ht
  rw [hc] at h1
  cases h1
  obtain ⟨t', res, told, h3, g⟩ := (h.calls p).live c hc h2
  have hlt := h.refs.lt p c hc
  -- the call doesn't have them any more
  have hr : Refs { s with calls := upd s.calls p (some { c with over := true }) } (c.inner ++ []) := by
    refine h.refs.setCall (p := p) (v := some { c with over := true }) (x := []) hlt rfl rfl rfl rfl rfl rfl (evs := []) (by simp) (by simp) ?_
    intro o
    rw [hc]
    simp [callRefs, Call.holds, h2, List.count_append]
    omega
  -- the order doesn't matter
  have hcomm : ∀ (l : List Obj) (s s1 : State) (f : Nat → Option Call), State.dropAll { s with calls := f } l = .ok s1 →
      ∃ s2, s.dropAll l = .ok s2 ∧ s1 = { s2 with calls := f } := by
    intro l
    induction l with
    | nil => intro s s1 f e; cases e; exact ⟨s, rfl, rfl⟩
    | cons o l ih =>
      intro s s1 f e
      simp only [State.dropAll, State.drop] at e ⊢
      split at e
      · cases e
      · split at e
        · rename_i e1 e2
          rw [if_neg e1, if_pos e2]
          exact ih _ _ f e
        · rename_i e1 e2
          rw [if_neg e1, if_neg e2]
          exact ih _ _ f e
  obtain ⟨s1, e1, r1, q1⟩ := hr.dropAll (by
    intro o ho i e
    subst e
    simp [Call.inner] at ho)
  obtain ⟨s2, e2, d2⟩ := hcomm _ _ _ _ e1
  refine ⟨s2, e2, ?_⟩
  have hs2c : s2.calls = s.calls := by
    have : ∀ (l : List Obj) (s s2 : State), s.dropAll l = .ok s2 → s2.calls = s.calls := by
      intro l
      induction l with
      | nil => intro s s2 e; cases e; rfl
      | cons o l ih =>
        intro s s2 e
        simp only [State.dropAll, State.drop] at e
        split at e
        · cases e
        · split at e
          · simp only [Out.andThen] at e
            have := ih _ _ e
            exact this
          · simp only [Out.andThen] at e
            have := ih _ _ e
            exact this
    exact this _ _ _ e2
  rw [hs2c]
  have htx2 : s2.tx = s.tx := by have := q1.tx; rw [d2] at this; exact this
  obtain ⟨evs, he1, he2⟩ := q1.log
  rw [d2] at he1
  replace he1 : s2.log = s.log ++ evs := he1
  have hlog1 : life p s2.log = life p s.log := by rw [he1]; exact life_other (plain_who he2 p) _
  refine ⟨h.facts.step hs, fun q => ?_, ?_⟩
  · by_cases hq : q = p
    · subst hq
      constructor
      · intro (x : tx.calls ≤ q); omega
      · intro _ y
        simp only [State.see, upd_same] at y; cases y
      · intro c' x y
        simp only [State.see, upd_same, Option.some.injEq] at x
        subst x
        refine ⟨?_, ?_⟩
        · show tx.txs q = none
          rw [htxs, upd_same]
        · show life q (s2.log ++ [_]) = _
          rw [life_append, hlog1, g.life]
          simp [Life.next]
      · intro c' x y
        simp only [State.see, upd_same] at x; cases x; cases y
      · intro t' (x : tx.txs q = some t')
        rw [htxs, upd_same] at x; cases x
    · refine (h.calls q).other (evs := evs ++ [.destroyed p (if c.args.destroy then some c.args.data else none)]) ?_ ?_ ?_ ?_ (hb q).1 (ha q).1 ?_ ?_
      · exact upd_ne _ _ hq
      · show tx.txs q = _
        rw [htxs, upd_ne _ _ hq]
      · show tx.calls ≤ q → _
        rw [hcalls]; exact id
      · show q < tx.calls → _
        rw [hcalls]; exact fun x _ => x
      · show s2.log ++ _ = _
        rw [he1, List.append_assoc]
      · intro e he
        rcases List.mem_append.1 he with he | he
        · exact plain_who he2 q e he
        · simp only [List.mem_singleton] at he
          subst he
          simp [Ev.who]
          exact fun e => hq e.symm
  · rw [d2] at r1
    refine r1.plain (evs := [.destroyed p (if c.args.destroy then some c.args.data else none)]) rfl (by simp [Ev.plain]) rfl rfl rfl rfl ?_ rfl
    show tx.calls = s2.tx.calls
    rw [htx2, hcalls]

theorem do_leave {s : State} (h : Inv s) {p : Nat} {c : Call} (hc : s.calls p = some c) (ho : c.over = true) :
    Fine (State.dropClient (State.see { s with calls := upd s.calls p none } [.over p]) c.client) := by
  have hlt := h.refs.lt p c hc
  have hr : Refs (State.see { s with calls := upd s.calls p none } [.over p]) [.client c.client] := by
    refine h.refs.setCall (p := p) (v := none) (x := []) hlt rfl rfl rfl rfl rfl rfl (evs := [.over p]) rfl (by simp [Ev.plain]) ?_
    intro o
    rw [hc]
    simp [callRefs, Call.holds, ho]
  obtain ⟨s1, e1, r1, q1⟩ := hr.dropClient
  rw [e1]
  refine Fine.ok ⟨by rw [q1.tx]; exact h.facts, fun q => CallOk.quiet ?_ q1, r1⟩
  by_cases hq : q = p
  · subst hq
    obtain ⟨h1, h2⟩ := (h.calls q).over c hc ho
    constructor
    · intro (x : s.tx.calls ≤ q); omega
    · intro _ _
      show life q (s.log ++ [.over q]) = _
      rw [life_append, h2]
      simp [Life.next]
    · intro c' x y
      simp only [State.see, upd_same] at x; cases x
    · intro c' x y
      simp only [State.see, upd_same] at x; cases x
    · intro t (x : s.tx.txs q = some t)
      rw [h1] at x; cases x
  · refine (h.calls q).other (evs := [.over p]) ?_ rfl id (fun x _ => x) id id rfl ?_
    · exact upd_ne _ _ hq
    · simp [Ev.who]
      exact fun e => hq e.symm

theorem step_inv {s : State} (h : Inv s) (l : Label) : Fine (step s l) := by
  cases l with
  | newRemote hd => exact Fine.ok (new_remote h hd)
  | die r =>
    simp only [step]
    split
    · exact Fine.no
    · refine Fine.ok ⟨h.facts, fun p => ?_, h.refs.plain (evs := [.died r]) rfl (by simp [Ev.plain]) rfl rfl rfl rfl rfl rfl⟩
      exact (h.calls p).other (evs := [.died r]) rfl rfl id (fun x _ => x) id id rfl (by simp [Ev.who])
  | newRequest =>
    exact Fine.ok (h.quiet ((quiet_make s _).trans (quiet_give _ _)) (h.refs.make (o := .request s.next) rfl (by simp)).give)
  | newClient r infos =>
    cases r with
    | none => exact Fine.ok h
    | some r =>
      simp only [step]
      split
      · rename_i hh
        simp only [Bool.and_eq_true] at hh
        exact new_client h (h.has hh.1) infos
      · exact Fine.no
  | ref o =>
    simp only [step]
    split
    · rename_i hh
      obtain ⟨s1, e1, r1, d1⟩ := h.refs.take (h.has hh)
      rw [e1]
      have q1 : Quiet s s1 := by subst d1; exact ⟨rfl, rfl, rfl, [], by simp, by simp⟩
      exact Fine.ok (h.quiet (q1.trans (quiet_give _ _)) r1.give)
    · exact Fine.no
  | unref o =>
    simp only [step]
    split
    · rename_i hh
      obtain ⟨s1, e1, r1, q1⟩ := (h.refs.ungive hh).dropAny
      rw [e1]
      have q0 : Quiet s (State.see { s with app := set s.app o (s.app o - 1) } [.unref o]) := ⟨rfl, rfl, rfl, [.unref o], rfl, by simp [Ev.plain]⟩
      exact Fine.ok (h.quiet (q0.trans q1) r1)
    · exact Fine.no
  | call i req a =>
    cases i with
    | none => exact Fine.ok (h.plain rfl rfl)
    | some i =>
      simp only [step]
      split
      · rename_i hh
        simp only [Bool.and_eq_true, Option.all_eq_true] at hh
        exact do_call h (h.has hh.1) (fun q hq => h.has (hh.2 q hq)) a
      · exact Fine.no
  | cancel i id =>
    simp only [step]
    split
    · rename_i hh
      have := h.has hh
      rw [if_neg (by omega)]
      split
      · exact Fine.no
      · rename_i hu; exact absurd hu (h.facts.safe _)
      · rename_i tx hs
        obtain ⟨hc, hf, hb, ha, hm⟩ := Async.cancel_facts h.facts hs
        split
        · rename_i x p hfind
          rw [hfind] at hm
          obtain ⟨t, ht, htx⟩ := hm
          exact Fine.ok (h.cancel hs hc hb ha ht htx)
        · rename_i hfind
          rw [hfind] at hm
          exact Fine.ok (h.moves hs hm hc (fun q => (hb q).1) (fun q x => .inl ((ha q).1 x)))
    · exact Fine.no
  | check p =>
    simp only [step]
    split
    · exact Fine.no
    · rename_i hu; exact absurd hu (h.facts.safe _)
    · rename_i tx hs
      obtain ⟨hbp, htx, hc, hf, ⟨⟨t, ht, htc⟩, hb, ha⟩ | ⟨hb, ha⟩⟩ := Async.check_facts h.facts hs
      · refine Fine.ok (h.moves hs htx hc (fun q x => ((hb q).1 x).1) (fun q x => ?_))
        rcases (ha q).1 x with x | x
        · exact .inl x
        · subst x; exact .inr ⟨hbp, t, ht, htc⟩
      · exact Fine.ok (h.moves hs htx hc (fun q => (hb q).1) (fun q x => .inl ((ha q).1 x)))
  | exec p =>
    simp only [step]
    split
    · exact Fine.no
    · rename_i hu; exact absurd hu (h.facts.safe _)
    · rename_i tx hs
      obtain ⟨hbp, htx, hc, hb, ha, hf⟩ := Async.exec_facts h.facts hs
      exact Fine.ok (h.moves hs htx hc (fun q => (hb q).1) (fun q x => .inl ((ha q).1 x)))
  | post p =>
    simp only [step]
    split
    · exact Fine.no
    · rename_i hu; exact absurd hu (h.facts.safe _)
    · rename_i tx hs
      obtain ⟨htx, hc, hf, hb, ha⟩ := Async.post_facts h.facts hs
      exact Fine.ok (h.moves hs htx hc (fun q => (hb q).1) (fun q x => .inl ((ha q).1 x)))
  | flush p =>
    simp only [step]
    split
    · exact Fine.no
    · rename_i hu; exact absurd hu (h.facts.safe _)
    · rename_i tx hs
      obtain ⟨_, htx, hc, hb, ha⟩ := Async.flush_facts h.facts hs
      exact Fine.ok (h.moves hs htx hc (fun q => (hb q).1) (fun q x => .inl ((ha q).1 x).1))
  | executed p reply status =>
    simp only [step]
    split
    · exact Fine.no
    · rename_i hu; exact absurd hu (h.facts.safe _)
    · rename_i tx hs
      obtain ⟨hbp, htx, hc, hb, ha, hf⟩ := Async.executed_facts h.facts hs
      obtain ⟨t, ht⟩ := h.facts.alive (.inl hbp)
      obtain ⟨c, h1, h2⟩ := (h.calls p).tx t ht
      simp only [h1]
      have hreq : 0 < s.refs (.request c.req) := by
        have := h.refs.call h1 (.request c.req)
        have := List.count_pos_iff.2 (show Obj.request c.req ∈ c.holds by simp [Call.holds, h2, Call.inner])
        omega
      rw [if_neg (by omega)]
      split
      · cases reply with
        | true => exact Fine.ok (do_executed h hs h1 (some s.next) status (quiet_make s _) rfl (h.refs.make (o := .reply s.next) rfl (by simp)))
        | false => exact Fine.ok (do_executed h hs h1 none status (Quiet.refl s) rfl h.refs)
      · exact Fine.no
  | done p =>
    simp only [step]
    split
    · exact Fine.no
    · rename_i hu; exact absurd hu (h.facts.safe _)
    · rename_i tx hs
      obtain ⟨hap, htxs, hcalls, hb, ha, hf⟩ := Async.done_facts h.facts hs
      obtain ⟨t, ht⟩ := h.facts.alive (.inr (.inl hap))
      obtain ⟨c, h1, h2⟩ := (h.calls p).tx t ht
      simp only [ht, h1]
      split
      · exact Fine.ok (h.moves hs htxs hcalls (fun q => (hb q).1) (fun q x => .inl ((ha q).1 x).1))
      · rename_i hcan
        simp only [Bool.or_eq_true, Bool.not_eq_true', not_or, Bool.not_eq_true, Bool.not_eq_false] at hcan
        split
        · rename_i hz
          simp only [List.any_eq_true, decide_eq_true_eq] at hz
          obtain ⟨o, ho, hz⟩ := hz
          have := h.refs.call h1 o
          have := List.count_pos_iff.2 ho
          omega
        · exact Fine.ok (do_done h hs h1 ht hcan.1 hcan.2)
  | free p =>
    simp only [step]
    split
    · exact Fine.no
    · rename_i hu; exact absurd hu (h.facts.safe _)
    · rename_i tx hs
      obtain ⟨⟨t, ht⟩, _⟩ := Async.free_facts h.facts hs
      obtain ⟨c, h1, h2⟩ := (h.calls p).tx t ht
      simp only [h1]
      obtain ⟨s1, e1, hi⟩ := do_free h hs h1
      rw [e1]
      exact Fine.ok hi
  | leave p =>
    simp only [step]
    split
    · exact Fine.no
    · rename_i c hc
      split
      · rename_i ho
        exact do_leave h hc ho
      · exact Fine.no

theorem reach_inv {s : State} (h : Reach step {} s) : Inv s :=
  Reach.invariant Inv.init (fun s l s' hi hs => (step_inv hi l).2 s' hs) h

end Gb.ClientCalls
