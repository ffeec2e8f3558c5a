import Verif.Lemmas.LooperTx
/-
Helper lemmas: the looper gets the reply.
-/
set_option autoImplicit false

namespace Gb.LooperTx

theorem fine_ok {s s' : State} {l : Label} (h : Fine s l) (hs : step s l = .ok s') :
    Inv s' ∧ (G s → (l = .begin → Patient s) → G s') := by
  rcases h with h | ⟨s'', h, h1, h2⟩
  · rw [h] at hs; cases hs
  · rw [h] at hs; cases hs; exact ⟨h1, h2⟩

theorem inv_reach {s : State} (h : Reach step {} s) : Inv s :=
  Reach.invariant inv_init (fun s l _ hi hs => (fine_ok (fine (s := s) hi l) hs).1) h

/-- The executions in which a looper doesn't handle anything after it has given up. -/
abbrev Sane (s : State) (l : Label) : Prop := l = .begin → Patient s

theorem g_reach {s : State} (h : ReachIf step Sane {} s) : Inv s ∧ G s := by
  induction h with
  | init => exact ⟨inv_init, g_init⟩
  | step l _ hok hs ih =>
    have := fine_ok (fine ih.1 l) hs
    exact ⟨this.1, this.2 ih.2 hok⟩

/-- How far the main thread is from being done with it. -/
def Cb.rank : Cb → Nat
  | .pending => 6
  | .running => 5
  | .dropReq => 4
  | .dropTx => 4
  | .write _ => 3
  | .fin => 2
  | .done => 0

def St.waits : St → Nat
  | .blocking | .blocked => 2
  | _ => 0

def rank (c : Call) : Nat :=
  10 * c.cb.rank + c.cmp.toNat + (match c.tx with | some tx => tx.st.waits | none => 0)

theorem waits_le (c : Call) : (match c.tx with | some tx => tx.st.waits | none => 0) ≤ 2 := by
  cases c.tx with
  | none => simp
  | some tx => cases hs : tx.st <;> simp [hs, St.waits]

theorem toNat_le (b : Bool) : b.toNat ≤ 1 := by cases b <;> simp

theorem rank_cb {c c' : Call} (h : c'.cb.rank < c.cb.rank) : rank c' < rank c := by
  simp only [rank]
  have := waits_le c'
  have := toNat_le c'.cmp
  omega

theorem apply_ok {s s' : State} {t : Nat} {f : Option (Call × List Eff)} {evs : List Ev}
    (h : apply s t f evs = .ok s') :
    ∃ c' e, f = some (c', e) ∧ s'.call t = c' ∧ s'.phase = s.phase ∧ s'.log = s.log ++ evs := by
  simp only [apply] at h
  split at h
  · cases h
  · rename_i c' e
    split at h
    · cases h
    · cases h
      exact ⟨c', e, rfl, upd_same .., rfl, rfl⟩

theorem complete_keeps {c c' : Call} {v : Val} {e : List Eff} (h : c.complete v = some (c', e)) :
    c'.cb = c.cb ∧ c'.held = c.held := by
  simp only [Call.complete] at h
  (repeat' split at h) <;> first | cases h | skip
  all_goals exact ⟨rfl, rfl⟩

theorem reqUnref_keeps {c c' : Call} {e : List Eff} (h : c.reqUnref = some (c', e)) :
    c'.cb = c.cb ∧ c'.held = c.held ∧ (c.tx = none → c'.tx = none) := by
  simp only [Call.reqUnref] at h
  split at h
  · cases h
  split at h
  · cases h
  · split at h
    · have h1 := complete_keeps h
      refine ⟨h1.1, h1.2, fun hx => ?_⟩
      simp only [Call.complete, hx] at h
      split at h <;> cases h
    · cases h; exact ⟨rfl, rfl, id⟩
  · cases h; exact ⟨rfl, rfl, id⟩

theorem txUnref_keeps {c c' : Call} {d d' : Bool} {e : List Eff} (h : c.txUnref d = some (c', e, d')) :
    c'.cb = c.cb ∧ c'.held = c.held ∧ (c'.tx = none ∨ ∃ tx n, c.tx = some tx ∧ c'.tx = some { tx with refs := n }) := by
  simp only [Call.txUnref] at h
  split at h
  · cases h
  rename_i tx htx
  split at h
  · cases h
  · split at h
    · split at h
      · cases h
      · rename_i c1 e1 h'
        cases h
        have := reqUnref_keeps h'
        exact ⟨this.1, this.2.1, .inl (this.2.2 rfl)⟩
    · cases h; exact ⟨rfl, rfl, .inl rfl⟩
  · rename_i n _
    cases h; exact ⟨rfl, rfl, .inr ⟨tx, n + 1, htx, rfl⟩⟩

theorem tail_keeps {c c' : Call} {e : List Eff} (h : c.tail = some (c', e)) :
    c'.cb.rank < c.cb.rank ∧ c'.held = c.held := by
  simp only [Call.tail] at h
  split at h
  · rename_i hc
    rw [hc]
    (repeat' split at h) <;> first | (cases h; done) | skip
    · have := reqUnref_keeps h
      exact ⟨by rw [this.1]; simp [Cb.rank], this.2.1⟩
    · cases h; exact ⟨by simp [Cb.rank], rfl⟩
  · rename_i hc
    rw [hc]
    (repeat' split at h) <;> first | (cases h; done) | skip
    · rename_i h'
      cases h
      have := txUnref_keeps h'
      exact ⟨by simp [Cb.rank], this.2.1⟩
    · cases h; exact ⟨by simp [Cb.rank], rfl⟩
  · rename_i hc
    rw [hc]
    split at h
    · cases h
    · cases h; exact ⟨by simp [Cb.rank], rfl⟩
  · rename_i hc
    rw [hc]
    split at h
    · cases h
    · rename_i h'
      cases h
      have := txUnref_keeps h'
      exact ⟨by rw [this.1]; simp [Cb.rank], this.2.1⟩
  · cases h

theorem drop_keeps {l : Lp} {c c' : Call} {e : List Eff} (hl : l.tx = 1) (hok : Ok l c') (hcmp : c.cmp = true)
    (h : c.drop = some (c', e)) : rank c' < rank c ∧ c'.held = c.held ∧ c'.cb = c.cb := by
  simp only [Call.drop] at h
  split at h
  · cases h
  split at h
  · cases h
  rename_i c1 e1 d1 h1
  cases h
  have hk := txUnref_keeps h1
  refine ⟨?_, hk.2.1, hk.1⟩
  rcases hk.2.2 with hx | ⟨tx, n, h2, h3⟩
  · have := (hok.tx0 hx).1
    omega
  · simp [rank, hcmp, h2, h3, hk.1]

theorem no_of_apply {s : State} {t : Nat} {f : Option (Call × List Eff)} {evs : List Ev} :
    apply s t f evs ≠ .no := by
  simp only [apply]
  split
  · simp
  · split <;> simp

/-- The main thread does something about it. -/
theorem advance {s : State} {t : Nat} (hi : Inv s) (hg : G s)
    (hl : lp s.phase t = .wait ∨ lp s.phase t = .wait2) (hb : work t s.log = .blocked → 0 < (s.call t).held)
    (hr : rank (s.call t) ≠ 0) :
    ∃ l s', step s l = .ok s' ∧ l ≠ .begin ∧ s'.phase = s.phase ∧ rank (s'.call t) < rank (s.call t) ∧
      (work t s'.log = .blocked → 0 < (s'.call t).held) ∧ ∀ u, Ev.giveUp u ∈ s'.log → Ev.giveUp u ∈ s.log := by
  have hlt : (lp s.phase t).tx = 1 := by rcases hl with h | h <;> rw [h] <;> rfl
  have key : ∀ {l : Label} {f : Option (Call × List Eff)} {evs : List Ev}, step s l = apply s t f evs →
      ∃ s' c' e, step s l = .ok s' ∧ f = some (c', e) ∧ s'.call t = c' ∧ s'.phase = s.phase ∧
        s'.log = s.log ++ evs ∧ Inv s' ∧ (l ≠ .begin → G s') := by
    intro l f evs hst
    rcases fine hi l with h | ⟨s', h, h1, h2⟩
    · rw [hst] at h; exact absurd h no_of_apply
    · have h' := h
      rw [hst] at h'
      obtain ⟨c', e, a, b, c, d⟩ := apply_ok h'
      exact ⟨s', c', e, h, a, b, c, d, h1, fun hne => h2 hg (fun hx => absurd hx hne)⟩
  have hwork : ∀ {s' : State}, G s' → s'.phase = s.phase → work t s'.log = works (s'.call t) := by
    intro s' hg' hp
    obtain ⟨_, _, _, _, h⟩ := hg'.good t (by rw [hp]; exact hlt)
    rw [hp] at h
    apply h.work
    rcases hl with h | h
    · exact .inl h
    · exact .inr (.inl h)
  have hw := hwork hg rfl
  have hok := hi.ok t
  by_cases hcmp : (s.call t).cmp = true
  · -- gbinder_remote_request_complete has to return
    obtain ⟨s', c', e, h1, h2, h3, h4, h5, h6, h7⟩ := key (l := .drop t) (f := (s.call t).drop) (evs := [])
      (by simp only [step, hcmp, if_true])
    have hok' := h6.ok t
    rw [h3, h4] at hok'
    have hd := drop_keeps hlt hok' hcmp h2
    refine ⟨.drop t, s', h1, by simp, h4, by rw [h3]; exact hd.1, ?_, ?_⟩
    · rw [h5, List.append_nil, h3, hd.2.1]; exact hb
    · rw [h5]; simp
  simp only [Bool.not_eq_true] at hcmp
  have hst := hok.stage
  cases hcb : (s.call t).cb with
  | pending =>
    obtain ⟨s', c', e, h1, h2, h3, h4, h5, h6, h7⟩ := key (l := .handle t) (f := (s.call t).handle)
      (evs := [.handle t]) (by simp only [step, hcb, if_true])
    have hcb' : c'.cb = .running := by
      simp only [Call.handle] at h2
      split at h2
      · cases h2; rfl
      · cases h2
    refine ⟨.handle t, s', h1, by simp, h4, by rw [h3]; exact rank_cb (by rw [hcb', hcb]; simp [Cb.rank]), ?_, ?_⟩
    · intro hx
      have hp : work t s.log = .scheduled := by
        rw [hw]
        simp only [Stage, hcb] at hst
        obtain ⟨tx, htx, _⟩ := hst
        simp [works, htx, hcb]
      rw [h5, work_append, hp] at hx
      simp [Work.next] at hx
    · rw [h5]; simp
  | running =>
    simp only [Stage, hcb] at hst
    obtain ⟨tx, htx, hhr, hst⟩ := hst
    by_cases hbl : tx.st = .blocking
    · obtain ⟨s', c', e, h1, h2, h3, h4, h5, h6, h7⟩ := key (l := .complete t (none, 0))
        (f := (s.call t).complete (none, 0)) (evs := [.complete t (none, 0)])
        (by simp only [step, hcb, hcmp, true_or, and_self, if_true])
      have hrt : reqTx (s.call t).req = true := by
        rcases hst with h | h | h
        · rw [hbl] at h; cases h
        · exact h.2.1
        · rw [hbl] at h; cases h
      have hc' : rank c' < rank (s.call t) := by
        cases hreq : (s.call t).req with
        | none => rw [hreq] at hrt; simp [reqTx] at hrt
        | some r =>
          rw [hreq] at hrt
          simp [reqTx] at hrt
          simp only [Call.complete, hreq, hrt, if_true, htx, hbl, Option.some.injEq] at h2
          cases h2
          simp [rank, htx, hbl, hcmp, St.waits]
      refine ⟨.complete t (none, 0), s', h1, by simp, h4, by rw [h3]; exact hc', ?_, ?_⟩
      · intro hx
        have hp : work t s.log = .blocking := by
          rw [hw]; simp [works, htx, hcb, hbl]
        rw [h5, work_append, hp] at hx
        simp [Work.next] at hx
      · rw [h5]; simp
    · obtain ⟨s', c', e, h1, h2, h3, h4, h5, h6, h7⟩ := key (l := .ret t (none, 0))
        (f := (s.call t).ret (none, 0)) (evs := [.ret t (none, 0)])
        (by simp only [step, hcb, hcmp, and_self, if_true])
      have hcb' : c'.cb.rank < 5 := by
        simp only [Call.ret, htx] at h2
        split at h2 <;> cases h2 <;> simp [Cb.rank]
      refine ⟨.ret t (none, 0), s', h1, by simp, h4, by rw [h3]; exact rank_cb (by rw [hcb]; simpa [Cb.rank] using hcb'), ?_, ?_⟩
      · intro hx
        have hp : work t s.log ≠ .blocking ∧ work t s.log ≠ .blocked := by
          rw [hw]
          simp only [works, htx, hcb]
          split <;> simp_all
          split <;> simp
        rw [h5, work_append] at hx
        exfalso
        generalize work t s.log = w at hp hx
        cases w <;> simp [Work.next] at hx hp
      · rw [h5]; simp
  | dropReq | dropTx | write b | fin =>
    obtain ⟨s', c', e, h1, h2, h3, h4, h5, h6, h7⟩ := key (l := .tail t) (f := (s.call t).tail) (evs := [])
      (by simp only [step, hcb])
    have hk := tail_keeps h2
    refine ⟨.tail t, s', h1, by simp, h4, by rw [h3]; exact rank_cb hk.1, ?_, ?_⟩
    · rw [h5, List.append_nil, h3, hk.2]; exact hb
    · rw [h5]; simp
  | done =>
    cases htx : (s.call t).tx with
    | none => have := (hok.tx0 htx).1; omega
    | some tx =>
      have hst : tx.st = .blocked := by
        simp only [Stage, hcb] at hst
        rcases hst tx htx with h | h | h
        · exfalso; apply hr; simp [rank, hcb, hcmp, htx, h, St.waits, Cb.rank]
        · exact h.2.1
        · exfalso; apply hr; simp [rank, hcb, hcmp, htx, h, St.waits, Cb.rank]
      have hp : work t s.log = .blocked := by
        rw [hw]; simp [works, htx, hcb, hst]
      have hheld := hb hp
      obtain ⟨s', c', e, h1, h2, h3, h4, h5, h6, h7⟩ := key (l := .complete t (none, 0))
        (f := (s.call t).complete (none, 0)) (evs := [.complete t (none, 0)])
        (by simp only [step, hcb, hcmp, hheld, and_self, or_true, if_true])
      have hrt : reqTx (s.call t).req = true := by
        have := hok.stage
        simp only [Stage, hcb] at this
        rcases this tx htx with h | h | h
        · rw [hst] at h; simp at h
        · exact h.2.2.1
        · rw [hst] at h; simp at h
      have hc' : rank c' < rank (s.call t) := by
        cases hreq : (s.call t).req with
        | none => rw [hreq] at hrt; simp [reqTx] at hrt
        | some r =>
          rw [hreq] at hrt
          simp [reqTx] at hrt
          simp only [Call.complete, hreq, hrt, if_true, htx, hst, Option.some.injEq] at h2
          cases h2
          simp [rank, htx, hst, hcmp, St.waits]
      refine ⟨.complete t (none, 0), s', h1, by simp, h4, by rw [h3]; exact hc', ?_, ?_⟩
      · intro hx
        rw [h5, work_append, hp] at hx
        simp [Work.next] at hx
      · rw [h5]; simp

/-- The looper takes the reply. -/
theorem deliver {s : State} {t : Nat} (hi : Inv s) (hg : G s)
    (hl : lp s.phase t = .wait ∨ lp s.phase t = .wait2) (hcb : (s.call t).cb = .done)
    {v : Val} (hw : work t s.log = .ready v) :
    ∃ ls s', exec step s ls = .ok s' ∧ (∀ l ∈ ls, l ∈ [Label.read, .take, .destroy, .answer]) ∧
      s'.log = s.log ++ [.answer t v] := by
  have hlt : (lp s.phase t).tx = 1 := by rcases hl with h | h <;> rw [h] <;> rfl
  obtain ⟨p, b, h1, h2, h3⟩ := hg.good t hlt
  have hww := h3.work (by rcases hl with h | h <;> simp [h])
  rw [hw] at hww
  cases htx : (s.call t).tx with
  | none => simp [works, htx] at hww
  | some tx =>
    have hst := (hi.ok t).stage
    simp only [Stage, hcb] at hst
    have hst := hst tx htx
    have hcomp : tx.st = .complete ∧ tx.val = v := by
      simp only [works, htx, hcb] at hww
      split at hww
      · cases hww
      · rename_i hne
        cases hww
        rcases hst with h | h | h
        · exact ⟨h.2.1, rfl⟩
        · exact absurd h.2.1 hne
        · exact ⟨h.2.1, rfl⟩
    have hpipe : tx.pipe = p := by simpa [htx] using h1
    -- The last steps
    have fin : ∀ s1 : State, Inv s1 → s1.phase = .got t true → s1.call = s.call → s1.log = s.log →
        ∃ s', exec step s1 [.take, .destroy, .answer] = .ok s' ∧ s'.log = s.log ++ [.answer t v] := by
      intro s1 hi1 hph hc hlog
      have hok := hi1.ok t
      have hlp : lp s1.phase t = .got true := by simp [hph, lp]
      rw [hlp] at hok
      obtain ⟨tx', c', d, htx', hu, hok', hd⟩ := ok_take hok
      have ht : step s1 .take = .ok { s1 with
          call := upd s1.call t c', txfd := if d then s1.txfd else none
          phase := .destroy t tx'.val } := by
        simp only [step, hph, htx', hu, effects, if_true]
      have htx2 : tx' = tx := by rw [hc, htx] at htx'; cases htx'; rfl
      subst htx2
      have hi2 := (fine_ok (fine hi1 .take) ht).1
      have hcb' : c'.cb ≠ .pending := by
        rw [(txUnref_keeps hu).1, hc, hcb]; simp
      generalize hs2 : ({ s1 with
          call := upd s1.call t c', txfd := if d then s1.txfd else none
          phase := .destroy t tx'.val } : State) = s2 at ht hi2
      have hph2 : s2.phase = .destroy t tx'.val := by rw [← hs2]
      have hcall2 : (s2.call t).cb ≠ .pending := by rw [← hs2]; simp only; rw [upd_same]; exact hcb'
      have hlog2 : s2.log = s.log := by rw [← hs2]; exact hlog
      have hd2 : step s2 .destroy = .ok { s2 with phase := .reply t tx'.val } := by
        simp only [step, hph2, hcall2, if_false]
      have hi3 := (fine_ok (fine hi2 .destroy) hd2).1
      rcases fine hi3 .answer with h | ⟨s', h, _, _⟩
      · simp only [step] at h
        split at h
        · cases h
        · rename_i h'; exact absurd h' no_of_apply
        · cases h
      · refine ⟨s', ?_, ?_⟩
        · simp only [exec, ht, hd2, h]
        · simp only [step] at h
          split at h
          · rename_i s3 h'
            cases h
            obtain ⟨_, _, _, _, _, hl⟩ := apply_ok h'
            simp only at hl ⊢
            rw [hl, hlog2, hcomp.2]
          · cases h
          · cases h
    have rd : ∀ s1 : State, step s .read = .ok s1 → Inv s1 := fun s1 h => (fine_ok (fine hi .read) h).1
    rcases hl with hl | hl
    · have hph : s.phase = .wait t := by
        generalize s.phase = ph at hl
        cases ph <;> simp only [lp] at hl <;> (try split at hl) <;> simp_all
      have hwr := h3.wait hl
      simp only [written, hcb, htx] at hwr
      by_cases hr : tx.hasReq = true
      · simp only [hr, if_true] at hwr
        subst hwr
        have ht : step s .read = .ok { s with pipes := upd s.pipes p (some []), phase := .got t true } := by
          simp only [step, hph, htx, hpipe, h2, if_true]
        obtain ⟨s', he, hlog⟩ := fin _ (rd _ ht) rfl rfl rfl
        exact ⟨[.read, .take, .destroy, .answer], s', by rw [exec, ht]; exact he, by simp, hlog⟩
      · have hnb : tx.st ≠ .blocked := by rw [hcomp.1]; simp
        simp only [hr, if_false, hnb] at hwr
        subst hwr
        have ht : step s .read = .ok { s with pipes := upd s.pipes p (some [true]), phase := .wait2 t } := by
          simp [step, hph, htx, hpipe, h2]
        have ht2 : step { s with pipes := upd s.pipes p (some [true]), phase := .wait2 t } .read =
            .ok { s with pipes := upd (upd s.pipes p (some [true])) p (some []), phase := .got t true } := by
          simp only [step, htx, hpipe, upd_same]
        obtain ⟨s', he, hlog⟩ := fin _ (fine_ok (fine (rd _ ht) .read) ht2).1 rfl rfl rfl
        exact ⟨[.read, .read, .take, .destroy, .answer], s', by rw [exec, ht]; simp only; rw [exec, ht2]; exact he, by simp, hlog⟩
    · have hph : s.phase = .wait2 t := by
        generalize s.phase = ph at hl
        cases ph <;> simp only [lp] at hl <;> (try split at hl) <;> simp_all
      have hwr := h3.wait2 hl
      simp only [written, hcb, htx] at hwr
      have hnb : tx.st ≠ .blocked := by rw [hcomp.1]; simp
      simp only [hnb, if_false] at hwr
      split at hwr
      · simp at hwr
      · simp at hwr
        subst hwr
        have ht : step s .read = .ok { s with pipes := upd s.pipes p (some []), phase := .got t true } := by
          simp only [step, hph, htx, hpipe, h2]
        obtain ⟨s', he, hlog⟩ := fin _ (rd _ ht) rfl rfl rfl
        exact ⟨[.read, .take, .destroy, .answer], s', by rw [exec, ht]; exact he, by simp, hlog⟩

/-- There's always a way to complete it. -/
theorem settle {t : Nat} : ∀ (n : Nat) (s : State), Inv s → G s → rank (s.call t) = n →
    (lp s.phase t = .wait ∨ lp s.phase t = .wait2) → (work t s.log = .blocked → 0 < (s.call t).held) →
    ∃ ls s', exec step s ls = .ok s' ∧ (∀ l ∈ ls, l ≠ .giveUp) ∧ ∃ v a, s'.log = a ++ [.answer t v] := by
  intro n
  induction n using Nat.strongRecOn with
  | ind n ih =>
    intro s hi hg hn hl hb
    by_cases hr : rank (s.call t) = 0
    · have hlt : (lp s.phase t).tx = 1 := by rcases hl with h | h <;> rw [h] <;> rfl
      have hcb : (s.call t).cb = .done := by
        simp only [rank] at hr
        cases hc : (s.call t).cb <;> simp [hc, Cb.rank] at hr <;> first | rfl | omega
      obtain ⟨p, b, h1, h2, h3⟩ := hg.good t hlt
      have hww := h3.work (by rcases hl with h | h <;> simp [h])
      cases htx : (s.call t).tx with
      | none => simp [htx] at h1
      | some tx =>
        have hst : tx.st ≠ .blocked := by
          intro hx; simp [rank, htx, hx, St.waits] at hr
        have hw : work t s.log = .ready tx.val := by
          rw [hww]; simp [works, htx, hcb, hst]
        obtain ⟨ls, s', he, hm, hlog⟩ := deliver hi hg hl hcb hw
        refine ⟨ls, s', he, ?_, tx.val, s.log, hlog⟩
        intro l hx h; subst h
        have := hm _ hx
        simp at this
    · obtain ⟨l, s1, h1, h2, h3, h4, h5, h6⟩ := advance hi hg hl hb hr
      have hf := fine_ok (fine hi l) h1
      obtain ⟨ls, s', he, hm, hv⟩ := ih _ (by omega) s1 hf.1 (hf.2 hg (fun hx => absurd hx h2)) rfl (by rw [h3]; exact hl) h5
      refine ⟨l :: ls, s', by simp only [exec, h1]; exact he, ?_, hv⟩
      intro l' hx h
      rcases List.mem_cons.1 hx with hx | hx
      · subst hx
        subst h
        simp only [step] at h1
        have : s1.phase = .got t false ∨ True := .inr trivial
        split at h1
        · cases h1; rename_i hp; rw [hp] at h3; simp at h3
        · cases h1; rename_i hp; rw [hp] at h3; simp at h3
        · cases h1
      · exact hm l' hx h

end Gb.LooperTx
