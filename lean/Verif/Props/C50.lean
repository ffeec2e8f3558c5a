import Verif.Lemmas.ProxyHold
import Verif.Props.C16
import Verif.Props.C18
/-
C50. Requests received by proxy objects.

Spec/Proxy.lean: `Ok` is what everybody has to obey, `life` is what may happen to a request.
-/
set_option autoImplicit false

namespace Gb.C50
open Proxy

theorem inv {s : State} (h : ReachIf step Ok {} s) : Inv [] [] [] s ∧ Ready s ∧ Good (view s) ∧ Facts (look s) := by
  induction h with
  | init => exact ⟨Inv.init, (fun _ _ h => nomatch h), Good.init, Facts.init⟩
  | @step s0 s1 l _ hok hs ih =>
    obtain ⟨i1, i2, i3, i4⟩ := ih
    refine ⟨?_, ?_, i3.step i1 hok hs, i4.step hs⟩
    · rcases i1.step i2 hok with ⟨s', hs', hi, hr⟩ | hn | ⟨rfl, p, hm, ho⟩
      · rw [hs] at hs'; cases hs'; exact hi
      · rw [hs] at hn; cases hn
      · simp [step, hm, ho] at hs
    · rcases i1.step i2 hok with ⟨s', hs', hi, hr⟩ | hn | ⟨rfl, p, hm, ho⟩
      · rw [hs] at hs'; cases hs'; exact hr
      · rw [hs] at hn; cases hn
      · simp [step, hm, ho] at hs

/-- C50, memory safety, except for gbinder_proxy_object.c:214-221: proxies, requests and remote objects which have been
freed aren't accessed. -/
theorem C50_safe_partial {s : State} (h : ReachIf step Ok {} s) {l : Label} (hok : Ok s l) (hl : l ≠ .suicide) :
    step s l ≠ .ub := by
  obtain ⟨i1, i2, _⟩ := inv h
  rcases i1.step i2 hok with ⟨s', hs', _⟩ | hn | ⟨rfl, _⟩
  · rw [hs']; simp
  · rw [hn]; simp
  · exact absurd rfl hl

theorem kept_reach {s : State} (h : ReachIf step OkKept {} s) : ReachIf step Ok {} s := by
  induction h with
  | init => exact .init
  | step l _ hok hs ih => exact .step l ih hok.1 hs

/-- Proxies are there as long as there are references. -/
theorem objUnref_some {s s' : State} {p p' : Nat} {m : Bool} {o : Proxy.Obj} (hs : s.objUnref p m = .ok s')
    (ho : s.obj p' = some o) (h : p' = p → 2 ≤ o.refs) : ∃ o', s'.obj p' = some o' := by
  obtain ⟨o1, ho1, _, _, ⟨h1, h2, _⟩ | ⟨h1, _, h2⟩⟩ := objUnref_spec hs
  · by_cases hp : p' = p
    · subst hp; rw [ho] at ho1; cases ho1; have := h rfl; omega
    · rw [h2, upd_ne _ _ hp]; exact ⟨o, ho⟩
  · by_cases hp : p' = p
    · subst hp; rw [h2, upd_same]; exact ⟨_, rfl⟩
    · rw [h2, upd_ne _ _ hp]; exact ⟨o, ho⟩

theorem dequeue_some {s s' : State} {t p : Nat} {x : Tx} {o : Proxy.Obj} (hs : s.dequeue t = .ok s') (hx : s.tx t = some x)
    (hp : x.proxy = some p) (ho : s.obj p = some o) (h : 2 ≤ o.refs) : ∃ o', s'.obj p = some o' := by
  simp only [State.dequeue, hx, hp, ho] at hs
  split at hs
  · exact objUnref_some hs (upd_same _ _ _) fun _ => h
  · cases hs

theorem kept_main {s : State} (h : ReachIf step OkKept {} s) : ∀ p, s.main = some p → ∃ o, s.obj p = some o := by
  induction h with
  | init => intro p h; cases h
  | @step s0 s1 l hr hok hs ih =>
    obtain ⟨i1, i2, _⟩ := inv (kept_reach hr)
    intro p hm
    have hk := hok.2
    cases l with
    | newRemote ipc handle => cases hs; exact ih p hm
    | refRemote rm => simp only [step] at hs; split at hs <;> cases hs; exact ih p hm
    | unrefRemote rm =>
      obtain ⟨hf, ho, _⟩ := remoteUnref_spec hs
      rw [ho]; exact ih p (by rw [← hf.main]; exact hm)
    | die rm => simp only [step] at hs; split at hs <;> cases hs; exact ih p hm
    | new ipc rm =>
      simp only [step, State.create] at hs
      split at hs <;> cases hs
      obtain ⟨o, ho⟩ := ih p hm
      have : p ≠ s0.no := by have := (i1.obj p o ho).1; omega
      exact ⟨o, by simp only [State.see, State.setRemote, State.setObj]; rw [upd_ne _ _ this]; exact ho⟩
    | find ipc rm p1 =>
      simp only [step] at hs
      split at hs
      · cases hs
      · split at hs
        · split at hs
          · cases hs
          · split at hs <;> cases hs
            obtain ⟨o, ho⟩ := ih p hm
            simp only [State.setObj, upd]
            split
            · exact ⟨_, rfl⟩
            · exact ⟨o, ho⟩
        · split at hs
          · cases hs
          · split at hs
            · cases hs; exact ih p hm
            · simp only [State.create] at hs
              split at hs <;> cases hs
              obtain ⟨o, ho⟩ := ih p hm
              have : p ≠ s0.no := by have := (i1.obj p o ho).1; omega
              exact ⟨o, by simp only [State.see, State.setRemote, State.setObj]; rw [upd_ne _ _ this]; exact ho⟩
    | ref p1 =>
      simp only [step] at hs
      split at hs <;> cases hs
      obtain ⟨o, ho⟩ := ih p hm
      simp only [State.setObj, upd]
      split
      · exact ⟨_, rfl⟩
      · exact ⟨o, ho⟩
    | unref p1 =>
      obtain ⟨_, _, hf, _⟩ := objUnref_spec hs
      have hm0 : s0.main = some p := by rw [← hf.main]; exact hm
      obtain ⟨o, ho⟩ := ih p hm0
      refine objUnref_some hs ho fun he => ?_
      subst he
      simpa [keptB, hm0, ho] using hk
    | acquire p1 =>
      simp only [step] at hs
      split at hs
      · cases hs
      · split at hs
        · cases hs
        · split at hs <;> cases hs
          · obtain ⟨o, ho⟩ := ih p hm
            simp only [State.see, State.setObj, upd]
            split
            · exact ⟨_, rfl⟩
            · exact ⟨o, ho⟩
          · exact ih p hm
    | drop p1 =>
      simp only [step] at hs
      split at hs
      · cases hs
      · rename_i o1 ho1
        obtain ⟨_, _, hf, _⟩ := objUnref_spec hs
        have hm0 : s0.main = some p := by have := hf.main; rw [this] at hm; exact hm
        obtain ⟨o, ho⟩ := ih p hm0
        by_cases hp : p = p1
        · subst hp
          refine objUnref_some hs (upd_same _ _ _) fun _ => ?_
          rw [ho] at ho1; cases ho1
          simpa [keptB, hm0, ho] using hk
        · exact objUnref_some hs (by simp only [State.see, State.setObj]; rw [upd_ne _ _ hp]; exact ho)
            fun he => absurd he hp
    | handle p1 looper code flags =>
      simp only [step] at hs
      split at hs
      · cases hs
      · rename_i hmain
        split at hs
        · cases hs
        · split at hs
          · cases hs
          · have hn : s0.main = none := Classical.not_not.1 hmain
            split at hs <;> cases hs <;> (have hm' : s0.main = some p := hm; rw [hn] at hm'; cases hm')
    | refReq r => simp only [step] at hs; split at hs <;> cases hs; exact ih p hm
    | unrefReq r =>
      obtain ⟨_, h2, h3⟩ := reqUnref_tx hs
      rw [h3]; exact ih p (by rw [← h2]; exact hm)
    | reply t rep st =>
      simp only [step] at hs
      split at hs
      · cases hs
      · rename_i hmain
        have hn : s0.main = none := Classical.not_not.1 hmain
        split at hs
        · cases hs
        · rename_i x hx
          split at hs
          · cases hs
          · rename_i p1 hp
            split at hs
            · cases hs
            · rename_i o ho
              have hx1 : ((s0.setTx t (some { x with replied := true })).see [.replied t rep st]).tx t =
                some { x with replied := true } := upd_same _ _ _
              cases hd : ((s0.setTx t (some { x with replied := true })).see [.replied t rep st]).dequeue t with
              | no => rw [hd] at hs; cases hs
              | ub => rw [hd] at hs; cases hs
              | ok s2 =>
                rw [hd] at hs
                simp only [Out.andThen] at hs
                cases hc : s2.complete x.req rep (if st > 0 then efault else st) with
                | no => rw [hc] at hs; cases hs
                | ub => rw [hc] at hs; cases hs
                | ok s3 =>
                  rw [hc] at hs
                  simp only [] at hs
                  cases hs
                  have hm3 : s3.main = none := by
                    rw [(complete_tx hc).2.1, (dequeue_tx hx1 hd).2.2.1]; exact hn
                  split at hm
                  · rename_i hst
                    have hm' : some p1 = some p := hm
                    cases hm'
                    rw [if_pos hst]
                    show ∃ o, s3.obj p = some o
                    rw [(complete_tx hc).2.2]
                    refine dequeue_some hd hx1 hp ho ?_
                    have hst' : st = 2 := hst
                    simpa [keptB, hst', hx, hp, ho] using hk
                  · rw [hm3] at hm; cases hm
    | suicide =>
      simp only [step] at hs
      split at hs
      · cases hs
      · split at hs
        · cases hs
        · split at hs <;> cases hs
          cases hm
    | destroy t =>
      simp only [step] at hs
      split at hs
      · cases hs
      · rename_i hmain
        have hn : s0.main = none := Classical.not_not.1 hmain
        split at hs
        · cases hs
        · rename_i x hx
          cases hd : s0.dequeue t with
          | no => rw [hd] at hs; cases hs
          | ub => rw [hd] at hs; cases hs
          | ok s2 =>
            rw [hd] at hs
            simp only [Out.andThen] at hs
            rw [(reqUnref_tx hs).2.1] at hm
            have : s2.main = some p := hm
            rw [(dequeue_tx hx hd).2.2.1, hn] at this
            cases this

/-- C50, memory safety: nothing that has been freed is accessed if somebody else has a reference to the proxy when the
remote object turns out to be dead (`OkKept`). -/
theorem C50_kept_partial {s : State} (h : ReachIf step OkKept {} s) {l : Label} (hok : OkKept s l) : step s l ≠ .ub := by
  obtain ⟨i1, i2, _⟩ := inv (kept_reach h)
  rcases i1.step i2 hok.1 with ⟨s', hs', _⟩ | hn | ⟨rfl, p, hm, ho⟩
  · rw [hs']; simp
  · rw [hn]; simp
  · obtain ⟨o, ho'⟩ := kept_main h p hm
    rw [ho] at ho'; cases ho'

/-- C50: requests are sent to the remote object, with the same code and flags, unless it's dead or the proxy has been
dropped. -/
theorem C50_forwarded {s : State} (h : ReachIf step Ok {} s) : Handled s.log := (inv h).2.2.2.handled

/-! ### The answer -/

/-- C50, requests received by loopers: what becomes of them is what may become of them, and they're either waiting for
the result, or have been answered. Requests received by the main thread while it's waiting for a reply are not
covered, see `C50_fails_nested`. -/
theorem C50_answer_partial {s : State} (h : ReachIf step Ok {} s) {r p c f : Nat}
    (hr : .received r p true c f ∈ s.log) :
    (∃ t, life r s.log = some (.sent t)) ∨ life r s.log = some .done := by
  obtain ⟨_, _, hg, _⟩ := inv h
  by_cases hlt : r < s.reqs
  · rcases hg.cur r hlt with ⟨h1, _⟩ | ⟨h1, _⟩ | ⟨t, _, h1, _⟩
    · exact absurd hr (h1 p c f)
    · exact .inr h1
    · exact .inl ⟨t, h1⟩
  · exact absurd (hg.fresh r (by simp [view]; omega)).1 (not_new hr)

theorem fold_none (r : Nat) (l : List Ev) : l.foldl (fun ph e => ph.bind fun ph => next r ph e) none = none := by
  induction l with
  | nil => rfl
  | cons e l ih => exact ih

/-- From a result there's only the answer. -/
theorem from_done {r : Nat} {l : List Ev} {ph : Phase}
    (h : l.foldl (fun ph e => ph.bind fun ph => next r ph e) (some .done) = some ph) : ph = .done := by
  induction l with
  | nil => cases h; rfl
  | cons e l ih =>
    rw [List.foldl_cons] at h
    have hn : next r .done e = some .done ∨ next r .done e = none := by
      cases e <;> simp only [next] <;> (repeat' split) <;> simp_all
    simp only [Option.bind_some] at h
    rcases hn with hn | hn
    · rw [hn] at h; exact ih h
    · rw [hn, fold_none] at h; cases h

theorem from_back {r : Nat} {rep : Option Nat} {st : Int} {l : List Ev} {ph : Phase}
    (h : l.foldl (fun ph e => ph.bind fun ph => next r ph e) (some (.back rep st)) = some ph) :
    ph = .back rep st ∨ ph = .done ∧ .answered r rep (if 0 < st then -14 else st) ∈ l := by
  induction l with
  | nil => cases h; exact .inl rfl
  | cons e l ih =>
    rw [List.foldl_cons] at h
    have hn : next r (.back rep st) e = some (.back rep st) ∨ next r (.back rep st) e = none ∨
        next r (.back rep st) e = some .done ∧ e = .answered r rep (if 0 < st then -14 else st) := by
      cases e <;> simp only [next] <;> (repeat' split) <;> simp_all
    simp only [Option.bind_some] at h
    rcases hn with hn | hn | ⟨hn, he⟩
    · rw [hn] at h
      rcases ih h with h | ⟨h, hm⟩
      · exact .inl h
      · exact .inr ⟨h, List.mem_cons_of_mem _ hm⟩
    · rw [hn, fold_none] at h; cases h
    · rw [hn] at h
      exact .inr ⟨from_done h, by rw [he]; exact List.mem_cons_self ..⟩

theorem reply_log {s s' : State} {t : Nat} {rep : Option Nat} {st : Int} (hs : step s (.reply t rep st) = .ok s') :
    ∃ l, s'.log = s.log ++ .replied t rep st :: l := by
  simp only [step] at hs
  split at hs
  · cases hs
  · split at hs
    · cases hs
    · rename_i x hx
      split at hs
      · cases hs
      · split at hs
        · cases hs
        · have hx1 : ((s.setTx t (some { x with replied := true })).see [.replied t rep st]).tx t =
            some { x with replied := true } := upd_same _ _ _
          cases hd : ((s.setTx t (some { x with replied := true })).see [.replied t rep st]).dequeue t with
          | no => rw [hd] at hs; cases hs
          | ub => rw [hd] at hs; cases hs
          | ok s2 =>
            rw [hd] at hs
            simp only [Out.andThen] at hs
            obtain ⟨l, _, hl⟩ := dequeue_quiet hx1 hd
            have hl : s2.log = s.log ++ .replied t rep st :: l := by rw [hl]; simp [State.see, State.setTx]
            cases hc : s2.complete x.req rep (if st > 0 then efault else st) with
            | no => rw [hc] at hs; cases hs
            | ub => rw [hc] at hs; cases hs
            | ok s3 =>
              rw [hc] at hs
              simp only [] at hs
              have h3 : ∃ l', s3.log = s2.log ++ l' := by
                simp only [State.complete] at hc
                split at hc
                · cases hc
                · cases hc
                  split
                  · exact ⟨_, rfl⟩
                  · exact ⟨[], by simp⟩
              obtain ⟨l', h3⟩ := h3
              refine ⟨l ++ l', ?_⟩
              cases hs
              have : s3.log = s.log ++ .replied t rep st :: (l ++ l') := by rw [h3, hl]; simp
              split <;> exact this

/-- C50, requests received by loopers: as soon as there's a result, the sender of the request gets it. -/
theorem C50_result_partial {s s' : State} (h : ReachIf step Ok {} s) {r t p c f : Nat} {rep : Option Nat} {st : Int}
    (hr : .received r p true c f ∈ s.log) (hl : life r s.log = some (.sent t)) (hok : Ok s (.reply t rep st))
    (hs : step s (.reply t rep st) = .ok s') :
    .answered r rep (if 0 < st then -14 else st) ∈ s'.log ∧ life r s'.log = some .done := by
  obtain ⟨l, hlog⟩ := reply_log hs
  have h2 := C50_answer_partial (.step _ h hok hs) (r := r) (p := p) (c := c) (f := f)
    (by rw [hlog]; exact List.mem_append_left _ hr)
  rw [hlog, life_append, hl, List.foldl_cons] at h2
  simp only [Option.bind_some, next, if_true] at h2
  rw [hlog, life_append, hl, List.foldl_cons]
  simp only [Option.bind_some, next, if_true]
  rcases h2 with ⟨t', h2⟩ | h2
  · rcases from_back h2 with h | ⟨h, _⟩ <;> cases h
  · rcases from_back h2 with h | ⟨_, h⟩
    · cases h
    · exact ⟨List.mem_append_right _ (List.mem_cons_of_mem _ h), h2⟩

/-- Nothing but the main thread being busy keeps a result from being handled. -/
theorem reply_enabled {s : State} (hm : s.main = none) (t : Nat) (rep : Option Nat) (st : Int) :
    step s (.reply t rep st) ≠ .no := by
  have hu : ∀ (s : State) rm m, s.remoteUnref rm m ≠ .no := by
    intro s rm m; simp only [State.remoteUnref]; repeat' split
    all_goals simp
  have ho : ∀ (s : State) p m, s.objUnref p m ≠ .no := by
    intro s p m; simp only [State.objUnref]; repeat' split
    all_goals first | exact hu _ _ _ | simp
  have hd : ∀ (s : State) t, s.dequeue t ≠ .no := by
    intro s t; simp only [State.dequeue]; repeat' split
    all_goals first | exact ho _ _ _ | simp
  have hc : ∀ (s : State) r rep st, s.complete r rep st ≠ .no := by
    intro s r rep st; simp only [State.complete]; split <;> simp
  have ha : ∀ (o : Out State) f, o ≠ .no → (∀ s, f s ≠ .no) → o.andThen f ≠ .no := by
    intro o f h1 h2; cases o with
    | ok s => exact h2 s
    | no => exact absurd rfl h1
    | ub => simp [Out.andThen]
  rw [step, if_neg (by simp [hm])]
  repeat' split
  all_goals first
    | exact ha _ _ (hd _ _) fun _ => ha _ _ (hc _ _ _ _) fun _ => by simp
    | simp

/-- C50, the other half of `C50_result_partial`: as long as the transaction which a request has been forwarded as exists,
and the main thread isn't busy with a remote object which has died, any result can be delivered, and it becomes the
answer. -/
theorem C50_delivered_partial {s : State} (h : ReachIf step Ok {} s) {r t p c f : Nat}
    (hr : .received r p true c f ∈ s.log) (hl : life r s.log = some (.sent t)) (ht : s.tx t ≠ none)
    (hm : s.main = none) (rep : Option Nat) (st : Int) :
    Ok s (.reply t rep st) ∧ ∃ s', step s (.reply t rep st) = .ok s' ∧
      .answered r rep (if 0 < st then -14 else st) ∈ s'.log ∧ life r s'.log = some .done := by
  have hok : Ok s (.reply t rep st) := by
    obtain ⟨_, _, hg, _⟩ := inv h
    by_cases hlt : r < s.reqs
    · rcases hg.cur r hlt with ⟨h1, _⟩ | ⟨h1, _⟩ | ⟨t', _, h1, _, h2⟩
      · exact absurd hr (h1 p c f)
      · have h1 : life r s.log = _ := h1
        rw [hl] at h1; cases h1
      · have h1 : life r s.log = _ := h1
        rw [hl] at h1; cases h1
        cases hx : s.tx t with
        | none => exact absurd hx ht
        | some x =>
          have := h2 (x.req, x.replied) (by simp [view, hx])
          simp only [Prod.mk.injEq] at this
          simp [Ok, okB, hx, this.2]
    · exact absurd (hg.fresh r (by simp [view]; omega)).1 (not_new hr)
  refine ⟨hok, ?_⟩
  cases hs : step s (.reply t rep st) with
  | no => exact absurd hs (reply_enabled hm t rep st)
  | ub => exact absurd hs (C50_safe_partial h hok (by simp))
  | ok s' => exact ⟨s', rfl, C50_result_partial h hr hl hok hs⟩

/-- C50: no request gets more than one answer. -/
theorem C50_once {s : State} (h : ReachIf step Ok {} s) (r : Nat) : answers r s.log ≤ 1 := by
  obtain ⟨_, _, hg, _⟩ := inv h
  have : answers r s.log = _ := hg.once r
  rw [this]
  split <;> omega

/-- C50: a request which hasn't got an answer is held by somebody, or by the transaction it's forwarded as. I.e. when
the transaction is over (C25) and everybody has dropped the references, the request has got one. -/
theorem C50_waiting {s : State} (h : ReachIf step Ok {} s) {r p c f : Nat} {lo : Bool}
    (hr : .received r p lo c f ∈ s.log) (ha : answers r s.log = 0) :
    ∃ q, s.req r = some q ∧ (0 < q.held ∨ ∃ t x, s.tx t = some x ∧ x.req = r) := by
  obtain ⟨hi, _, hg, _⟩ := inv h
  have hlt : r < s.reqs := by
    by_cases hlt : r < s.reqs
    · exact hlt
    · exact absurd (hg.fresh r (by simp [view]; omega)).1 (not_new hr)
  have h1 : answers r s.log = _ := hg.once r
  rw [ha] at h1
  have h2 : (s.req r).map (·.tx) = some true := by
    by_cases h2 : (s.req r).map (·.tx) = some true
    · exact h2
    · rw [if_pos ⟨hlt, h2⟩] at h1; cases h1
  obtain ⟨q, hq, _⟩ := Option.map_eq_some_iff.1 h2
  refine ⟨q, hq, ?_⟩
  obtain ⟨_, f2, f3⟩ := hi.req r q hq
  by_cases hh : 0 < q.held
  · exact .inl hh
  · right
    obtain ⟨t, ht, hp⟩ := Buffers.total_pos (f := fun t => has r (s.tx t)) (n := s.txs) (by simp at f3; omega)
    cases hx : s.tx t with
    | none => rw [hx] at hp; simp [has] at hp
    | some x =>
      refine ⟨t, x, hx, ?_⟩
      rw [hx] at hp
      simp only [has] at hp
      split at hp
      · assumption
      · omega

/-- C50: the handle of the remote object is acquired at most once by each proxy, and released (if it was acquired) when
the proxy goes away. -/
theorem C50_handle {s : State} (h : ReachIf step Ok {} s) (p : Nat) : (hold p s.log).isSome = true := by
  obtain ⟨_, _, _, hf⟩ := inv h
  have := hf.hold p
  simp only [look] at this
  rw [this]; rfl

/-- C50: it's not forgotten. -/
theorem C50_released {s : State} (h : ReachIf step Ok {} s) {p i rm : Nat} (hm : .made p i rm ∈ s.log)
    (hn : s.obj p = none) : hold p s.log = some .gone := by
  obtain ⟨_, _, _, hf⟩ := inv h
  have h1 : hold p s.log = _ := hf.hold p
  rw [h1]
  have h2 : expect (look s) p = if p < s.no then .gone else .new := by
    have : (look s).info p = none := by simp [look, hn]
    unfold expect
    rw [this]
    rfl
  rw [h2]
  by_cases hlt : p < s.no
  · rw [if_pos hlt]
  · rw [if_neg hlt]
    rw [h2, if_neg hlt] at h1
    -- `made` is there
    obtain ⟨a, b, hab⟩ := List.append_of_mem hm
    rw [hab, hold_append, List.foldl_cons] at h1
    have hstep : ∀ ph e, ph ≠ Hold.new → nextHold p ph e ≠ some .new := by
      intro ph e hph
      cases e <;> simp only [nextHold] <;> (repeat' split) <;> simp_all
    have hfold : ∀ (l : List Ev) (ph : Option Hold), ph ≠ some .new →
        l.foldl (fun ph e => ph.bind fun ph => nextHold p ph e) ph ≠ some .new := by
      intro l
      induction l with
      | nil => intro ph h; exact h
      | cons e l ih =>
        intro ph h
        rw [List.foldl_cons]
        apply ih
        cases ph with
        | none => simp
        | some ph => exact hstep ph e (fun he => h (he ▸ rfl))
    refine absurd h1 (hfold b _ ?_)
    cases hold p a with
    | none => simp
    | some ph => simp only [Option.bind_some, nextHold, if_true]; split <;> simp

/-! ### Contents -/

/-- C50: what is forwarded. The objects stay where they are, those which refer to remote objects are replaced with
proxies (`f`), everything else is the same. -/
theorem C50_contents (e : Env) (q : RemoteReq) (b : RxBuffer) (src dest : Ipc) (m : Mem) (f : Nat → Option LocalRef)
    (hq : q.protocol = src.protocol) (h : Copy.Whole q.io b.protocol b.data 0 b.objects) :
    ∃ w, forwardedRequest e q (some b) src dest m f = .ok (some w) ∧
      w.bytes.length = b.data.length ∧ w.offsets = b.objects ∧
      (∀ k, Copy.Untouched q.io b.protocol f b.data b.objects k → w.bytes[k]? = b.data[k]?) ∧
      (∀ o ∈ b.objects, ∀ l, Copy.Translated f b.data o l →
        Kernel.getObject q.io w.bytes o = some (.binder (l.addr % 256 ^ Kernel.word q.io) 0, 8 + 2 * Kernel.word q.io)) ∧
      .unrefBuffer b.id ∈ w.cleanup := by
  obtain ⟨w, out, h1, h2, h3, h4, h5, h6, _, h8, _⟩ :=
    C16.C16_append e (newRequest q.io b.protocol m none) b 0 (some f) h
  have hb : (newRequest q.io b.protocol m none).bytes = [] := rfl
  have ho : (newRequest q.io b.protocol m none).offsets = [] := rfl
  rw [hb, List.nil_append] at h2
  refine ⟨w, ?_, by rw [h2, h3, Nat.sub_zero], ?_, fun k hk => ?_, fun o ho l hl => ?_, h8⟩
  · simp only [forwardedRequest, convertRequest, hq, if_true]
    rw [h1]; rfl
  · rw [h4, hb, ho]; simp
  · have := h5 k (by rw [Nat.zero_add]; exact hk)
    rw [h2]; rwa [Nat.zero_add] at this
  · have := h6 o ho l hl
    rw [hb] at this
    simpa [newRequest] using this

/-- C50, the format of the destination, if it's the same protocol: what was sent to the interface `i` of the proxy is
received by the interface `i` of the remote object, which reads the same payload from its first byte. -/
theorem C50_header_partial (e : Env) (q : RemoteReq) (b : RxBuffer) (src dest : Ipc) (m m' : Mem)
    (f : Nat → Option LocalRef) (i : List Char) (hi : C18.NameOk i) (hdr : Writer) (payload : Bytes) (code : Nat)
    (hq : q.protocol = src.protocol) (h : Copy.Whole q.io b.protocol b.data hdr.bytes.length b.objects)
    (hh : clientNewRequest e q.io src.protocol m' (some (utf8Text i)) = .ok hdr) (hd : b.data = hdr.bytes ++ payload)
    (hc : src.protocol = .hidl ∨ code ≤ 0x5f000000) (hp : dest.protocol = src.protocol) :
    ∃ w q', forwardedRequest e q (some b) src dest m f = .ok (some w) ∧
      RemoteReq.setData q.io dest.protocol code w.bytes w.offsets = .ok q' ∧ q'.iface = some (utf8Text i) ∧
      q'.initReader.pos = hdr.bytes.length ∧ q'.initReader.bytesRemaining = payload.length ∧
      ∀ k, Copy.Untouched q.io b.protocol f b.data b.objects (hdr.bytes.length + k) →
        (w.bytes.drop hdr.bytes.length)[k]? = payload[k]? := by
  have hw0 : Copy.Whole q.io b.protocol b.data 0 b.objects := by
    cases hbo : b.objects with
    | nil => simp [Copy.Whole]
    | cons o rest => rw [hbo] at h; exact ⟨Nat.zero_le _, h.2⟩
  obtain ⟨w, h1, h2, h3, h4, _⟩ := C50_contents e q b src dest m f hq hw0
  obtain ⟨hdr', hh', _, _, hread⟩ := C18.C18_header e q.io src.protocol m' i hi
  rw [hh] at hh'; cases hh'
  have hge : ∀ (os : List Nat) (off : Nat), Copy.Whole q.io b.protocol b.data off os → ∀ o ∈ os, off ≤ o := by
    intro os
    induction os with
    | nil => intro _ _ o ho; cases ho
    | cons a os ih =>
      intro off hw o ho
      obtain ⟨ha, x, size, _, hrest⟩ := hw
      rcases List.mem_cons.1 ho with rfl | ho
      · exact ha
      · have := ih _ hrest o ho; omega
  have hpre : w.bytes = hdr.bytes ++ w.bytes.drop hdr.bytes.length := by
    apply List.ext_getElem?
    intro k
    by_cases hk : k < hdr.bytes.length
    · rw [List.getElem?_append_left hk]
      rw [h4 k]
      · rw [hd, List.getElem?_append_left hk]
      · intro o ho l hl hle
        have := hge _ _ h o ho
        omega
    · rw [List.getElem?_append_right (by omega), List.getElem?_drop]
      congr 1; omega
  obtain ⟨q', g1, g2, g3, _, g5, _⟩ := hread code hc (w.bytes.drop hdr.bytes.length) w.offsets
  rw [← hpre, ← hp] at g1
  refine ⟨w, q', h1, g1, g2, g3, ?_, fun k hk => ?_⟩
  · rw [g5, List.length_drop, h2, hd]; simp
  · rw [List.getElem?_drop, h4 _ hk, hd, List.getElem?_append_right (by omega)]
    congr 1; omega

/-- C50: the reply is a copy of the one received, with remote objects replaced with proxies. An empty reply is
forwarded as an empty reply. -/
theorem C50_reply (e : Env) (b : RxBuffer) (io : Io) (m : Mem) (f : Nat → Option LocalRef)
    (h : Copy.Whole io b.protocol b.data 0 b.objects) :
    (∃ w, forwardedReply e none io m f = .ok w ∧ w.bytes = [] ∧ w.offsets = []) ∧
    ∃ w, forwardedReply e (some b) io m f = .ok w ∧
      w.bytes.length = b.data.length ∧ w.offsets = b.objects ∧
      (∀ k, Copy.Untouched io b.protocol f b.data b.objects k → w.bytes[k]? = b.data[k]?) ∧
      (∀ o ∈ b.objects, ∀ l, Copy.Translated f b.data o l →
        Kernel.getObject io w.bytes o = some (.binder (l.addr % 256 ^ Kernel.word io) 0, 8 + 2 * Kernel.word io)) := by
  obtain ⟨w, h1, h2⟩ := C16.C16_convert e (newRequest io b.protocol m none) b f h
  refine ⟨⟨_, rfl, rfl, rfl⟩, w, ?_, h2⟩
  simp only [forwardedReply, h1, Except.map]

/-! ### Examples, and where it fails -/

instance (s : State) (l : Label) : Decidable (Ok s l) := inferInstanceAs (Decidable (_ = _))

instance (s : State) (l : Label) : Decidable (OkKept s l) := inferInstanceAs (Decidable (_ ∧ _))

/-- An execution which obeys `Ok`. -/
def runIf (s : State) : List Label → Option State
  | [] => some s
  | l :: ls =>
    if Ok s l then
      match step s l with
      | .ok s' => runIf s' ls
      | _ => none
    else none

theorem runIf_reach {s0 s s' : State} {ls : List Label} (h : ReachIf step Ok s0 s) (hr : runIf s ls = some s') :
    ReachIf step Ok s0 s' := by
  induction ls generalizing s with
  | nil => cases hr; exact h
  | cons l ls ih =>
    simp only [runIf] at hr
    split at hr
    · rename_i hok
      split at hr
      · rename_i s1 h1; exact ih (.step l h hok h1) hr
      · cases hr
    · cases hr

/-- An execution which obeys `OkKept`. -/
def runKept (s : State) : List Label → Option State
  | [] => some s
  | l :: ls =>
    if okB s l && keptB s l then
      match step s l with
      | .ok s' => runKept s' ls
      | _ => none
    else none

theorem runKept_reach {s0 s s' : State} {ls : List Label} (h : ReachIf step OkKept s0 s) (hr : runKept s ls = some s') :
    ReachIf step OkKept s0 s' := by
  induction ls generalizing s with
  | nil => cases hr; exact h
  | cons l ls ih =>
    simp only [runKept] at hr
    split at hr
    · rename_i hok
      rw [Bool.and_eq_true] at hok
      split at hr
      · rename_i s1 h1; exact ih (.step l h hok h1) hr
      · cases hr
    · cases hr

/-- A proxy, which the kernel acquires; two requests; there's a reply to the second one, and the remote object turns out
to be dead before there's one to the first. -/
def demo : List Label :=
  [.newRemote 5 17, .new 6 0, .unrefRemote 0, .ref 0, .acquire 0, .handle 0 true 1 0, .unrefReq 0, .handle 0 true 2 1,
   .unrefReq 1, .reply 1 (some 33) 0, .destroy 1, .reply 0 none 2]

/-- The first request has failed. The last step is the one which isn't safe in general. It's safe here, and those who
keep the proxy get their requests refused. Then the handle is released. -/
example : ∃ s, ReachIf step OkKept {} s ∧ s.main = some 0 ∧ .received 0 0 true 1 0 ∈ s.log ∧ life 0 s.log = some .done ∧
    .answered 0 none (-14) ∈ s.log ∧ .answered 1 (some 33) 0 ∈ s.log ∧ OkKept s .suicide ∧ .made 0 6 0 ∈ s.log := by
  have h : (runKept {} demo).map (fun s => decide (s.main = some 0 ∧ .received 0 0 true 1 0 ∈ s.log ∧
      life 0 s.log = some .done ∧ .answered 0 none (-14) ∈ s.log ∧ .answered 1 (some 33) 0 ∈ s.log ∧
      OkKept s .suicide ∧ .made 0 6 0 ∈ s.log)) = some true := by decide +kernel
  obtain ⟨s, hs, h⟩ := Option.map_eq_some_iff.1 h
  exact ⟨s, runKept_reach .init hs, of_decide_eq_true h⟩

/-- In the end there's nothing left. -/
example : ∃ s, ReachIf step Ok {} s ∧ s.obj 0 = none ∧ s.remote 0 = none ∧ s.req 0 = none ∧ .made 0 6 0 ∈ s.log ∧
    hold 0 s.log = some .gone ∧ .release 0 0 ∈ s.log ∧ .answered 2 none (-74) ∈ s.log := by
  have h : (runIf {} (demo ++ [.suicide, .destroy 0, .handle 0 true 3 0, .unrefReq 2, .drop 0, .unref 0])).map
      (fun s => decide (s.obj 0 = none ∧ s.remote 0 = none ∧ s.req 0 = none ∧ .made 0 6 0 ∈ s.log ∧
        hold 0 s.log = some .gone ∧ .release 0 0 ∈ s.log ∧ .answered 2 none (-74) ∈ s.log)) = some true := by decide +kernel
  obtain ⟨s, hs, h⟩ := Option.map_eq_some_iff.1 h
  exact ⟨s, runIf_reach .init hs, of_decide_eq_true h⟩

/-- A request is waiting, its transaction exists, and the main thread is free. -/
example : ∃ s, ReachIf step Ok {} s ∧ .received 0 0 true 1 0 ∈ s.log ∧ life 0 s.log = some (.sent 0) ∧ s.tx 0 ≠ none ∧
    s.main = none := by
  have h : (runIf {} (demo.take 7)).map (fun s => decide (.received 0 0 true 1 0 ∈ s.log ∧
      life 0 s.log = some (.sent 0) ∧ (s.tx 0).isSome = true ∧ s.main.isNone = true)) = some true := by decide +kernel
  obtain ⟨s, hs, h⟩ := Option.map_eq_some_iff.1 h
  obtain ⟨h1, h2, h3, h4⟩ := of_decide_eq_true h
  refine ⟨s, runIf_reach .init hs, h1, h2, fun hn => ?_, Option.isNone_iff_eq_none.1 h4⟩
  rw [hn] at h3; cases h3

/-- A request is waiting, and there's going to be a reply. -/
example : ∃ s, ReachIf step Ok {} s ∧ .received 0 0 true 1 0 ∈ s.log ∧ answers 0 s.log = 0 ∧
    life 0 s.log = some (.sent 0) ∧ Ok s (.reply 0 (some 8) 0) ∧
    (step s (.reply 0 (some 8) 0)).holds (fun s => s.log.getLast? == some (.answered 0 (some 8) 0)) = true := by
  have h : (runIf {} (demo.take 7)).map
      (fun s => decide (.received 0 0 true 1 0 ∈ s.log ∧ answers 0 s.log = 0 ∧ life 0 s.log = some (.sent 0) ∧
        Ok s (.reply 0 (some 8) 0) ∧
        (step s (.reply 0 (some 8) 0)).holds (fun s => s.log.getLast? == some (.answered 0 (some 8) 0)) = true)) =
      some true := by decide +kernel
  obtain ⟨s, hs, h⟩ := Option.map_eq_some_iff.1 h
  exact ⟨s, runIf_reach .init hs, of_decide_eq_true h⟩

/-- gbinder_proxy_object.c:210-214: everybody else has dropped the proxy while the request was being handled by the remote
process, and it turns out that this process is dead. The reference dropped by gbinder_proxy_tx_dequeue is the last
one, then `self->remote` is accessed. -/
theorem C50_fails_freed : ∃ s, ReachIf step Ok {} s ∧ Ok s .suicide ∧ step s .suicide = .ub := by
  have h : (runIf {} [.newRemote 5 17, .new 6 0, .unrefRemote 0, .handle 0 true 1 0, .unrefReq 0, .unref 0,
      .reply 0 none 2]).map (fun s => decide (Ok s .suicide ∧ (step s .suicide).isUb = true)) = some true := by
    decide +kernel
  obtain ⟨s, hs, h⟩ := Option.map_eq_some_iff.1 h
  obtain ⟨h1, h2⟩ := of_decide_eq_true h
  exact ⟨s, runIf_reach .init hs, h1, Out.isUb_iff.1 h2⟩

/-- gbinder_driver.c:562-568, gbinder_ipc.c:372-429: a proxy can't block a request which is handled by the main thread while
that's waiting for a reply to a synchronous transaction. The sender gets an empty reply with status 0 at once, and what the
remote object replies is lost. -/
theorem C50_fails_nested : ∃ s, ReachIf step Ok {} s ∧ .received 0 0 false 1 0 ∈ s.log ∧
    .replied 0 (some 33) 0 ∈ s.log ∧ .answered 0 none 0 ∈ s.log ∧ .answered 0 (some 33) 0 ∉ s.log ∧ life 0 s.log = none := by
  have h : (runIf {} [.newRemote 5 17, .new 6 0, .handle 0 false 1 0, .unrefReq 0, .reply 0 (some 33) 0, .destroy 0]).map
      (fun s => decide (.received 0 0 false 1 0 ∈ s.log ∧ .replied 0 (some 33) 0 ∈ s.log ∧ .answered 0 none 0 ∈ s.log ∧
        .answered 0 (some 33) 0 ∉ s.log ∧ life 0 s.log = none)) = some true := by decide +kernel
  obtain ⟨s, hs, h⟩ := Option.map_eq_some_iff.1 h
  exact ⟨s, runIf_reach .init hs, of_decide_eq_true h⟩

/-- gbinder_local_request.c:129-141 returns NULL if there is no buffer, i.e. when a request without any data is received
(such as the ping transaction of AIDL), and gbinder_driver.c:1241 doesn't expect that. -/
theorem C50_fails_empty : ∃ (q : RemoteReq) (src : Ipc), q.protocol = src.protocol ∧
    RemoteReq.setData q.io q.protocol 0x5f504e47 [] [] = .ok q ∧
    ∀ e dest m f io handle code oneway bufPtr offPtr,
      ((forwardedRequest e q none src dest m f).bind fun w => sendRequest io w handle code oneway bufPtr offPtr) =
        .error .oob :=
  ⟨{ io := .io64, protocol := .aidl3, data := [], objects := [], iface := none, headerSize := 0 }, ⟨.io64, .aidl3⟩, rfl,
    by decide +kernel, fun _ _ _ _ _ _ _ _ _ _ => rfl⟩

/-- A request of an AIDL client. -/
def aidlRequest : RxBuffer where
  id := 1
  protocol := .aidl
  data := leBytes 4 0x100 ++ (leBytes 4 1 ++ [0x69, 0, 0, 0]) ++ leBytes 4 7
  objects := []

/-- gbinder_proxy_object.c:143: if the other side has another protocol, the header is in the wrong format. The interface was
"i", the remote object sees something else. -/
theorem C50_fails_header : ∃ (q : RemoteReq) (src dest : Ipc) (w : Writer) (q' : RemoteReq),
    q.protocol = src.protocol ∧ src.protocol ≠ dest.protocol ∧
    RemoteReq.setData .io64 src.protocol 1 aidlRequest.data [] = .ok q ∧ q.iface = some [0x69] ∧
    forwardedRequest Demo.env q (some aidlRequest) src dest [] (fun _ => none) = .ok (some w) ∧
    RemoteReq.setData .io64 dest.protocol 1 w.bytes w.offsets = .ok q' ∧ q'.iface ≠ some [0x69] := by
  refine ⟨{ io := .io64, protocol := .aidl, data := aidlRequest.data, objects := [], iface := some [0x69], headerSize := 12 },
    ⟨.io64, .aidl⟩, ⟨.io64, .hidl⟩, ?_⟩
  obtain ⟨w, h1, h2, h3, h4, _⟩ := C50_contents Demo.env { io := .io64, protocol := .aidl, data := aidlRequest.data, objects := [], iface := some [0x69], headerSize := 12 } aidlRequest ⟨.io64, .aidl⟩ ⟨.io64, .hidl⟩ []
    (fun _ => none) rfl (by unfold Copy.Whole aidlRequest; simp)
  have hb : w.bytes = aidlRequest.data := by
    apply List.ext_getElem?
    intro k
    exact h4 k (by intro o ho; cases ho)
  refine ⟨w, { io := .io64, protocol := .hidl, data := aidlRequest.data, objects := [], iface := some [], headerSize := 4 },
    rfl, by simp, by decide +kernel, rfl, h1, ?_, by simp⟩
  rw [hb, h3]
  decide +kernel

/-- A request of a HIDL client meets the hypotheses of `C50_header_partial`. -/
example : ∃ hdr, C18.NameOk ['i', 'é'] ∧
    clientNewRequest Demo.env .io64 .hidl Demo.mem (some (utf8Text ['i', 'é'])) = .ok hdr ∧
    hdr.bytes = [0x69, 0xc3, 0xa9, 0] ∧
    Copy.Whole .io64 .hidl (hdr.bytes ++ leBytes 4 7) hdr.bytes.length [] := by
  have h : (clientNewRequest Demo.env .io64 .hidl Demo.mem (some (utf8Text ['i', 'é']))).map (·.bytes) =
      .ok [0x69, 0xc3, 0xa9, 0] := by decide +kernel
  cases hc : clientNewRequest Demo.env .io64 .hidl Demo.mem (some (utf8Text ['i', 'é'])) with
  | error x => rw [hc] at h; cases h
  | ok hdr =>
    rw [hc] at h
    refine ⟨hdr, by unfold C18.NameOk; decide +kernel, rfl, by simpa [Except.map] using h, by simp [Copy.Whole]⟩

end Gb.C50
