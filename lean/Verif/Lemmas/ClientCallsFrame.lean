import Verif.Lemmas.ClientCallsStep
/-
What the steps leave as it is.
-/
set_option autoImplicit false

namespace Gb.ClientCalls

/-- A client is still the same, unless it's been freed. -/
def SameClients (s s' : State) : Prop :=
  ∀ i c, s.clients i = some c → s'.clients i = some c ∨ (s'.clients i = none ∧ Ev.freed (.client i) ∈ s'.log)

/-- Only references and clients have changed. -/
structure Still (s s' : State) : Prop where
  tx : s'.tx = s.tx
  handle : s'.handle = s.handle
  dead : s'.dead = s.dead
  log : ∃ evs, s'.log = s.log ++ evs ∧ ∀ e ∈ evs, e.plain = false
  clients : SameClients s s'

theorem SameClients.refl {s s' : State} (h : s'.clients = s.clients) : SameClients s s' := by
  intro i c hc; rw [h]; exact .inl hc

theorem SameClients.trans {s t u : State} (h : SameClients s t) (g : SameClients t u) (hl : ∃ evs, u.log = t.log ++ evs)
    (hn : ∀ i, t.clients i = none → u.clients i = none) : SameClients s u := by
  intro i c hc
  rcases h i c hc with h | ⟨h, e⟩
  · exact g i c h
  · obtain ⟨evs, hl⟩ := hl
    exact .inr ⟨hn i h, by rw [hl]; simp [e]⟩

theorem drop_still {s s' : State} {o : Obj} (h : s.drop o = .ok s') :
    s'.tx = s.tx ∧ s'.handle = s.handle ∧ s'.dead = s.dead ∧ s'.clients = s.clients ∧ ∃ evs, s'.log = s.log ++ evs ∧ ∀ e ∈ evs, e.plain = false := by
  simp only [State.drop] at h
  split at h
  · cases h
  · split at h
    · cases h; exact ⟨rfl, rfl, rfl, rfl, [.freed o], rfl, by simp [Ev.plain]⟩
    · cases h; exact ⟨rfl, rfl, rfl, rfl, [], by simp, by simp⟩

theorem dropAll_still {l : List Obj} : ∀ {s s' : State}, s.dropAll l = .ok s' →
    s'.tx = s.tx ∧ s'.handle = s.handle ∧ s'.dead = s.dead ∧ s'.clients = s.clients ∧ ∃ evs, s'.log = s.log ++ evs ∧ ∀ e ∈ evs, e.plain = false := by
  induction l with
  | nil => intro s s' h; cases h; exact ⟨rfl, rfl, rfl, rfl, [], by simp, by simp⟩
  | cons o l ih =>
    intro s s' h
    simp only [State.dropAll] at h
    cases hd : s.drop o with
    | no => rw [hd] at h; cases h
    | ub => rw [hd] at h; cases h
    | ok t =>
      rw [hd] at h
      obtain ⟨a1, a2, a3, a4, e1, a5, a6⟩ := drop_still hd
      obtain ⟨b1, b2, b3, b4, e2, b5, b6⟩ := ih h
      refine ⟨b1.trans a1, b2.trans a2, b3.trans a3, b4.trans a4, e1 ++ e2, by rw [b5, a5, List.append_assoc], ?_⟩
      intro e he
      rcases List.mem_append.1 he with he | he
      · exact a6 e he
      · exact b6 e he

theorem dropClient_still {s s' : State} {i : Nat} (h : s.dropClient i = .ok s') : Still s s' := by
  simp only [State.dropClient] at h
  split at h
  · rename_i h1
    split at h
    · cases h
    · rename_i c hc
      simp only [State.drop, h1, Nat.succ_ne_zero, if_false, if_true, Out.andThen] at h
      obtain ⟨a1, a2, a3, a4, evs, a5, a6⟩ := dropAll_still h
      refine ⟨a1, a2, a3, ⟨.freed (.client i) :: evs, by simpa [State.see] using a5, ?_⟩, ?_⟩
      · intro e he
        rcases List.mem_cons.1 he with rfl | he
        · rfl
        · exact a6 e he
      · intro j c' hj
        by_cases hij : j = i
        · subst hij
          exact .inr ⟨by rw [a4]; exact upd_same _ _ _, by rw [a5]; simp [State.see]⟩
        · refine .inl ?_
          rw [a4]
          show upd s.clients i none j = _
          rw [upd_ne _ _ hij]; exact hj
  · obtain ⟨a1, a2, a3, a4, a5⟩ := drop_still h
    exact ⟨a1, a2, a3, a5, SameClients.refl a4⟩

theorem dropAny_still {s s' : State} {o : Obj} (h : s.dropAny o = .ok s') : Still s s' := by
  cases o with
  | client i => exact dropClient_still h
  | remote i | request i | reply i =>
    obtain ⟨a1, a2, a3, a4, a5⟩ := drop_still h
    exact ⟨a1, a2, a3, a5, SameClients.refl a4⟩

theorem take_eq {s s' : State} {o : Obj} (h : s.take o = .ok s') : s' = { s with refs := set s.refs o (s.refs o + 1) } := by
  simp only [State.take] at h
  split at h
  · cases h
  · cases h; rfl

theorem makeAll_still {l : List Nat} : ∀ {s : State} {n : Nat},
    (s.makeAll ((ranges n l).map fun r => .request r.2)).tx = s.tx ∧ (s.makeAll ((ranges n l).map fun r => .request r.2)).handle = s.handle ∧
    (s.makeAll ((ranges n l).map fun r => .request r.2)).dead = s.dead ∧ (s.makeAll ((ranges n l).map fun r => .request r.2)).clients = s.clients ∧
    (s.makeAll ((ranges n l).map fun r => .request r.2)).next = s.next + l.length ∧
    (s.makeAll ((ranges n l).map fun r => .request r.2)).log = s.log ++ (ranges n l).map fun r => .made (.request r.2) := by
  induction l with
  | nil => intro s n; exact ⟨rfl, rfl, rfl, rfl, rfl, by simp [ranges, State.makeAll]⟩
  | cons c l ih =>
    intro s n
    simp only [ranges, List.map_cons, State.makeAll, List.length_cons]
    obtain ⟨a1, a2, a3, a4, a5, a6⟩ := ih (s := s.make (.request n)) (n := n + 1)
    refine ⟨a1, a2, a3, a4, ?_, ?_⟩
    · rw [a5]; simp only [State.make, State.see]; omega
    · rw [a6]; simp [State.make, State.see]

/-- The result of gbinder_client_new2. -/
theorem newClient_eq {s s' : State} {r : Nat} {infos : List Nat} (h : newClient s r infos = .ok s') :
    s'.tx = s.tx ∧ s'.handle = s.handle ∧ s'.dead = s.dead ∧
    s'.clients = upd s.clients (s.next + (codes infos).length) (some ⟨r, ranges s.next (codes infos)⟩) ∧
    s'.log = s.log ++ ((ranges s.next (codes infos)).map fun r => Ev.made (.request r.2)) ++
      [.made (.client (s.next + (codes infos).length)), .ref (.client (s.next + (codes infos).length))] := by
  simp only [newClient] at h
  cases ht : s.take (.remote r) with
  | no => rw [ht] at h; cases h
  | ub => rw [ht] at h; cases h
  | ok t =>
    rw [ht] at h
    have ht := take_eq ht
    obtain ⟨a1, a2, a3, a4, a5, a6⟩ := makeAll_still (s := t) (n := t.next) (l := codes infos)
    simp only [Out.andThen, Out.ok.injEq] at h
    have hn : t.next = s.next := by rw [ht]
    generalize hg : t.makeAll ((ranges t.next (codes infos)).map fun r => .request r.2) = u at *
    subst h
    clear hg
    rw [← hn]
    refine ⟨?_, ?_, ?_, ?_, ?_⟩
    · show u.tx = _; rw [a1, ht]
    · show u.handle = _; rw [a2, ht]
    · show u.dead = _; rw [a3, ht]
    · show upd u.clients u.next _ = _
      rw [a4, a5]
      rw [show t.clients = s.clients by rw [ht]]
    · show (u.log ++ _) ++ _ = _
      rw [a5, a6, show t.log = s.log by rw [ht]]
      simp

/-- What a step may do. -/
structure Frame (s : State) (l : Label) (s' : State) : Prop where
  clients : SameClients s s'
  handle : ∀ r, r < s.next → s'.handle r = s.handle r
  log : ∃ evs, s'.log = s.log ++ evs ∧ (∀ p d, Ev.destroyed p d ∈ evs → l = .free p) ∧ ∀ r, s'.dead r = true ↔ s.dead r = true ∨ Ev.died r ∈ evs
  finishing : ∀ p, p ∈ s'.tx.finishing → p ∈ s.tx.finishing ∨ l = .done p ∨ l = .flush p

theorem Frame.same {s s' : State} {l : Label} (hc : s'.clients = s.clients) (hh : s'.handle = s.handle) (hd : s'.dead = s.dead) {evs : List Ev}
    (hl : s'.log = s.log ++ evs) (he : ∀ e ∈ evs, (∀ p d, e ≠ .destroyed p d) ∧ ∀ r, e ≠ .died r)
    (hf : ∀ p, p ∈ s'.tx.finishing → p ∈ s.tx.finishing ∨ l = .done p ∨ l = .flush p) : Frame s l s' := by
  refine ⟨SameClients.refl hc, fun r _ => by rw [hh], ⟨evs, hl, fun p d hm => absurd rfl ((he _ hm).1 p d), fun r => ?_⟩, hf⟩
  rw [hd]
  exact ⟨.inl, fun h => h.elim id fun hm => absurd rfl ((he _ hm).2 r)⟩

theorem not_special {evs : List Ev} (h : ∀ e ∈ evs, e.plain = false) : ∀ e ∈ evs, (∀ p d, e ≠ .destroyed p d) ∧ ∀ r, e ≠ .died r := by
  intro e he
  have := h e he
  refine ⟨fun p d x => ?_, fun r x => ?_⟩ <;> subst x <;> cases this

theorem Still.frame {s s' : State} {l : Label} (h : Still s s') : Frame s l s' := by
  obtain ⟨evs, h1, h2⟩ := h.log
  have hf := Frame.same (s := s) (s' := { s' with clients := s.clients }) (l := l) rfl h.handle h.dead h1 (not_special h2)
    (fun p hp => .inl (by rw [← h.tx]; exact hp))
  exact ⟨h.clients, hf.handle, hf.log, hf.finishing⟩

theorem step_frame {s s' : State} (h : Inv s) {l : Label} (hs : step s l = .ok s') : Frame s l s' := by
  cases l with
  | newRemote hd =>
    cases hs
    have hf := Frame.same (s := s) (s' := State.give (s.make (.remote s.next)) (.remote s.next)) (l := .newRemote hd) rfl rfl rfl
      (evs := [.made (.remote s.next), .ref (.remote s.next)]) (by simp [State.give, State.make, State.see]) (by simp) (fun _ h => .inl h)
    refine ⟨SameClients.refl rfl, fun r hr => ?_, hf.log, fun _ h => .inl h⟩
    exact upd_ne _ _ (by omega)
  | die r =>
    simp only [step] at hs
    split at hs
    · cases hs
    · cases hs
      refine ⟨SameClients.refl rfl, fun _ _ => rfl, ⟨[.died r], rfl, by simp, fun q => ?_⟩, fun _ h => .inl h⟩
      simp only [State.see, upd]
      by_cases hq : q = r <;> simp [hq]
  | newRequest =>
    cases hs
    exact Frame.same rfl rfl rfl (evs := [.made (.request s.next), .ref (.request s.next)]) (by simp [State.give, State.make, State.see]) (by simp) (fun _ h => .inl h)
  | newClient r infos =>
    cases r with
    | none => cases hs; exact Frame.same rfl rfl rfl (evs := []) (by simp) (by simp) (fun _ h => .inl h)
    | some r =>
      simp only [step] at hs
      split at hs
      · obtain ⟨a1, a2, a3, a4, a5⟩ := newClient_eq hs
        refine Still.frame ⟨a1, a2, a3, ⟨_, a5.trans (List.append_assoc _ _ _), ?_⟩, ?_⟩
        · intro e he
          simp only [List.mem_append, List.mem_map, List.mem_cons, List.not_mem_nil, or_false] at he
          rcases he with ⟨_, _, rfl⟩ | rfl | rfl <;> rfl
        · intro i c hc
          have := h.refs.clientLt hc
          exact .inl (by rw [a4, upd_ne _ _ (by omega)]; exact hc)
      · cases hs
  | ref o =>
    simp only [step] at hs
    split at hs
    · cases ht : s.take o with
      | no => rw [ht] at hs; cases hs
      | ub => rw [ht] at hs; cases hs
      | ok t =>
        rw [ht] at hs
        cases take_eq ht
        cases hs
        exact Frame.same rfl rfl rfl (evs := [.ref o]) rfl (by simp) (fun _ h => .inl h)
    · cases hs
  | unref o =>
    simp only [step] at hs
    split at hs
    · have hd := dropAny_still hs
      obtain ⟨evs, h1, h2⟩ := hd.log
      exact Still.frame ⟨hd.tx, hd.handle, hd.dead, ⟨.unref o :: evs, by simpa [State.see] using h1, by simpa [Ev.plain] using h2⟩, hd.clients⟩
    · cases hs
  | call i req a =>
    cases i with
    | none => cases hs; exact Frame.same rfl rfl rfl (evs := [.refused]) rfl (by simp) (fun _ h => .inl h)
    | some i =>
      simp only [step] at hs
      split at hs
      · simp only [transact] at hs
        split at hs
        · cases hs
        · rename_i c hc
          split at hs
          · cases hs
          · split at hs
            · cases hs; exact Frame.same rfl rfl rfl (evs := [.refused]) rfl (by simp) (fun _ h => .inl h)
            · split at hs
              · cases hs; exact Frame.same rfl rfl rfl (evs := [.refused]) rfl (by simp) (fun _ h => .inl h)
              · rename_i q _
                split at hs
                · cases hs
                · cases hs
                · rename_i tx ha
                  obtain ⟨_, _, _, _, hfin⟩ := Async.submit_facts ha
                  cases ht : s.take (.client i) with
                  | no => rw [ht] at hs; cases hs
                  | ub => rw [ht] at hs; cases hs
                  | ok t =>
                    rw [ht] at hs
                    cases take_eq ht
                    simp only [Out.andThen] at hs
                    cases ht2 : State.take { s with refs := set s.refs (.client i) (s.refs (.client i) + 1) } (.request q) with
                    | no => rw [ht2] at hs; cases hs
                    | ub => rw [ht2] at hs; cases hs
                    | ok t2 =>
                      rw [ht2] at hs
                      cases take_eq ht2
                      cases hs
                      exact Frame.same rfl rfl rfl rfl (by simp) (fun p hp => .inl (by rw [← hfin]; exact hp))
      · cases hs
  | cancel i id =>
    simp only [step] at hs
    split at hs
    · split at hs
      · cases hs
      · split at hs
        · cases hs
        · cases hs
        · rename_i tx ha
          obtain ⟨_, hfin, _⟩ := Async.cancel_facts h.facts ha
          split at hs
          · cases hs; exact Frame.same rfl rfl rfl rfl (by simp) (fun p hp => .inl (by rw [← hfin]; exact hp))
          · cases hs; exact Frame.same rfl rfl rfl (evs := []) (by simp) (by simp) (fun p hp => .inl (by rw [← hfin]; exact hp))
    · cases hs
  | check p =>
    simp only [step] at hs
    split at hs
    · cases hs
    · cases hs
    · rename_i tx ha
      obtain ⟨_, _, _, hfin, _⟩ := Async.check_facts h.facts ha
      cases hs; exact Frame.same rfl rfl rfl (evs := []) (by simp) (by simp) (fun p hp => .inl (by rw [← hfin]; exact hp))
  | exec p =>
    simp only [step] at hs
    split at hs
    · cases hs
    · cases hs
    · rename_i tx ha
      obtain ⟨_, _, _, _, _, hfin⟩ := Async.exec_facts h.facts ha
      cases hs; exact Frame.same rfl rfl rfl (evs := []) (by simp) (by simp) (fun p hp => .inl (by rw [← hfin]; exact hp))
  | post p =>
    simp only [step] at hs
    split at hs
    · cases hs
    · cases hs
    · rename_i tx ha
      obtain ⟨_, _, hfin, _⟩ := Async.post_facts h.facts ha
      cases hs; exact Frame.same rfl rfl rfl (evs := []) (by simp) (by simp) (fun p hp => .inl (by rw [← hfin]; exact hp))
  | flush p =>
    simp only [step] at hs
    split at hs
    · cases hs
    · cases hs
    · rename_i tx ha
      cases hs
      refine Frame.same rfl rfl rfl (evs := []) (by simp) (by simp) (fun q hq => ?_)
      have hq : q ∈ tx.finishing := hq
      simp only [Async.step] at ha
      split at ha
      · split at ha
        · cases ha
          rcases List.mem_cons.1 hq with rfl | hq
          · exact .inr (.inr rfl)
          · exact .inl hq
        · cases ha
      · cases ha
  | executed p reply status =>
    simp only [step] at hs
    split at hs
    · cases hs
    · cases hs
    · rename_i tx ha
      obtain ⟨_, _, _, _, _, hfin⟩ := Async.executed_facts h.facts ha
      split at hs
      · cases hs
      · split at hs
        · cases hs
        · split at hs
          · cases hs
            cases reply with
            | true => exact Frame.same rfl rfl rfl (evs := [.made (.reply s.next), _]) (by simp [State.see, State.make]; rfl) (by simp) (fun p hp => .inl (by rw [← hfin]; exact hp))
            | false => exact Frame.same rfl rfl rfl rfl (by simp) (fun p hp => .inl (by rw [← hfin]; exact hp))
          · cases hs
  | done p =>
    simp only [step] at hs
    split at hs
    · cases hs
    · cases hs
    · rename_i tx ha
      obtain ⟨_, _, _, _, _, hfin⟩ := Async.done_facts h.facts ha
      have hf : ∀ q, q ∈ tx.finishing → q ∈ s.tx.finishing ∨ Label.done p = .done q ∨ Label.done p = .flush q := by
        intro q hq
        rw [hfin] at hq
        rcases List.mem_cons.1 hq with rfl | hq
        · exact .inr (.inl rfl)
        · exact .inl hq
      split at hs
      · split at hs
        · cases hs; exact Frame.same rfl rfl rfl (evs := []) (by simp) (by simp) hf
        · split at hs
          · cases hs
          · cases hs; exact Frame.same rfl rfl rfl rfl (by simp) hf
      · cases hs
  | free p =>
    simp only [step] at hs
    split at hs
    · cases hs
    · cases hs
    · rename_i tx ha
      obtain ⟨_, _, _, _, _, _, hfin⟩ := Async.free_facts h.facts ha
      split at hs
      · cases hs
      · rename_i c hc
        cases hd : s.dropAll c.inner with
        | no => rw [hd] at hs; cases hs
        | ub => rw [hd] at hs; cases hs
        | ok t =>
          rw [hd] at hs
          cases hs
          obtain ⟨a1, a2, a3, a4, evs, a5, a6⟩ := dropAll_still hd
          refine ⟨SameClients.refl a4, fun r _ => congrFun a2 r, ⟨evs ++ [_], by show t.log ++ _ = _; rw [a5, List.append_assoc], ?_, fun r => ?_⟩, fun q hq => .inl (hfin q hq)⟩
          · intro q d hm
            rcases List.mem_append.1 hm with hm | hm
            · exact absurd rfl ((not_special a6 _ hm).1 q d)
            · simp at hm; rw [hm.1]
          · show t.dead r = true ↔ _
            rw [a3]
            refine ⟨.inl, fun x => x.elim id fun hm => ?_⟩
            rcases List.mem_append.1 hm with hm | hm
            · exact absurd rfl ((not_special a6 _ hm).2 r)
            · simp at hm
  | leave p =>
    simp only [step] at hs
    split at hs
    · cases hs
    · split at hs
      · rename_i c hc _
        have hd := dropClient_still hs
        obtain ⟨evs, h1, h2⟩ := hd.log
        refine ⟨hd.clients, fun r _ => congrFun hd.handle r, ⟨.over p :: evs, by simpa [State.see] using h1, ?_, fun r => ?_⟩, fun q hq => .inl (by rw [hd.tx] at hq; exact hq)⟩
        · intro q d hm
          rcases List.mem_cons.1 hm with hm | hm
          · cases hm
          · exact absurd rfl ((not_special h2 _ hm).1 q d)
        · rw [hd.dead]
          refine ⟨.inl, fun x => x.elim id fun hm => ?_⟩
          rcases List.mem_cons.1 hm with hm | hm
          · cases hm
          · exact absurd rfl ((not_special h2 _ hm).2 r)
      · cases hs

end Gb.ClientCalls
