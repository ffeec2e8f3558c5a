import Verif.Lemmas.Bridge
/-
Invariants of Model/Bridge: what the functions do to one of the interfaces, and the steps.
-/
set_option autoImplicit false

namespace Gb.Bridge

theorem Rel.exists {i : Nat} {s s' : State} (h : Rel i s s') (hi : s.iface i ≠ none) : s'.iface i ≠ none := by
  obtain ⟨x, hx⟩ := Option.ne_none_iff_exists'.1 hi
  obtain ⟨y, hy, -⟩ := h.same x hx
  rw [hy]; simp

/-- Everybody is fine except maybe `i`: the proxy forwards requests to the object which has been found, and if the object
is dead then that's going to be noticed. -/
def Fine (s : State) (i : Nat) : Prop :=
  (∀ p, s.proxyOf i = some p → s.targetOf p = s.objOf i) ∧
  (∀ rm, s.objOf i = some rm → .died rm ∈ s.log → .death rm i ∈ s.calls)

def FineBut (i : Nat) (s : State) : Prop := ∀ j, j ≠ i → Fine s j

theorem Rel.died {i : Nat} {s s' : State} (h : Rel i s s') (hi : s.iface i ≠ none) (rm : Nat) :
    .died rm ∈ s'.log ↔ .died rm ∈ s.log := by
  obtain ⟨x, hx⟩ := Option.ne_none_iff_exists'.1 hi
  obtain ⟨es, he, ha⟩ := h.log x hx
  rw [he, List.mem_append]
  constructor
  · rintro (h | h)
    · exact h
    · exact (ha _ h).elim
  · exact .inl

theorem Rel.objOf {i j : Nat} {s s' : State} (h : Rel i s s') (hj : j ≠ i) : s'.objOf j = s.objOf j := by
  simp only [State.objOf, h.others j hj]

theorem Rel.proxyOf {i j : Nat} {s s' : State} (h : Rel i s s') (hj : j ≠ i) : s'.proxyOf j = s.proxyOf j := by
  simp only [State.proxyOf, h.others j hj]

theorem Does.fineBut {i : Nat} {s s' : State} {a b c : Option Nat} (h : Does i s a b c s') (hi : s.iface i ≠ none)
    (hf : FineBut i s) : FineBut i s' := by
  obtain ⟨_, hr, _, _, _, hc, ht⟩ := h
  intro j hj
  have ho := hr.objOf hj
  have hp := hr.proxyOf hj
  refine ⟨fun p hp' => ?_, fun rm ho' hd => ?_⟩
  · rw [ht j p hp' (hp ▸ hp'), ho]
    exact (hf j hj).1 p (hp ▸ hp')
  · rw [hr.died hi] at hd
    exact hc rm j ((hf j hj).2 rm (ho ▸ ho') hd) ho.symm

/-- gbinder_bridge.c:88-102 -/
theorem Inv.deactivate {s : State} (h : Inv s) {i : Nat} (hi : s.iface i ≠ none) :
    Good (s.deactivate i) fun s' => Inv s' ∧ Rel i s s' ∧ s'.objOf i = none ∧ s'.proxyOf i = none ∧ s'.serviceOf i = none ∧
      (FineBut i s → ∀ j, Fine s' j) := by
  simp only [State.deactivate]
  refine Good.andThen (P := fun s' => Inv s' ∧ Rel i s s' ∧ s'.objOf i = none ∧ s'.proxyOf i = none ∧
    (FineBut i s → FineBut i s')) ?_ ?_
  · refine (h.dropRemote hi).andThen fun a ha => ?_
    have hia := ha.2.1.exists hi
    refine (ha.1.dropProxy hia).mono fun b hb => ?_
    exact ⟨hb.1, ha.2.1.trans hb.2.1, hb.2.2.1.trans ha.2.2.1, hb.2.2.2.1, fun hf => hb.fineBut hia (ha.fineBut hi hf)⟩
  · intro b hb
    have hib := hb.2.1.exists hi
    refine (hb.1.dropService hib).mono fun c hc => ?_
    have h1 : c.objOf i = none := hc.2.2.1.trans hb.2.2.1
    have h2 : c.proxyOf i = none := hc.2.2.2.1.trans hb.2.2.2.1
    refine ⟨hc.1, hb.2.1.trans hc.2.1, h1, h2, hc.2.2.2.2.1, fun hf j => ?_⟩
    by_cases hj : j = i
    · subst hj
      refine ⟨fun p hp => ?_, fun rm hrm => ?_⟩
      · rw [h2] at hp; cases hp
      · rw [h1] at hrm; cases hrm
    · exact hc.fineBut hib (hb.2.2.2.2 hf) j hj

/-- gbinder_bridge.c:132-162 -/
theorem Inv.activate {s : State} (h : Inv s) {i : Nat} (hi : s.iface i ≠ none) (found : Option Nat) :
    Good (s.activate i found) fun s' => Inv s' ∧ Rel i s s' ∧
      (s'.objOf i = none ∨ (s'.proxyOf i).isSome ∧ (s'.serviceOf i).isSome) ∧
      (found.isSome → (s'.objOf i).isSome) ∧
      ((∀ j, Fine s j) → (∀ rm, .death rm i ∉ s.calls) → (∀ rm, found = some rm → .died rm ∉ s.log) → ∀ j, Fine s' j) := by
  simp only [State.activate]
  /- the object -/
  refine Good.andThen (P := fun a => Inv a ∧ Rel i s a ∧ (found.isSome → (a.objOf i).isSome) ∧
    ((∀ j, Fine s j) → (∀ rm, .death rm i ∉ s.calls) → (∀ rm, found = some rm → .died rm ∉ s.log) →
      FineBut i a ∧ (a.proxyOf i = none ∨ Fine a i) ∧
        ∀ rm, a.objOf i = some rm → .died rm ∉ a.log) ∧
    (a.objOf i = none ∨ (a.proxyOf i).isSome)) ?_ ?_
  · refine Good.andThen (P := fun a => Inv a ∧ Rel i s a ∧ (found.isSome → (a.objOf i).isSome) ∧
      ((∀ j, Fine s j) → (∀ rm, .death rm i ∉ s.calls) → (∀ rm, found = some rm → .died rm ∉ s.log) →
        FineBut i a ∧ (a.proxyOf i = none ∨ Fine a i) ∧
          ∀ rm, a.objOf i = some rm → .died rm ∉ a.log)) ?_ ?_
    · refine (h.checkDead hi).andThen fun a ha => ?_
      have ha' : Inv a ∧ Rel i s a := by
        rcases ha with rfl | ⟨ha, -⟩
        · exact ⟨h, Rel.refl _ _⟩
        · exact ⟨ha.1, ha.2.1⟩
      have hia := ha'.2.exists hi
      refine (ha'.1.attach hia found).mono fun b hb => ?_
      refine ⟨hb.1, ha'.2.trans hb.2.1, fun hf => ?_, fun hF hD hK => ?_⟩
      · rw [hb.2.2.1]
        cases a.objOf i <;> simp [hf]
      · have hnd : ∀ rm, s.objOf i = some rm → .died rm ∉ s.log := fun rm hrm hd => hD rm ((hF i).2 rm hrm hd)
        have hac : a = s := by
          rcases ha with rfl | ⟨ha, rm, hrm, hd⟩
          · rfl
          · exact absurd hd (hnd rm hrm)
        subst hac
        refine ⟨hb.fineBut hi fun j _ => hF j, ?_, ?_⟩
        · cases ho : a.objOf i with
          | none =>
            left
            rw [hb.2.2.2.1]
            cases hp : a.proxyOf i with
            | none => rfl
            | some p =>
              have h1 := (hF i).1 p hp
              rw [ho] at h1
              have := h.p.live (.iface i) p (by simp [uOwner, hp])
              simp only [State.targetOf, Option.map_eq_none_iff] at h1
              simp [pRefs, h1] at this
          | some rm =>
            right
            have hbo : b.objOf i = a.objOf i := by rw [hb.2.2.1, ho]; rfl
            refine ⟨fun p hp => ?_, fun k hk hd => ?_⟩
            · have hp' : a.proxyOf i = some p := by rw [← hb.2.2.2.1]; exact hp
              rw [hb.2.2.2.2.2.2 i p hp hp', hbo]
              exact (hF i).1 p hp'
            · rw [hb.2.1.died hi] at hd
              exact absurd hd (hnd k (hbo ▸ hk))
        · intro rm hrm
          rw [hb.2.1.died hi]
          rw [hb.2.2.1] at hrm
          cases ho : a.objOf i with
          | none => rw [ho] at hrm; exact hK rm hrm
          | some k => rw [ho] at hrm; exact hnd rm (by rw [ho]; exact hrm)
    · intro a ha
      have hia := ha.2.1.exists hi
      refine (ha.1.makeProxy hia).mono fun b hb => ?_
      obtain ⟨hb, hbt⟩ := hb
      refine ⟨hb.1, ha.2.1.trans hb.2.1, fun hf => by rw [hb.2.2.1]; exact ha.2.2.1 hf, fun hF hD hK => ?_, ?_⟩
      · obtain ⟨h1, h2, h3⟩ := ha.2.2.2 hF hD hK
        have h3' : ∀ rm, b.objOf i = some rm → .died rm ∉ b.log := by
          intro rm hrm
          rw [hb.2.1.died hia]
          exact h3 rm (by rw [← hb.2.2.1]; exact hrm)
        refine ⟨hb.fineBut hia h1, .inr ⟨fun p hp => ?_, fun rm hrm hd => absurd hd (h3' rm hrm)⟩, h3'⟩
        rw [hb.2.2.1]
        rcases h2 with h2 | h2
        · exact hbt h2 p hp
        · cases hq : a.proxyOf i with
          | none => exact hbt hq p hp
          | some q =>
            have : b.proxyOf i = some q := by
              rw [hb.2.2.2.1]; simp only [State.proxyNext, hq]
              cases a.objOf i <;> rfl
            rw [hp] at this
            cases this
            rw [hb.2.2.2.2.2.2 i p hp hq]
            exact h2.1 p hq
      · rw [hb.2.2.1, hb.2.2.2.1]
        cases ho : a.objOf i with
        | none => exact .inl rfl
        | some rm =>
          right
          cases hq : a.proxyOf i with
          | none => simp [State.proxyNext, ho, hq]
          | some q => simp [State.proxyNext, hq]
  · intro a ha
    have hia := ha.2.1.exists hi
    refine (ha.1.publish hia).mono fun b hb => ?_
    refine ⟨hb.1, ha.2.1.trans hb.2.1, ?_, fun hf => by rw [hb.2.2.1]; exact ha.2.2.1 hf, fun hF hD hK j => ?_⟩
    · rw [hb.2.2.1, hb.2.2.2.1, hb.2.2.2.2.1]
      rcases ha.2.2.2.2 with h1 | h1
      · exact .inl h1
      · refine .inr ⟨h1, ?_⟩
        obtain ⟨p, hp⟩ := Option.isSome_iff_exists.1 h1
        cases hq : a.serviceOf i with
        | none => simp [State.serviceNext, hp, hq]
        | some q => simp [State.serviceNext, hq]
    · obtain ⟨h1, h2, h3⟩ := ha.2.2.2.1 hF hD hK
      by_cases hj : j = i
      · subst hj
        refine ⟨fun p hp => ?_, fun rm hrm hd => ?_⟩
        · have hp' : a.proxyOf j = some p := by rw [← hb.2.2.2.1]; exact hp
          rw [hb.2.2.2.2.2.2 j p hp hp', hb.2.2.1]
          rcases h2 with h2 | h2
          · rw [h2] at hp'; cases hp'
          · exact h2.1 p hp'
        · rw [hb.2.1.died hia] at hd
          exact absurd hd (h3 rm (by rw [← hb.2.2.1]; exact hrm))
      · exact hb.fineBut hia h1 j hj

/-! ### The other things that happen -/

theorem viewOf_of {s s' : State} (h1 : s'.iface = s.iface) (h2 : s'.ifaces = s.ifaces)
    (h3 : ∀ i p, s.proxyOf i = some p → s'.targetOf p = s.targetOf p) (j : Nat) : viewOf s' j = viewOf s j :=
  viewOf_congr (by rw [h1]) h2 (h3 j)

/-- Nothing happens to the interfaces. -/
theorem Inv.aside {s s' : State} (h : Inv s) (hif : s'.iface = s.iface) (hifs : s'.ifaces = s.ifaces)
    (hsv : s'.service = s.service) (hsvs : s'.services = s.services)
    (hr : Counted (rRefs s'.remote) (hOwner s.objOf s'.targetOf))
    (hp : Counted (pRefs s'.proxy) (uOwner s.proxyOf s.service))
    (fR : ∀ rm, s'.remote rm ≠ none → rm < s'.remotes)
    (fP : ∀ p, s'.proxy p ≠ none → p < s'.proxies)
    (hd : ∀ rm i, .death rm i ∈ s'.calls → s.objOf i = some rm)
    (hg : ∀ i n, .registration i n ∈ s'.calls → s.iface i ≠ none)
    (ht : ∀ i p, s.proxyOf i = some p → s'.targetOf p = s.targetOf p)
    {es : List Ev} (hlog : s'.log = s.log ++ es) (hes : ∀ i v, ∀ e ∈ es, next i v e = some v)
    (hdead : ∀ rm x, s'.remote rm = some x → (x.dead = true ↔ .died rm ∈ s'.log))
    (hpast : ∀ rm, .died rm ∈ s'.log → rm < s'.remotes) : Inv s' := by
  have ho : s'.objOf = s.objOf := by funext j; simp only [State.objOf, hif]
  have hpr : s'.proxyOf = s.proxyOf := by funext j; simp only [State.proxyOf, hif]
  have hse : s'.serviceOf = s.serviceOf := by funext j; simp only [State.serviceOf, hif]
  constructor
  · rw [ho]; exact hr
  · rw [hpr, hsv]; exact hp
  · rw [hse, hsv]; exact h.nE
  · rw [hse]; exact h.nU
  · exact fR
  · exact fP
  · rw [hsv, hsvs]; exact h.fS
  · rw [hif, hifs]; exact h.fI
  · rw [ho]; exact hd
  · rw [hif]; exact hg
  · intro i
    rw [viewOf_of hif hifs ht, hlog, life_append, h.life i]
    generalize viewOf s i = v
    clear hlog hdead hpast
    induction es with
    | nil => rfl
    | cons e es ih =>
      rw [List.foldl_cons]
      simp only [Option.bind_some, hes i v e List.mem_cons_self]
      exact ih fun i v e he => hes i v e (List.mem_cons_of_mem _ he)
  · exact hdead
  · exact hpast

/-- Fewer calls, and something which isn't about the interfaces. -/
theorem Inv.noted {s : State} (h : Inv s) {calls : List Call} (hd : ∀ rm i, .death rm i ∈ calls → s.objOf i = some rm)
    (hg : ∀ i n, .registration i n ∈ calls → s.iface i ≠ none) {es : List Ev}
    (hes : ∀ i v, ∀ e ∈ es, next i v e = some v) (hnd : ∀ rm, .died rm ∉ es) {bridges : Nat} {bridge : Nat → Option (List Nat)} :
    Inv { s with calls := calls, log := s.log ++ es, bridges := bridges, bridge := bridge } := by
  have hm : ∀ rm, .died rm ∈ s.log ++ es ↔ .died rm ∈ s.log := by
    intro rm
    rw [List.mem_append]
    exact ⟨fun h => h.elim id fun h => absurd h (hnd rm), .inl⟩
  refine h.aside rfl rfl rfl rfl h.r h.p h.fR h.fP hd hg (fun _ _ _ => rfl) rfl hes ?_ ?_
  · intro rm x hx
    show _ ↔ .died rm ∈ s.log ++ es
    rw [hm]; exact h.dead rm x hx
  · intro rm hrm
    exact h.past rm ((hm rm).1 hrm)

/-- gbinder_bridge.c:187-195 -/
theorem Inv.watch {s : State} (h : Inv s) (f n : Bytes) :
    Inv ((({ s with ifaces := s.ifaces + 1 } : State).setIface s.ifaces (some { fqname := f, srcName := n })).see
      [.watch s.ifaces f]) := by
  have hno : s.iface s.ifaces = none := by
    cases hx : s.iface s.ifaces with
    | none => rfl
    | some x => exact absurd (h.fI s.ifaces (by rw [hx]; simp)) (Nat.lt_irrefl _)
  have hb : ∀ (g : Iface → Option Nat) j, g { fqname := f, srcName := n } = none →
      ((upd s.iface s.ifaces (some { fqname := f, srcName := n })) j).bind g = (s.iface j).bind g := by
    intro g j hg
    simp only [upd]; split
    · rename_i hj; rw [hj, hno]; exact hg
    · rfl
  constructor
  · have e : (fun j => ((upd s.iface s.ifaces (some { fqname := f, srcName := n })) j).bind (·.obj)) = s.objOf := funext fun j => hb (·.obj) j rfl
    have hc := h.r
    rw [← e] at hc
    exact hc
  · have e : (fun j => ((upd s.iface s.ifaces (some { fqname := f, srcName := n })) j).bind (·.proxy)) = s.proxyOf := funext fun j => hb (·.proxy) j rfl
    have hc := h.p
    rw [← e] at hc
    exact hc
  · intro i k hk
    exact h.nE i k ((hb (·.service) i rfl).symm.trans hk)
  · intro i j k hi hj
    exact h.nU i j k ((hb (·.service) i rfl).symm.trans hi) ((hb (·.service) j rfl).symm.trans hj)
  · exact h.fR
  · exact h.fP
  · exact h.fS
  · intro i hi
    show i < s.ifaces + 1
    by_cases hj : i = s.ifaces
    · omega
    · have := h.fI i (by simpa [State.see, State.setIface, upd, hj] using hi)
      omega
  · intro rm i hi
    exact (hb (·.obj) i rfl).trans (h.death rm i hi)
  · intro i k hi
    have := h.reg i k hi
    simp only [State.see, State.setIface, upd]; split
    · simp
    · exact this
  · intro i
    show Bridge.life i (s.log ++ [_]) = _
    rw [life_snoc, h.life i]
    simp only [Option.bind_some, next]
    by_cases hi : s.ifaces = i
    · subst hi
      simp [viewOf, hno, State.see, State.setIface, upd]
    · rw [if_neg hi]
      have hi' : i ≠ s.ifaces := fun h => hi h.symm
      simp only [viewOf, State.see, State.setIface, upd, if_neg hi']
      cases hx : s.iface i with
      | none =>
        simp only [Option.some.injEq]
        by_cases hlt : i < s.ifaces
        · rw [if_pos hlt]; exact (if_pos (show i < s.ifaces + 1 by omega)).symm
        · rw [if_neg hlt]; exact (if_neg (show ¬i < s.ifaces + 1 by omega)).symm
      | some x => rfl
  · intro rm x hx
    show _ ↔ .died rm ∈ s.log ++ [_]
    simp only [List.mem_append, List.mem_singleton, reduceCtorEq, or_false]
    exact h.dead rm x hx
  · intro rm hrm
    exact h.past rm (by simpa [State.see, State.setIface] using hrm)

/-- gbinder_bridge.c:104-118: what's left of it is nothing. -/
theorem Inv.unwatch {s : State} (h : Inv s) {i : Nat} (hi : s.iface i ≠ none) (h1 : s.objOf i = none)
    (h2 : s.proxyOf i = none) (h3 : s.serviceOf i = none) {calls : List Call} (hc : ∀ c ∈ calls, c ∈ s.calls)
    (hg : ∀ n, .registration i n ∉ calls) :
    Inv ((({ s with calls := calls } : State).setIface i none).see [.unwatch i]) := by
  obtain ⟨x, hx⟩ := Option.ne_none_iff_exists'.1 hi
  have hb : ∀ (g : Iface → Option Nat) j, (s.iface i).bind g = none →
      ((upd s.iface i none) j).bind g = (s.iface j).bind g := by
    intro g j hg
    simp only [upd]; split
    · rename_i hj; rw [hj, hg]; rfl
    · rfl
  constructor
  · have e : (fun j => ((upd s.iface i none) j).bind (·.obj)) = s.objOf := funext fun j => hb (·.obj) j h1
    have hc := h.r
    rw [← e] at hc
    exact hc
  · have e : (fun j => ((upd s.iface i none) j).bind (·.proxy)) = s.proxyOf := funext fun j => hb (·.proxy) j h2
    have hc := h.p
    rw [← e] at hc
    exact hc
  · intro j k hk
    exact h.nE j k ((hb (·.service) j h3).symm.trans hk)
  · intro j l k hj hl
    exact h.nU j l k ((hb (·.service) j h3).symm.trans hj) ((hb (·.service) l h3).symm.trans hl)
  · exact h.fR
  · exact h.fP
  · exact h.fS
  · intro j hj
    by_cases hji : j = i
    · subst hji; exact h.fI j hi
    · exact h.fI j (by simpa [State.see, State.setIface, upd, hji] using hj)
  · intro rm j hj
    exact (hb (·.obj) j h1).trans (h.death rm j (hc _ hj))
  · intro j k hj
    have := h.reg j k (hc _ hj)
    simp only [State.see, State.setIface, upd]; split
    · rename_i hji; subst hji; exact absurd hj (hg k)
    · exact this
  · intro j
    show Bridge.life j (s.log ++ [_]) = _
    rw [life_snoc, h.life j]
    simp only [Option.bind_some, next]
    by_cases hji : i = j
    · subst hji
      simp only [State.objOf, State.proxyOf, State.serviceOf, hx, Option.bind_some] at h1 h2 h3
      simp [viewOf, hx, State.see, State.setIface, upd, h1, h2, h3, h.fI i hi]
    · rw [if_neg hji]
      have hj' : j ≠ i := fun h => hji h.symm
      simp only [viewOf, State.see, State.setIface, upd, if_neg hj']
      cases s.iface j <;> rfl
  · intro rm x hx
    show _ ↔ .died rm ∈ s.log ++ [_]
    simp only [List.mem_append, List.mem_singleton, reduceCtorEq, or_false]
    exact h.dead rm x hx
  · intro rm hrm
    exact h.past rm (by simpa [State.see, State.setIface] using hrm)

end Gb.Bridge
