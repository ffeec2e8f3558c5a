import Verif.Lemmas.BridgeBook
/-
Invariants of Model/Bridge: all steps.
-/
set_option autoImplicit false

namespace Gb.Bridge

theorem Book.done {s : State} {src dest : Bytes} (h : Book s src dest []) : Book s [] [] [] := by
  refine ⟨h.fB, h.nodup, h.there, h.apart, h.opened, h.freed, ?_, h.past, h.named⟩
  intro b n d l ho i f hf
  rcases h.name b n d l ho i f hf with k | ⟨-, -, -, k⟩
  · exact .inl k
  · simp at k

theorem Inv.newIface {s : State} (h : Inv s) {src dest f : Bytes} {pend : List Bytes} (hb : Book s src dest (f :: pend))
    (look : Nat → Option Nat) :
    Good (s.newIface src dest f look) fun s' => Inv s' ∧ Book s' src dest pend ∧
      (∀ rm, .died rm ∈ s'.log ↔ .died rm ∈ s.log) ∧
      ((∀ j, Fine s j) → (∀ i rm, look i = some rm → .died rm ∉ s.log) → ∀ j, Fine s' j) := by
  simp only [State.newIface]
  have hno : s.iface s.ifaces = none := by
    cases hx : s.iface s.ifaces with
    | none => rfl
    | some x => exact absurd (h.fI s.ifaces (by rw [hx]; simp)) (Nat.lt_irrefl _)
  have h0 := h.watch (f ++ [0x2f] ++ dest) src
  have hb0 := hb.watch h.fI
  have hi0 : ((({ s with ifaces := s.ifaces + 1 } : State).setIface s.ifaces
      (some { fqname := f ++ [0x2f] ++ dest, srcName := src })).see
      [.watch s.ifaces (f ++ [0x2f] ++ dest)]).iface s.ifaces ≠ none := by
    simp [State.see, State.setIface, upd]
  refine (h0.activate hi0 (look s.ifaces)).mono fun s' hs => ?_
  obtain ⟨h1, h2, -, -, h3⟩ := hs
  have hd : ∀ rm, .died rm ∈ s.log ++ [.watch s.ifaces (f ++ [0x2f] ++ dest)] ↔ .died rm ∈ s.log := by
    intro rm; simp
  refine ⟨h1, hb0.rel h0.fI hi0 h2, fun rm => ?_, fun hF hK => h3 (fun j => ?_) ?_ ?_⟩
  · rw [h2.died hi0]; exact hd rm
  · have hbnd : ∀ (g : Iface → Option Nat) y, g { fqname := f ++ [0x2f] ++ dest, srcName := src } = none →
        ((upd s.iface s.ifaces (some { fqname := f ++ [0x2f] ++ dest, srcName := src })) j).bind g = some y →
        j ≠ s.ifaces ∧ (s.iface j).bind g = some y := by
      intro g y hg hy
      by_cases hj : j = s.ifaces
      · subst hj; rw [upd_same, Option.bind_some, hg] at hy; cases hy
      · rw [upd_ne _ _ hj] at hy; exact ⟨hj, hy⟩
    refine ⟨fun p hp => ?_, fun rm hrm hdd => ?_⟩
    · obtain ⟨hj, hp'⟩ := hbnd (·.proxy) p rfl hp
      show s.targetOf p = ((upd s.iface s.ifaces _) j).bind _
      rw [upd_ne _ _ hj]
      exact (hF j).1 p hp'
    · obtain ⟨hj, hrm'⟩ := hbnd (·.obj) rm rfl hrm
      exact (hF j).2 rm hrm' ((hd rm).1 hdd)
  · intro rm hrm
    have := h.death rm s.ifaces hrm
    simp [State.objOf, hno] at this
  · intro rm hrm hdd
    exact hK _ rm hrm ((hd rm).1 hdd)

theorem Inv.newIfaces {src dest : Bytes} {look : Nat → Option Nat} {fs : List Bytes} : ∀ {s : State}, Inv s →
    Book s src dest fs →
    Good (s.newIfaces src dest look fs) fun s' => Inv s' ∧ Book s' [] [] [] ∧
      ((∀ j, Fine s j) → (∀ i rm, look i = some rm → .died rm ∉ s.log) → ∀ j, Fine s' j) := by
  induction fs with
  | nil => exact fun {s} h hb => Good.ok ⟨h, hb.done, fun h _ => h⟩
  | cons f fs ih =>
    intro s h hb
    simp only [State.newIfaces]
    refine (h.newIface hb look).andThen fun a ha => ?_
    obtain ⟨h1, h2, h3, h4⟩ := ha
    refine (ih h1 h2).mono fun c hc => ?_
    exact ⟨hc.1, hc.2.1, fun hF hK => hc.2.2 (h4 hF hK) fun i rm hi hd => hK i rm hi ((h3 rm).1 hd)⟩

/-- gbinder_bridge.c:206-246: the structure. -/
theorem Book.open {s : State} (h : Book s [] [] []) (hI : ∀ i, s.iface i ≠ none → i < s.ifaces) {src dest : Bytes}
    {fs : List Bytes} :
    Book (({ s with bridges := s.bridges + 1
                    bridge := upd s.bridge s.bridges (some (List.range' s.ifaces fs.length)) } : State).see
      [.opened s.bridges src dest ((List.range' s.ifaces fs.length).zip fs)]) src dest fs := by
  have hids : ((List.range' s.ifaces fs.length).zip fs).map (·.1) = List.range' s.ifaces fs.length := by
    rw [List.map_fst_zip]; simp
  have hold : ∀ b ids, s.bridge b = some ids → ∀ i ∈ ids, s.iface i ≠ none := by
    intro b ids hb i hi
    rcases h.there b ids hb i hi with k | k
    · exact k
    · simp only [List.length_nil] at k; omega
  have hbr : ∀ c jds, upd s.bridge s.bridges (some (List.range' s.ifaces fs.length)) c = some jds →
      c = s.bridges ∧ jds = List.range' s.ifaces fs.length ∨ c ≠ s.bridges ∧ s.bridge c = some jds := by
    intro c jds hc
    by_cases hcb : c = s.bridges
    · subst hcb; rw [upd_same] at hc; cases hc; exact .inl ⟨rfl, rfl⟩
    · rw [upd_ne _ _ hcb] at hc; exact .inr ⟨hcb, hc⟩
  constructor
  · intro c hc
    show c < s.bridges + 1
    by_cases hcb : c = s.bridges
    · omega
    · have := h.fB c (by simpa [State.see, upd, hcb] using hc)
      omega
  · intro c jds hc
    rcases hbr c jds hc with ⟨-, rfl⟩ | ⟨-, k⟩
    · exact List.nodup_range' 
    · exact h.nodup c jds k
  · intro c jds hc i hi
    rcases hbr c jds hc with ⟨-, rfl⟩ | ⟨-, k⟩
    · rw [List.mem_range'_1] at hi; exact .inr hi
    · exact .inl (hold c jds k i hi)
  · intro b c ids jds i hb hc hi hj
    rcases hbr b ids hb with ⟨rfl, rfl⟩ | ⟨k1, k2⟩ <;> rcases hbr c jds hc with ⟨rfl, rfl⟩ | ⟨m1, m2⟩
    · rfl
    · rw [List.mem_range'_1] at hi
      have := hI i (hold c jds m2 i hj); omega
    · rw [List.mem_range'_1] at hj
      have := hI i (hold b ids k2 i hi); omega
    · exact h.apart b c ids jds i k2 m2 hi hj
  · intro c n d l ho
    show c < s.bridges + 1 ∧ (upd s.bridge s.bridges _ c = _ ∨ .freed c ∈ s.log ++ [_] ∧ ∀ i ∈ l.map (·.1), s.iface i = none ∧
      i < s.ifaces)
    rcases List.mem_append.1 ho with ho | ho
    · obtain ⟨k1, k2⟩ := h.opened c n d l ho
      refine ⟨by omega, ?_⟩
      rw [upd_ne _ _ (by omega)]
      exact k2.imp id fun k => ⟨List.mem_append_left _ k.1, k.2⟩
    · cases List.mem_singleton.1 ho
      refine ⟨by omega, .inl ?_⟩
      rw [upd_same, hids]
  · intro c hc
    obtain ⟨k1, k2⟩ := h.freed c (by simpa [State.see] using hc)
    refine ⟨show c < s.bridges + 1 by omega, ?_⟩
    show upd s.bridge s.bridges _ c = none
    rw [upd_ne _ _ (by omega)]; exact k2
  · intro c n d l ho i f hf
    rcases List.mem_append.1 ho with ho | ho
    · rcases h.name c n d l ho i f hf with k | ⟨-, -, -, k⟩
      · exact .inl k
      · simp at k
    · cases List.mem_singleton.1 ho
      right
      obtain ⟨j, hj, he⟩ := List.getElem_of_mem hf
      rw [List.getElem_zip] at he
      simp only [List.getElem_range', Prod.mk.injEq] at he
      obtain ⟨rfl, rfl⟩ := he
      refine ⟨show s.ifaces ≤ s.ifaces + 1 * j by omega, rfl, rfl, ?_⟩
      show fs[s.ifaces + 1 * j - s.ifaces]? = _
      rw [show s.ifaces + 1 * j - s.ifaces = j by omega]
      simp
  · intro e he i hi
    rcases List.mem_append.1 he with he | he
    · exact h.past e he i hi
    · cases List.mem_singleton.1 he; cases hi
  · intro c n d l ho i f hf
    have hw : (∀ m, .watch i m ∈ s.log → m = f ++ [0x2f] ++ d) ∧
        (∀ m rm, .found i m rm ∈ s.log → m = f ++ [0x2f] ++ d) ∧ (∀ m p q, .published i m p q ∈ s.log → q = n) := by
      rcases List.mem_append.1 ho with ho | ho
      · exact h.named c n d l ho i f hf
      · cases List.mem_singleton.1 ho
        have hi : s.ifaces ≤ i := by
          have hm : i ∈ List.range' s.ifaces fs.length := by rw [← hids]; exact List.mem_map.2 ⟨_, hf, rfl⟩
          rw [List.mem_range'_1] at hm; exact hm.1
        refine ⟨fun m hm => ?_, fun m rm hm => ?_, fun m p q hm => ?_⟩
        · have := h.past _ hm i rfl; omega
        · have := h.past _ hm i rfl; omega
        · have := h.past _ hm i rfl; omega
    refine ⟨fun m hm => hw.1 m (by simpa [State.see] using hm), fun m rm hm => hw.2.1 m rm (by simpa [State.see] using hm),
      fun m p q hm => hw.2.2 m p q (by simpa [State.see] using hm)⟩

/-- Nothing about interfaces. -/
theorem Book.aside {s s' : State} (h : Book s [] [] []) (h1 : s'.iface = s.iface) (h2 : s'.ifaces = s.ifaces)
    (h3 : s'.bridge = s.bridge) (h4 : s'.bridges = s.bridges) {es : List Ev} (h5 : s'.log = s.log ++ es)
    (h6 : ∀ e ∈ es, speaks e = none ∧ (∀ b n d l, e ≠ .opened b n d l) ∧ ∀ b, e ≠ .freed b) : Book s' [] [] [] := by
  have hop : ∀ b n d l, .opened b n d l ∈ s'.log → .opened b n d l ∈ s.log := by
    intro b n d l ho
    rw [h5] at ho
    rcases List.mem_append.1 ho with ho | ho
    · exact ho
    · exact absurd rfl ((h6 _ ho).2.1 b n d l)
  have hfr : ∀ b, .freed b ∈ s'.log ↔ .freed b ∈ s.log := by
    intro b
    rw [h5, List.mem_append]
    exact ⟨fun h => h.elim id fun h => absurd rfl ((h6 _ h).2.2 b), .inl⟩
  have hsp : ∀ e ∈ s'.log, speaks e ≠ none → e ∈ s.log := by
    intro e he hs
    rw [h5] at he
    rcases List.mem_append.1 he with he | he
    · exact he
    · exact absurd (h6 e he).1 hs
  constructor
  · rw [h3, h4]; exact h.fB
  · rw [h3]; exact h.nodup
  · rw [h3, h1, h2]; exact h.there
  · rw [h3]; exact h.apart
  · intro b n d l ho
    rw [h1, h2, h3, h4, hfr]; exact h.opened b n d l (hop b n d l ho)
  · intro b hb
    rw [h3, h4]; exact h.freed b ((hfr b).1 hb)
  · intro b n d l ho
    rw [h1, h2]; exact h.name b n d l (hop b n d l ho)
  · intro e he i hi
    rw [h2]; exact h.past e (hsp e he (by rw [hi]; simp)) i hi
  · intro b n d l ho i f hf
    obtain ⟨k1, k2, k3⟩ := h.named b n d l (hop b n d l ho) i f hf
    exact ⟨fun m hm => k1 m (hsp _ hm (by simp [speaks])), fun m rm hm => k2 m rm (hsp _ hm (by simp [speaks])),
      fun m p q hm => k3 m p q (hsp _ hm (by simp [speaks]))⟩

theorem Fine.aside {s s' : State} {j : Nat} (h : Fine s j) (h1 : s'.iface = s.iface)
    (h2 : ∀ p, s.proxyOf j = some p → s'.targetOf p = s.targetOf p)
    (h3 : ∀ rm, s.objOf j = some rm → .died rm ∈ s'.log → .death rm j ∈ s.calls → .death rm j ∈ s'.calls)
    (h4 : ∀ rm, s.objOf j = some rm → .died rm ∈ s'.log → .died rm ∈ s.log ∨ .death rm j ∈ s'.calls) : Fine s' j := by
  have ho : s'.objOf = s.objOf := by funext j; simp only [State.objOf, h1]
  have hp : s'.proxyOf = s.proxyOf := by funext j; simp only [State.proxyOf, h1]
  refine ⟨fun p k => ?_, fun rm k d => ?_⟩
  · rw [hp] at k; rw [h2 p k, ho]; exact h.1 p k
  · rw [ho] at k
    rcases h4 rm k d with h5 | h5
    · exact h3 rm k d (h.2 rm k h5)
    · exact h5

def All (s : State) : Prop := Inv s ∧ Book s [] [] []

theorem hOwner_other {obj target : Nat → Option Nat} {k : Option Nat} :
    (fun a => if a = Holder.other then (hOwner obj target a).map fun _ => k else hOwner obj target a) = hOwner obj target := by
  funext a; cases a <;> simp [hOwner]

theorem uOwner_other {obj target : Nat → Option Nat} {k : Option Nat} :
    (fun a => if a = User.other then (uOwner obj target a).map fun _ => k else uOwner obj target a) = uOwner obj target := by
  funext a; cases a <;> simp [uOwner]

theorem mem_listeners {s : State} (h : Inv s) {rm i : Nat} : i ∈ s.listeners rm ↔ s.objOf i = some rm := by
  simp only [State.listeners, List.mem_filter, List.mem_range, State.objOf]
  cases hx : s.iface i with
  | none => simp
  | some x =>
    have := h.fI i (by rw [hx]; simp)
    simp [this]

theorem All.step {s : State} (h : All s) (l : Label) :
    Good (step s l) fun s' => All s' ∧ (OkQuiet s l → (∀ j, Fine s j) → ∀ j, Fine s' j) := by
  obtain ⟨h, hb⟩ := h
  cases l with
  | newRemote =>
    simp only [Bridge.step]
    have hno : s.remote s.remotes = none := by
      cases hx : s.remote s.remotes with
      | none => rfl
      | some x => exact absurd (h.fR s.remotes (by rw [hx]; simp)) (Nat.lt_irrefl _)
    have hnd : .died s.remotes ∉ s.log := fun k => absurd (h.past _ k) (Nat.lt_irrefl _)
    refine Good.ok ⟨⟨?_, ?_⟩, fun _ hF j => ?_⟩
    · refine h.aside rfl rfl rfl rfl ?_ h.p ?_ h.fP h.death h.reg (fun _ _ _ => rfl) (es := []) (by simp [State.setRemote])
        (by simp) ?_ ?_
      · have := h.r.new (h := .other) (k := s.remotes) (by simp [rRefs, hno]) (.inl rfl)
        rw [hOwner_other] at this
        show Counted (rRefs (upd s.remote s.remotes _)) _
        rw [rRefs_upd]; exact this
      · intro rm hrm
        show rm < s.remotes + 1
        by_cases hj : rm = s.remotes
        · omega
        · have := h.fR rm (by simpa [State.setRemote, upd, hj] using hrm)
          omega
      · intro rm x hx
        by_cases hj : rm = s.remotes
        · subst hj
          simp [State.setRemote, upd] at hx
          subst hx
          simp; exact hnd
        · exact h.dead rm x (by simpa [State.setRemote, upd, hj] using hx)
      · intro rm hrm
        show rm < s.remotes + 1
        have := h.past rm hrm; omega
    · exact hb.aside rfl rfl rfl rfl (es := []) (by simp [State.setRemote]) (by simp)
    · exact (hF j).aside rfl (fun _ _ => rfl) (fun _ _ _ k => k) fun _ _ k => .inl k
  | refRemote rm =>
    simp only [Bridge.step]
    cases hx : s.remote rm with
    | none => exact Good.no
    | some x =>
      simp only [State.remoteRef, hx]
      refine Good.ok ⟨⟨?_, ?_⟩, fun _ hF j => ?_⟩
      · refine h.aside rfl rfl rfl rfl ?_ h.p ?_ h.fP h.death h.reg (fun _ _ _ => rfl) (es := []) (by simp [State.setRemote])
          (by simp) ?_ h.past
        · have := h.r.ref (h := .other) (k := rm) (l := x.refs) (by simp [rRefs, hx]) (.inl rfl)
          rw [hOwner_other] at this
          show Counted (rRefs (upd s.remote rm _)) _
          rw [rRefs_upd]; exact this
        · intro k hk
          by_cases hj : k = rm
          · exact h.fR k (by rw [hj, hx]; simp)
          · exact h.fR k (by simpa [State.setRemote, upd, hj] using hk)
        · intro k y hy
          by_cases hj : k = rm
          · subst hj
            simp [State.setRemote, upd] at hy
            subst hy
            exact h.dead k x hx
          · exact h.dead k y (by simpa [State.setRemote, upd, hj] using hy)
      · exact hb.aside rfl rfl rfl rfl (es := []) (by simp [State.setRemote]) (by simp)
      · exact (hF j).aside rfl (fun _ _ => rfl) (fun _ _ _ k => k) fun _ _ k => .inl k
  | unrefRemote rm =>
    simp only [Bridge.step]
    cases hx : s.remote rm with
    | none => exact Good.no
    | some x =>
      simp only []
      split
      · rename_i hm
        obtain ⟨r', h1, h2, h3⟩ := remoteUnref_ok h.r hx hm (.inl rfl)
        rw [hOwner_other] at h2
        rw [h1]
        refine Good.ok ⟨⟨?_, ?_⟩, fun _ hF j => ?_⟩
        · refine h.aside rfl rfl rfl rfl h2 h.p ?_ h.fP h.death h.reg (fun _ _ _ => rfl) (es := []) (by simp [State.setRemote])
            (by simp) ?_ h.past
          · intro k hk
            by_cases hj : k = rm
            · exact h.fR k (by rw [hj, hx]; simp)
            · exact h.fR k (by simpa [State.setRemote, upd, hj] using hk)
          · intro k y hy
            by_cases hj : k = rm
            · subst hj
              simp [State.setRemote, upd] at hy
              rw [h3 y hy]
              exact h.dead k x hx
            · exact h.dead k y (by simpa [State.setRemote, upd, hj] using hy)
        · exact hb.aside rfl rfl rfl rfl (es := []) (by simp [State.setRemote]) (by simp)
        · exact (hF j).aside rfl (fun _ _ => rfl) (fun _ _ _ k => k) fun _ _ k => .inl k
      · exact Good.no
  | refProxy p =>
    simp only [Bridge.step]
    cases hx : s.proxy p with
    | none => exact Good.no
    | some x =>
      simp only []
      have htgt : (s.setProxy p (some { x with refs := .other :: x.refs })).targetOf = s.targetOf := by
        funext q
        simp only [State.targetOf, State.setProxy, upd]
        split
        · rename_i hq; subst hq; simp [hx]
        · rfl
      refine Good.ok ⟨⟨?_, ?_⟩, fun _ hF j => ?_⟩
      · refine h.aside rfl rfl rfl rfl ?_ ?_ h.fR ?_ h.death h.reg (fun _ _ _ => by rw [htgt]) (es := [])
          (by simp [State.setProxy]) (by simp) h.dead h.past
        · rw [htgt]; exact h.r
        · have := h.p.ref (h := .other) (k := p) (l := x.refs) (by simp [pRefs, hx]) (.inl rfl)
          rw [uOwner_other] at this
          show Counted (pRefs (upd s.proxy p _)) _
          rw [pRefs_upd]; exact this
        · intro k hk
          by_cases hj : k = p
          · exact h.fP k (by rw [hj, hx]; simp)
          · exact h.fP k (by simpa [State.setProxy, upd, hj] using hk)
      · exact hb.aside rfl rfl rfl rfl (es := []) (by simp [State.setProxy]) (by simp)
      · exact (hF j).aside rfl (fun _ _ => by rw [htgt]) (fun _ _ _ k => k) fun _ _ k => .inl k
  | unrefProxy p =>
    simp only [Bridge.step]
    cases hx : s.proxy p with
    | none => exact Good.no
    | some x =>
      simp only []
      split
      · rename_i hm
        obtain ⟨P, R, h1, h2, h3, h4, h5⟩ := proxyUnref_ok h.p h.r hx hm (.inl rfl)
        rw [uOwner_other] at h2
        rw [h1]
        have htgt : ∀ j q, s.proxyOf j = some q → (P q).map (·.remote) = s.targetOf q := by
          intro j q hq
          have := h2.live (.iface j) q (by simp [uOwner, hq])
          obtain ⟨l, hl⟩ := Option.ne_none_iff_exists'.1 this
          obtain ⟨y, hy, _⟩ := Option.map_eq_some_iff.1 hl
          obtain ⟨y0, hy0, he⟩ := h4 q y hy
          simp [State.targetOf, hy, hy0, he]
        refine Good.ok ⟨⟨?_, ?_⟩, fun _ hF j => ?_⟩
        · refine h.aside rfl rfl rfl rfl h3 h2 ?_ ?_ h.death h.reg htgt (es := []) (by simp) (by simp) ?_ h.past
          · intro k hk
            obtain ⟨y, hy⟩ := Option.ne_none_iff_exists'.1 hk
            obtain ⟨y0, hy0, _⟩ := h5 k y hy
            exact h.fR k (by rw [hy0]; simp)
          · intro k hk
            obtain ⟨y, hy⟩ := Option.ne_none_iff_exists'.1 hk
            obtain ⟨y0, hy0, _⟩ := h4 k y hy
            exact h.fP k (by rw [hy0]; simp)
          · intro k y hy
            obtain ⟨y0, hy0, he⟩ := h5 k y hy
            rw [he]; exact h.dead k y0 hy0
        · exact hb.aside rfl rfl rfl rfl (es := []) (by simp) (by simp)
        · exact (hF j).aside rfl (htgt j) (fun _ _ _ k => k) fun _ _ k => .inl k
      · exact Good.no
  | new src dest ifaces look =>
    simp only [Bridge.step]
    have href : Good (Out.ok (s.see [.refused])) fun s' =>
        All s' ∧ (OkQuiet s (.new src dest ifaces look) → (∀ j, Fine s j) → ∀ j, Fine s' j) := by
      refine Good.ok ⟨⟨?_, ?_⟩, fun _ hF j => ?_⟩
      · exact h.noted (es := [.refused]) h.death h.reg (by simp [next]) (by simp)
      · exact hb.aside rfl rfl rfl rfl (es := [.refused]) rfl (by simp [speaks])
      · refine (hF j).aside rfl (fun _ _ => rfl) (fun _ _ _ k => k) fun _ _ k => .inl (by simpa [State.see] using k)
    cases hn : names src dest with
    | none => exact href
    | some sd =>
      obtain ⟨n, d⟩ := sd
      simp only []
      split
      · exact href
      · have h0 : Inv (({ s with bridges := s.bridges + 1
                                 bridge := upd s.bridge s.bridges (some (List.range' s.ifaces ifaces.length)) } : State).see
            [.opened s.bridges n d ((List.range' s.ifaces ifaces.length).zip ifaces)]) :=
          h.noted (es := [.opened s.bridges n d ((List.range' s.ifaces ifaces.length).zip ifaces)]) h.death h.reg
            (by simp [next]) (by simp)
        have hb0 := hb.open h.fI (src := n) (dest := d) (fs := ifaces)
        refine (h0.newIfaces hb0).mono fun s' hs => ⟨⟨hs.1, hs.2.1⟩, fun hq hF => hs.2.2 (fun j => ?_) ?_⟩
        · exact (hF j).aside rfl (fun _ _ => rfl) (fun _ _ _ k => k) fun _ _ k => .inl (by simpa [State.see] using k)
        · intro i rm hi k
          exact hq.1 i rm hi (by simpa [State.see] using k)
  | die rm is =>
    simp only [Bridge.step]
    cases hx : s.remote rm with
    | none => exact Good.no
    | some x =>
      simp only []
      split
      · exact Good.no
      · rename_i hc
        have hperm : is.Perm (s.listeners rm) := by
          have : is.isPerm (s.listeners rm) = true := by
            cases hi : is.isPerm (s.listeners rm)
            · exact absurd (.inr (by simp [hi])) hc
            · rfl
          exact List.isPerm_iff.1 this
        have his : ∀ i, i ∈ is ↔ s.objOf i = some rm := fun i => by rw [hperm.mem_iff]; exact mem_listeners h
        refine Good.ok ⟨⟨?_, ?_⟩, fun _ hF j => ?_⟩
        · refine h.aside rfl rfl rfl rfl ?_ h.p ?_ h.fP ?_ ?_ (fun _ _ _ => rfl) (es := [.died rm]) rfl (by simp [next]) ?_ ?_
          · have : rRefs (upd s.remote rm (some { x with dead := true })) = rRefs s.remote := by
              rw [rRefs_upd]; exact upd_noop (by simp [rRefs, hx])
            show Counted (rRefs (upd s.remote rm _)) _
            rw [this]; exact h.r
          · intro k hk
            by_cases hj : k = rm
            · exact h.fR k (by rw [hj, hx]; simp)
            · exact h.fR k (by simpa [State.setRemote, State.see, upd, hj] using hk)
          · intro k i hk
            rcases List.mem_append.1 hk with hk | hk
            · obtain ⟨a, ha, he⟩ := List.mem_map.1 hk
              cases he; exact (his _).1 ha
            · exact h.death k i hk
          · intro i n hk
            rcases List.mem_append.1 hk with hk | hk
            · obtain ⟨a, ha, he⟩ := List.mem_map.1 hk
              cases he
            · exact h.reg i n hk
          · intro k y hy
            show _ ↔ .died k ∈ s.log ++ [.died rm]
            by_cases hj : k = rm
            · subst hj
              simp [State.setRemote, State.see, upd] at hy
              subst hy
              simp
            · have := h.dead k y (by simpa [State.setRemote, State.see, upd, hj] using hy)
              simp [this, hj]
          · intro k hk
            show k < s.remotes
            rcases List.mem_append.1 hk with hk | hk
            · exact h.past k hk
            · cases List.mem_singleton.1 hk
              exact h.fR _ (by rw [hx]; simp)
        · exact hb.aside rfl rfl rfl rfl (es := [.died rm]) rfl (by simp [speaks])
        · refine (hF j).aside rfl (fun _ _ => rfl) (fun _ _ _ k => List.mem_append_right _ k) fun k hk hd => ?_
          rcases List.mem_append.1 hd with hd | hd
          · exact .inl hd
          · cases List.mem_singleton.1 hd
            exact .inr (List.mem_append_left _ (List.mem_map.2 ⟨j, (his j).2 hk, rfl⟩))
  | registered is name =>
    simp only [Bridge.step]
    split
    · rename_i hall
      refine Good.ok ⟨⟨?_, ?_⟩, fun _ hF j => ?_⟩
      · have hd : ∀ rm i, .death rm i ∈ is.map (fun i => Call.registration i name) ++ s.calls → s.objOf i = some rm := by
          intro rm i hk
          rcases List.mem_append.1 hk with hk | hk
          · obtain ⟨a, ha, he⟩ := List.mem_map.1 hk
            cases he
          · exact h.death rm i hk
        have hg : ∀ i n, .registration i n ∈ is.map (fun i => Call.registration i name) ++ s.calls → s.iface i ≠ none := by
          intro i n hk
          rcases List.mem_append.1 hk with hk | hk
          · obtain ⟨a, ha, he⟩ := List.mem_map.1 hk
            cases he
            have := List.all_eq_true.1 hall _ ha
            exact Option.isSome_iff_ne_none.1 this
          · exact h.reg i n hk
        have := h.noted (es := []) hd hg (by simp) (by simp) (bridges := s.bridges) (bridge := s.bridge)
        rw [List.append_nil] at this
        exact this
      · exact hb.aside rfl rfl rfl rfl (es := []) (by simp) (by simp)
      · exact (hF j).aside rfl (fun _ _ => rfl) (fun _ _ _ k => List.mem_append_right _ k) fun _ _ k => .inl k
    · exact Good.no
  | call look =>
    simp only [Bridge.step]
    cases hc : s.calls with
    | nil => exact Good.no
    | cons c rest =>
      have hsub : ∀ c, c ∈ rest → c ∈ s.calls := fun c hcc => by rw [hc]; exact List.mem_cons_of_mem _ hcc
      have h0 : Inv { s with calls := rest } := by
        have := h.noted (es := []) (calls := rest) (fun rm i k => h.death rm i (hsub _ k)) (fun i n k => h.reg i n (hsub _ k))
          (by simp) (by simp) (bridges := s.bridges) (bridge := s.bridge)
        rw [List.append_nil] at this
        exact this
      have hb0 : Book { s with calls := rest } [] [] [] := hb.aside rfl rfl rfl rfl (es := []) (by simp) (by simp)
      cases c with
      | death rm i =>
        simp only []
        have hi : s.iface i ≠ none := by
          have := h.death rm i (by rw [hc]; exact List.mem_cons_self)
          intro hn; simp [State.objOf, hn] at this
        refine (h0.deactivate hi).mono fun s' hs => ⟨⟨hs.1, hb0.rel h.fI hi hs.2.1⟩, fun _ hF => hs.2.2.2.2.2 fun j hj => ?_⟩
        refine (hF j).aside rfl (fun _ _ => rfl) (fun k _ _ hk => ?_) fun _ _ k => .inl k
        rw [hc] at hk
        rcases List.mem_cons.1 hk with hk | hk
        · cases hk; exact absurd rfl hj
        · exact hk
      | registration i name =>
        simp only []
        have hi : s.iface i ≠ none := h.reg i name (by rw [hc]; exact List.mem_cons_self)
        obtain ⟨x, hx⟩ := Option.ne_none_iff_exists'.1 hi
        simp only [hx]
        have hF0 : (∀ j, Fine s j) → ∀ j, Fine { s with calls := rest } j := fun hF j => by
          refine (hF j).aside rfl (fun _ _ => rfl) (fun k _ _ hk => ?_) fun _ _ k => .inl k
          rw [hc] at hk
          rcases List.mem_cons.1 hk with hk | hk
          · cases hk
          · exact hk
        split
        · refine (h0.activate hi (look i)).mono fun s' hs => ⟨⟨hs.1, hb0.rel h.fI hi hs.2.1⟩, fun hq hF => ?_⟩
          refine hs.2.2.2.2 (hF0 hF) (fun rm hrm => ?_) fun rm hrm => hq.1 i rm hrm
          have h2 := hq.2
          simp only [hc] at h2
          exact h2 rm (List.mem_cons_of_mem _ hrm)
        · exact Good.ok ⟨⟨h0, hb0⟩, fun _ hF => hF0 hF⟩
  | free b =>
    simp only [Bridge.step]
    cases hbb : s.bridge b with
    | none => exact Good.no
    | some ids =>
      simp only []
      refine (h.freeIfaces (hb.nodup b ids hbb) fun i hi => ?_).andThen fun a ha => ?_
      · rcases hb.there b ids hbb i hi with k | k
        · exact k
        · simp only [List.length_nil] at k; omega
      · obtain ⟨h1, h2, h3⟩ := ha
        refine Good.ok ⟨⟨h1.noted (es := [.freed b]) h1.death h1.reg (by simp [next]) (by simp), hb.free h.fI hbb h2⟩,
          fun _ hF j => ?_⟩
        exact (h3 hF j).aside rfl (fun _ _ => rfl) (fun _ _ _ k => k) fun _ _ k => .inl (by simpa [State.see] using k)

theorem All.init : All {} := by
  refine ⟨⟨⟨?_, ?_⟩, ⟨?_, ?_⟩, ?_, ?_, ?_, ?_, ?_, ?_, ?_, ?_, ?_, ?_, ?_⟩, ?_⟩
  · intro k l h t hr; cases hr
  · intro h k; cases h <;> simp [hOwner, State.objOf, State.targetOf]
  · intro k l h t hr; cases hr
  · intro h k; cases h <;> simp [uOwner, State.proxyOf]
  any_goals simp [State.objOf, State.serviceOf, Bridge.life, viewOf]
  constructor <;> simp [Named]

theorem Fine.init (j : Nat) : Fine {} j := by
  constructor <;> simp [State.proxyOf, State.objOf]

/-- Everything that has been found has been published. -/
def Up (s : State) (i : Nat) : Prop := (s.serviceOf i).isSome

theorem Inv.newIfaces_up {src dest : Bytes} {look : Nat → Option Nat} {fs : List Bytes} : ∀ {s : State}, Inv s →
    Book s src dest fs →
    Good (s.newIfaces src dest look fs) fun s' => (∀ j, j < s.ifaces → s'.iface j = s.iface j) ∧
      (∀ i, s.ifaces ≤ i → i < s.ifaces + fs.length → (look i).isSome → Up s' i) ∧
      ∀ b n d l, .opened b n d l ∈ s'.log → .opened b n d l ∈ s.log := by
  induction fs with
  | nil => exact fun {s} h hb => Good.ok ⟨fun _ _ => rfl, fun i h1 h2 => (by simp only [List.length_nil] at h2; omega),
      fun _ _ _ _ h => h⟩
  | cons f fs ih =>
    intro s h hb
    simp only [State.newIfaces]
    have h0 := h.watch (f ++ [0x2f] ++ dest) src
    have hi0 : ((({ s with ifaces := s.ifaces + 1 } : State).setIface s.ifaces
        (some { fqname := f ++ [0x2f] ++ dest, srcName := src })).see
        [.watch s.ifaces (f ++ [0x2f] ++ dest)]).iface s.ifaces ≠ none := by
      simp [State.see, State.setIface, upd]
    have hnew := h.newIface hb look
    refine Good.andThen (P := fun a => Inv a ∧ Book a src dest fs ∧ a.ifaces = s.ifaces + 1 ∧
      (∀ j, j < s.ifaces → a.iface j = s.iface j) ∧ ((look s.ifaces).isSome → Up a s.ifaces) ∧
      ∀ b n d l, .opened b n d l ∈ a.log → .opened b n d l ∈ s.log) ?_ ?_
    · refine ⟨hnew.1, fun a ha => ?_⟩
      obtain ⟨h1, h2, -⟩ := hnew.2 a ha
      obtain ⟨-, k2, k3, k4, -⟩ := (h0.activate hi0 (look s.ifaces)).2 a ha
      refine ⟨h1, h2, k2.ifaces, fun j hj => ?_, fun hl => ?_, fun b n d l ho => ?_⟩
      · rw [k2.others j (by omega)]
        show upd s.iface s.ifaces _ j = _
        rw [upd_ne _ _ (by omega)]
      · have := k4 hl
        rcases k3 with k3 | k3
        · rw [k3] at this; cases this
        · exact k3.2
      · obtain ⟨es, e1, e2⟩ := k2.saysLog hi0
        rw [e1] at ho
        rcases List.mem_append.1 ho with ho | ho
        · simpa [State.see, State.setIface] using ho
        · exact absurd (e2 _ ho) Says.not_opened
    · rintro a ⟨h1, h2, h3, h4, h5, h6⟩
      refine (ih h1 h2).mono fun c hc => ⟨fun j hj => ?_, fun i hi hi' hl => ?_, fun b n d l ho => h6 b n d l (hc.2.2 b n d l ho)⟩
      · rw [hc.1 j (by omega), h4 j hj]
      · by_cases he : i = s.ifaces
        · subst he
          have := h5 hl
          unfold Up State.serviceOf at this ⊢
          rw [hc.1 _ (by omega)]; exact this
        · exact hc.2.1 i (by omega) (by simp only [List.length_cons] at hi'; omega) hl

end Gb.Bridge
