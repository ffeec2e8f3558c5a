import Verif.Lemmas.BridgeStep
/-
Invariants of Model/Bridge: which interfaces belong to which bridge, and their names.
-/
set_option autoImplicit false

namespace Gb.Bridge

/-- The interface which has used its name. -/
def speaks : Ev → Option Nat
  | .watch i _ | .found i _ _ | .published i _ _ _ => some i
  | _ => none

/-- `pend` are the interfaces of the last bridge which have yet to be created, `src` and `dest` are its names. -/
structure Book (s : State) (src dest : Bytes) (pend : List Bytes) : Prop where
  fB : ∀ b, s.bridge b ≠ none → b < s.bridges
  nodup : ∀ b ids, s.bridge b = some ids → ids.Nodup
  there : ∀ b ids, s.bridge b = some ids → ∀ i ∈ ids, s.iface i ≠ none ∨ s.ifaces ≤ i ∧ i < s.ifaces + pend.length
  apart : ∀ b c ids jds i, s.bridge b = some ids → s.bridge c = some jds → i ∈ ids → i ∈ jds → b = c
  opened : ∀ b n d l, .opened b n d l ∈ s.log → b < s.bridges ∧ (s.bridge b = some (l.map (·.1)) ∨
    .freed b ∈ s.log ∧ ∀ i ∈ l.map (·.1), s.iface i = none ∧ i < s.ifaces)
  freed : ∀ b, .freed b ∈ s.log → b < s.bridges ∧ s.bridge b = none
  name : ∀ b n d l, .opened b n d l ∈ s.log → ∀ i f, (i, f) ∈ l →
    (i < s.ifaces ∧ ∀ x, s.iface i = some x → x.fqname = f ++ [0x2f] ++ d ∧ x.srcName = n) ∨
    (s.ifaces ≤ i ∧ n = src ∧ d = dest ∧ pend[i - s.ifaces]? = some f)
  past : ∀ e ∈ s.log, ∀ i, speaks e = some i → i < s.ifaces
  named : Named s.log

theorem Rel.isNone {i : Nat} {s s' : State} (h : Rel i s s') (hi : s.iface i ≠ none) (j : Nat) :
    s'.iface j = none ↔ s.iface j = none := by
  by_cases hj : j = i
  · subst hj
    exact ⟨fun k => absurd k (h.exists hi), fun k => absurd k hi⟩
  · rw [h.others j hj]

theorem Rel.names {i : Nat} {s s' : State} (h : Rel i s s') (hi : s.iface i ≠ none) {j : Nat} {y : Iface}
    (hy : s'.iface j = some y) : ∃ x, s.iface j = some x ∧ y.fqname = x.fqname ∧ y.srcName = x.srcName := by
  by_cases hj : j = i
  · subst hj
    obtain ⟨x, hx⟩ := Option.ne_none_iff_exists'.1 hi
    obtain ⟨z, hz, h1, h2⟩ := h.same x hx
    rw [hy] at hz; cases hz
    exact ⟨x, hx, h1, h2⟩
  · rw [h.others j hj] at hy
    exact ⟨y, hy, rfl, rfl⟩

/-- Events with the names of an existing interface. -/
def Says (s : State) (e : Ev) : Prop :=
  (∃ i x, s.iface i = some x ∧ About i x e) ∨ ∃ i, e = .unwatch i

theorem Says.speaks {s : State} {e : Ev} (h : Says s e) (hI : ∀ i, s.iface i ≠ none → i < s.ifaces) {i : Nat}
    (he : speaks e = some i) : i < s.ifaces := by
  rcases h with ⟨j, x, hx, ha⟩ | ⟨j, rfl⟩
  · have hj := hI j (by rw [hx]; simp)
    cases e <;> simp only [About, Bridge.speaks, Option.some.injEq, reduceCtorEq] at ha he <;> omega
  · cases he

theorem Says.not_opened {s : State} {b : Nat} {n d : Bytes} {l : List (Nat × Bytes)} : ¬Says s (.opened b n d l) := by
  rintro (⟨i, x, -, h⟩ | ⟨i, h⟩)
  · exact h
  · cases h

theorem Says.not_freed {s : State} {b : Nat} : ¬Says s (.freed b) := by
  rintro (⟨i, x, -, h⟩ | ⟨i, h⟩)
  · exact h
  · cases h

theorem Book.named_says {s : State} {src dest : Bytes} {pend : List Bytes} (h : Book s src dest pend)
    (hI : ∀ i, s.iface i ≠ none → i < s.ifaces) {es : List Ev} (he : ∀ e ∈ es, Says s e) : Named (s.log ++ es) := by
  intro b n d l ho i f hf
  have ho : .opened b n d l ∈ s.log := by
    rcases List.mem_append.1 ho with ho | ho
    · exact ho
    · exact absurd (he _ ho) Says.not_opened
  obtain ⟨h1, h2, h3⟩ := h.named b n d l ho i f hf
  have key : ∀ x, s.iface i = some x → x.fqname = f ++ [0x2f] ++ d ∧ x.srcName = n := by
    intro x hx
    rcases h.name b n d l ho i f hf with ⟨-, k⟩ | ⟨k, -⟩
    · exact k x hx
    · exact absurd (hI i (by rw [hx]; simp)) (by omega)
  refine ⟨fun m hm => ?_, fun m rm hm => ?_, fun m p q hm => ?_⟩
  · rcases List.mem_append.1 hm with hm | hm
    · exact h1 m hm
    · rcases he _ hm with ⟨j, x, hx, ha⟩ | ⟨j, hj⟩
      · exact ha.elim
      · cases hj
  · rcases List.mem_append.1 hm with hm | hm
    · exact h2 m rm hm
    · rcases he _ hm with ⟨j, x, hx, ha⟩ | ⟨j, hj⟩
      · obtain ⟨rfl, rfl⟩ := ha; exact (key x hx).1
      · cases hj
  · rcases List.mem_append.1 hm with hm | hm
    · exact h3 m p q hm
    · rcases he _ hm with ⟨j, x, hx, ha⟩ | ⟨j, hj⟩
      · obtain ⟨rfl, rfl⟩ := ha; exact (key x hx).2
      · cases hj

/-- The same interfaces are there, and something may have been said. -/
theorem Book.says {s s' : State} {src dest : Bytes} {pend : List Bytes} (h : Book s src dest pend)
    (hI : ∀ i, s.iface i ≠ none → i < s.ifaces) (h1 : s'.ifaces = s.ifaces) (h2 : s'.bridges = s.bridges)
    (h3 : s'.bridge = s.bridge) {es : List Ev} (h4 : s'.log = s.log ++ es) (he : ∀ e ∈ es, Says s e)
    (hn : ∀ j, s'.iface j = none ↔ s.iface j = none)
    (hy : ∀ j y, s'.iface j = some y → ∃ x, s.iface j = some x ∧ y.fqname = x.fqname ∧ y.srcName = x.srcName) :
    Book s' src dest pend := by
  have hop : ∀ b n d l, .opened b n d l ∈ s'.log → .opened b n d l ∈ s.log := by
    intro b n d l ho
    rw [h4] at ho
    rcases List.mem_append.1 ho with ho | ho
    · exact ho
    · exact absurd (he _ ho) Says.not_opened
  have hfr : ∀ b, .freed b ∈ s'.log ↔ .freed b ∈ s.log := by
    intro b
    rw [h4, List.mem_append]
    exact ⟨fun h => h.elim id fun h => absurd (he _ h) Says.not_freed, .inl⟩
  constructor
  · rw [h3, h2]; exact h.fB
  · rw [h3]; exact h.nodup
  · intro b ids hb i hi
    rw [h3] at hb
    rw [h1, Ne, hn]
    exact h.there b ids hb i hi
  · rw [h3]; exact h.apart
  · intro b n d l ho
    rw [h2, h3, hfr, h1]
    obtain ⟨k1, k2⟩ := h.opened b n d l (hop _ _ _ _ ho)
    refine ⟨k1, k2.imp id fun k => ⟨k.1, fun i hi => ?_⟩⟩
    rw [hn]; exact k.2 i hi
  · intro b hb
    rw [hfr] at hb
    rw [h2, h3]; exact h.freed b hb
  · intro b n d l ho i f hf
    rw [h1]
    refine (h.name b n d l (hop _ _ _ _ ho) i f hf).imp (fun k => ⟨k.1, fun y hy' => ?_⟩) id
    obtain ⟨x, hx, e1, e2⟩ := hy i y hy'
    rw [e1, e2]; exact k.2 x hx
  · intro e hee i hi
    rw [h1]
    rw [h4] at hee
    rcases List.mem_append.1 hee with hee | hee
    · exact h.past e hee i hi
    · exact (he e hee).speaks hI hi
  · rw [h4]; exact h.named_says hI he

theorem Rel.saysLog {i : Nat} {s s' : State} (h : Rel i s s') (hi : s.iface i ≠ none) :
    ∃ es, s'.log = s.log ++ es ∧ ∀ e ∈ es, Says s e := by
  obtain ⟨x, hx⟩ := Option.ne_none_iff_exists'.1 hi
  obtain ⟨es, h1, h2⟩ := h.log x hx
  exact ⟨es, h1, fun e he => .inl ⟨i, x, hx, h2 e he⟩⟩

theorem Book.rel {s s' : State} {src dest : Bytes} {pend : List Bytes} (h : Book s src dest pend)
    (hI : ∀ i, s.iface i ≠ none → i < s.ifaces) {i : Nat} (hi : s.iface i ≠ none) (hr : Rel i s s') :
    Book s' src dest pend := by
  obtain ⟨es, h1, h2⟩ := hr.saysLog hi
  exact h.says hI hr.ifaces hr.bridges hr.bridge h1 h2 (hr.isNone hi) fun j y hy => hr.names hi hy

theorem Book.watch {s : State} {src dest f : Bytes} {pend : List Bytes} (h : Book s src dest (f :: pend))
    (hI : ∀ i, s.iface i ≠ none → i < s.ifaces) :
    Book ((({ s with ifaces := s.ifaces + 1 } : State).setIface s.ifaces
      (some { fqname := f ++ [0x2f] ++ dest, srcName := src })).see [.watch s.ifaces (f ++ [0x2f] ++ dest)]) src dest pend := by
  have hno : s.iface s.ifaces = none := by
    cases hx : s.iface s.ifaces with
    | none => rfl
    | some x => exact absurd (hI s.ifaces (by rw [hx]; simp)) (Nat.lt_irrefl _)
  have hop : ∀ b n d l, .opened b n d l ∈ s.log ++ [.watch s.ifaces (f ++ [0x2f] ++ dest)] → .opened b n d l ∈ s.log := by
    intro b n d l ho; simpa using ho
  have hfr : ∀ b, .freed b ∈ s.log ++ [.watch s.ifaces (f ++ [0x2f] ++ dest)] → .freed b ∈ s.log := by
    intro b ho; simpa using ho
  have name : ∀ b n d l, .opened b n d l ∈ s.log → ∀ i g, (i, g) ∈ l → i = s.ifaces → n = src ∧ d = dest ∧ g = f := by
    rintro b n d l ho i g hg rfl
    rcases h.name b n d l ho s.ifaces g hg with ⟨k, -⟩ | ⟨-, k1, k2, k3⟩
    · exact absurd k (Nat.lt_irrefl _)
    · rw [Nat.sub_self] at k3
      simp at k3
      exact ⟨k1, k2, k3.symm⟩
  constructor
  · exact h.fB
  · exact h.nodup
  · intro b ids hb i hi
    show upd s.iface s.ifaces _ i ≠ none ∨ s.ifaces + 1 ≤ i ∧ i < s.ifaces + 1 + pend.length
    by_cases hie : i = s.ifaces
    · subst hie; left; simp [upd]
    · rw [upd_ne _ _ hie]
      refine (h.there b ids hb i hi).imp id fun k => ?_
      simp only [List.length_cons] at k
      omega
  · exact h.apart
  · intro b n d l ho
    obtain ⟨k1, k2⟩ := h.opened b n d l (hop _ _ _ _ ho)
    refine ⟨k1, k2.imp id fun k => ⟨List.mem_append_left _ k.1, fun i hi => ?_⟩⟩
    obtain ⟨k3, k4⟩ := k.2 i hi
    refine ⟨?_, show i < s.ifaces + 1 by omega⟩
    show upd s.iface s.ifaces _ i = none
    rw [upd_ne _ _ (by omega)]; exact k3
  · intro b hb
    exact h.freed b (hfr b hb)
  · intro b n d l ho i g hg
    show (i < s.ifaces + 1 ∧ ∀ x, upd s.iface s.ifaces _ i = some x → _) ∨ (s.ifaces + 1 ≤ i ∧ _ ∧ _ ∧
      pend[i - (s.ifaces + 1)]? = _)
    by_cases hie : i = s.ifaces
    · obtain ⟨rfl, rfl, rfl⟩ := name b n d l (hop _ _ _ _ ho) i g hg hie
      subst hie
      left
      refine ⟨by omega, fun x hx => ?_⟩
      rw [upd_same] at hx; cases hx
      exact ⟨rfl, rfl⟩
    · rw [upd_ne _ _ hie]
      rcases h.name b n d l (hop _ _ _ _ ho) i g hg with ⟨k1, k2⟩ | ⟨k1, k2, k3, k4⟩
      · exact .inl ⟨by omega, k2⟩
      · refine .inr ⟨by omega, k2, k3, ?_⟩
        rw [show i - s.ifaces = i - (s.ifaces + 1) + 1 by omega, List.getElem?_cons_succ] at k4
        exact k4
  · intro e he i hi
    show i < s.ifaces + 1
    rcases List.mem_append.1 he with he | he
    · have := h.past e he i hi; omega
    · cases List.mem_singleton.1 he
      cases hi; omega
  · intro b n d l ho i g hg
    obtain ⟨k1, k2, k3⟩ := h.named b n d l (hop _ _ _ _ ho) i g hg
    refine ⟨fun m hm => ?_, fun m rm hm => ?_, fun m p q hm => ?_⟩
    · rcases List.mem_append.1 hm with hm | hm
      · exact k1 m hm
      · cases List.mem_singleton.1 hm
        obtain ⟨rfl, rfl, rfl⟩ := name b n d l (hop _ _ _ _ ho) _ g hg rfl
        rfl
    · exact k2 m rm (by simpa [State.see, State.setIface] using hm)
    · exact k3 m p q (by simpa [State.see, State.setIface] using hm)

/-! ### Some of the interfaces are freed -/

structure Gone (ids : List Nat) (s s' : State) : Prop where
  iface : ∀ j, s'.iface j = if j ∈ ids then none else s.iface j
  ifaces : s'.ifaces = s.ifaces
  bridges : s'.bridges = s.bridges
  bridge : s'.bridge = s.bridge
  log : ∃ es, s'.log = s.log ++ es ∧ ∀ e ∈ es, Says s e

theorem Inv.freeIface {s : State} (h : Inv s) {i : Nat} (hi : s.iface i ≠ none) :
    Good (s.freeIface i) fun s' => Inv s' ∧ Gone [i] s s' ∧ ((∀ j, Fine s j) → ∀ j, Fine s' j) := by
  simp only [State.freeIface]
  refine (h.deactivate hi).andThen fun a ha => ?_
  obtain ⟨h1, h2, h3, h4, h5, h6⟩ := ha
  refine Good.ok ⟨h1.unwatch (h2.exists hi) h3 h4 h5 (fun c hc => (List.mem_filter.1 hc).1) ?_, ⟨?_, h2.ifaces, h2.bridges,
    h2.bridge, ?_⟩, ?_⟩
  · intro n hn
    have := (List.mem_filter.1 hn).2
    simp at this
  · intro j
    show upd a.iface i none j = _
    by_cases hj : j = i
    · subst hj; simp [upd]
    · rw [upd_ne _ _ hj, h2.others j hj]; simp [hj]
  · obtain ⟨es, k1, k2⟩ := h2.saysLog hi
    refine ⟨es ++ [.unwatch i], ?_, fun e he => ?_⟩
    · show a.log ++ [_] = _
      rw [k1, List.append_assoc]
    · rcases List.mem_append.1 he with he | he
      · exact k2 e he
      · exact .inr ⟨i, List.mem_singleton.1 he⟩
  · intro hf j
    have hf := h6 (fun j _ => hf j) j
    have hb : ∀ (g : Iface → Option Nat) y, ((upd a.iface i none) j).bind g = some y → j ≠ i ∧ (a.iface j).bind g = some y := by
      intro g y hy
      by_cases hj : j = i
      · subst hj; simp [upd] at hy
      · rw [upd_ne _ _ hj] at hy; exact ⟨hj, hy⟩
    refine ⟨fun p hp => ?_, fun rm hrm hd => ?_⟩
    · obtain ⟨hj, hp'⟩ := hb (·.proxy) p hp
      show a.targetOf p = ((upd a.iface i none) j).bind _
      rw [upd_ne _ _ hj]
      exact hf.1 p hp'
    · obtain ⟨hj, hrm'⟩ := hb (·.obj) rm hrm
      have hd' : .died rm ∈ a.log := by simpa [State.see, State.setIface] using hd
      exact List.mem_filter.2 ⟨hf.2 rm hrm' hd', rfl⟩

theorem Inv.freeIfaces {ids : List Nat} (hn : ids.Nodup) : ∀ {s : State}, Inv s → (∀ i ∈ ids, s.iface i ≠ none) →
    Good (s.freeIfaces ids) fun s' => Inv s' ∧ Gone ids s s' ∧ ((∀ j, Fine s j) → ∀ j, Fine s' j) := by
  induction ids with
  | nil => exact fun {s} h _ => Good.ok ⟨h, ⟨by simp, rfl, rfl, rfl, [], by simp, by simp⟩, fun h => h⟩
  | cons i ids ih =>
    intro s h hi
    simp only [State.freeIfaces]
    obtain ⟨hni, hn⟩ := List.nodup_cons.1 hn
    refine (h.freeIface (hi i List.mem_cons_self)).andThen fun a ha => ?_
    obtain ⟨h1, h2, h3⟩ := ha
    refine (ih hn h1 fun j hj => ?_).mono fun c hc => ?_
    · rw [h2.iface, if_neg]
      · exact hi j (List.mem_cons_of_mem _ hj)
      · intro k; cases List.mem_singleton.1 k; exact hni hj
    · obtain ⟨k1, k2, k3⟩ := hc
      refine ⟨k1, ⟨fun j => ?_, k2.ifaces.trans h2.ifaces, k2.bridges.trans h2.bridges, k2.bridge.trans h2.bridge, ?_⟩,
        fun hf => k3 (h3 hf)⟩
      · rw [k2.iface, h2.iface]
        by_cases e1 : j ∈ ids
        · simp [e1]
        · simp [e1]
      · obtain ⟨es, e1, e2⟩ := h2.log
        obtain ⟨fs, f1, f2⟩ := k2.log
        refine ⟨es ++ fs, by rw [f1, e1, List.append_assoc], fun e he => ?_⟩
        rcases List.mem_append.1 he with he | he
        · exact e2 e he
        · rcases f2 e he with ⟨j, x, hx, ha⟩ | hu
          · rw [h2.iface] at hx
            split at hx
            · cases hx
            · exact .inl ⟨j, x, hx, ha⟩
          · exact .inr hu

/-- gbinder_bridge.c:248-266 -/
theorem Book.free {s s' : State} (h : Book s [] [] []) (hI : ∀ i, s.iface i ≠ none → i < s.ifaces) {b : Nat}
    {ids : List Nat} (hb : s.bridge b = some ids) (hg : Gone ids s s') :
    Book (({ s' with bridge := upd s'.bridge b none } : State).see [.freed b]) [] [] [] := by
  obtain ⟨es, e1, e2⟩ := hg.log
  have hop : ∀ c n d l, .opened c n d l ∈ s'.log ++ [.freed b] → .opened c n d l ∈ s.log := by
    intro c n d l ho
    rw [e1] at ho
    simp only [List.mem_append, List.mem_singleton, reduceCtorEq, or_false] at ho
    exact ho.elim id fun k => absurd (e2 _ k) Says.not_opened
  have hfr : ∀ c, .freed c ∈ s'.log ++ [.freed b] ↔ c = b ∨ .freed c ∈ s.log := by
    intro c
    rw [e1]
    simp only [List.mem_append, List.mem_singleton, Ev.freed.injEq]
    constructor
    · rintro ((k | k) | k)
      · exact .inr k
      · exact absurd (e2 _ k) Says.not_freed
      · exact .inl k
    · rintro (k | k)
      · exact .inr k
      · exact .inl (.inl k)
  have hbr : ∀ c jds, upd s'.bridge b none c = some jds → c ≠ b ∧ s.bridge c = some jds := by
    intro c jds hc
    by_cases hcb : c = b
    · subst hcb; simp [upd] at hc
    · rw [upd_ne _ _ hcb, hg.bridge] at hc; exact ⟨hcb, hc⟩
  have hno : ∀ j, s.iface j = none → s'.iface j = none := by
    intro j hj; rw [hg.iface, hj]; simp
  have hso : ∀ j x, s'.iface j = some x → s.iface j = some x := by
    intro j x hx
    rw [hg.iface] at hx
    split at hx
    · cases hx
    · exact hx
  constructor
  · intro c hc
    obtain ⟨jds, hj⟩ := Option.ne_none_iff_exists'.1 hc
    show c < s'.bridges
    rw [hg.bridges]
    exact h.fB c (by rw [(hbr c jds hj).2]; simp)
  · intro c jds hc; exact h.nodup c jds (hbr c jds hc).2
  · intro c jds hc i hi
    obtain ⟨k1, k2⟩ := hbr c jds hc
    rcases h.there c jds k2 i hi with k3 | k3
    · left
      show s'.iface i ≠ none
      rw [hg.iface, if_neg]
      · exact k3
      · intro hm; exact k1 (h.apart c b jds ids i k2 hb hi hm)
    · simp only [List.length_nil] at k3; omega
  · intro c c' jds kds i hc hc' hi hi'
    exact h.apart c c' jds kds i (hbr c jds hc).2 (hbr c' kds hc').2 hi hi'
  · intro c n d l ho
    obtain ⟨k1, k2⟩ := h.opened c n d l (hop _ _ _ _ ho)
    refine ⟨show c < s'.bridges by rw [hg.bridges]; exact k1, ?_⟩
    show upd s'.bridge b none c = _ ∨ .freed c ∈ s'.log ++ [.freed b] ∧ ∀ i ∈ l.map (·.1), s'.iface i = none ∧ i < s'.ifaces
    rw [hfr, hg.ifaces]
    by_cases hcb : c = b
    · subst hcb
      right
      refine ⟨.inl rfl, fun i hi => ?_⟩
      rcases k2 with k2 | k2
      · rw [hb] at k2; cases k2
        refine ⟨by rw [hg.iface, if_pos hi], ?_⟩
        rcases h.there c _ hb i hi with k3 | k3
        · exact hI i k3
        · simp only [List.length_nil] at k3; omega
      · exact ⟨hno i (k2.2 i hi).1, (k2.2 i hi).2⟩
    · rw [upd_ne _ _ hcb, hg.bridge]
      exact k2.imp id fun k => ⟨.inr k.1, fun i hi => ⟨hno i (k.2 i hi).1, (k.2 i hi).2⟩⟩
  · intro c hc
    show c < s'.bridges ∧ upd s'.bridge b none c = none
    rw [hg.bridges]
    rcases (hfr c).1 hc with rfl | hc
    · exact ⟨h.fB c (by rw [hb]; simp), upd_same _ _ _⟩
    · obtain ⟨k1, k2⟩ := h.freed c hc
      refine ⟨k1, ?_⟩
      simp only [upd]; split
      · rfl
      · rw [hg.bridge]; exact k2
  · intro c n d l ho i f hf
    show (i < s'.ifaces ∧ ∀ x, s'.iface i = some x → _) ∨ (s'.ifaces ≤ i ∧ _ ∧ _ ∧ [][i - s'.ifaces]? = _)
    rw [hg.ifaces]
    exact (h.name c n d l (hop _ _ _ _ ho) i f hf).imp (fun k => ⟨k.1, fun x hx => k.2 x (hso i x hx)⟩) id
  · intro e he i hi
    show i < s'.ifaces
    rw [hg.ifaces]
    rcases List.mem_append.1 he with he | he
    · rw [e1] at he
      rcases List.mem_append.1 he with he | he
      · exact h.past e he i hi
      · exact (e2 e he).speaks hI hi
    · cases List.mem_singleton.1 he; cases hi
  · have := h.named_says hI e2
    rw [← e1] at this
    intro c n d l ho i f hf
    obtain ⟨k1, k2, k3⟩ := this c n d l (by simpa [State.see] using ho) i f hf
    refine ⟨fun m hm => k1 m (by simpa [State.see] using hm), fun m rm hm => k2 m rm (by simpa [State.see] using hm),
      fun m p q hm => k3 m p q (by simpa [State.see] using hm)⟩

end Gb.Bridge
