import Verif.Spec.HidlWatch
/-
Invariants of HidlWatch.
-/
set_option autoImplicit false

namespace Gb.HidlWatch

def Stage.live : Stage → Bool
  | .queued | .running | .executed => true
  | _ => false

/-- What holds for each item. -/
structure Item.Ok (x : Item) : Prop where
  refs : x.refs = x.other + (if x.watch && x.cb then 1 else 0) + (if x.call then 1 else 0)
  handler : x.handler = (x.watch && x.cb)
  call : x.call = (x.stage != .gone)
  tx : x.watch = true → x.tx = x.stage.live
  cancelled : x.stage.live = true → x.cancelled = !x.watch

/-- What the callback object is waiting for. -/
def Item.voice (x : Item) : Option Bytes := if x.handler then some x.name else none

def State.voice (s : State) (n : Nat) : Option Bytes := (s.item n).bind Item.voice

theorem free_ok {x : Item} (h : x.Ok) (hw : x.watch = true) :
    ∃ y, free x = .ok y ∧ y.Ok ∧ y.watch = false ∧ y.name = x.name ∧ y.voice = none ∧ y.stage = x.stage ∧ y.other = x.other := by
  obtain ⟨h1, h2, h3, h4, h5⟩ := h
  cases x with
  | mk name watch cb tx call stage cancelled refs other handler =>
  simp only at h1 h2 h3 h4 h5 hw
  subst hw
  have h4 := h4 rfl
  subst h4
  cases cb
  · simp only [Bool.and_false, Bool.false_eq_true, if_false] at h1 h2
    subst h2
    exact ⟨_, rfl, ⟨by simpa using h1, rfl, h3, by simp, by cases stage <;> simp [Stage.live]⟩, rfl, rfl, rfl, rfl, rfl⟩
  · simp only [Bool.and_true, if_true] at h1 h2
    subst h2
    cases refs with
    | zero => omega
    | succ r =>
      refine ⟨_, rfl, ⟨?_, rfl, h3, by simp, by cases stage <;> simp [Stage.live]⟩, rfl, rfl, rfl, rfl, rfl⟩
      simp only [Bool.false_and, Bool.false_eq_true, if_false]
      omega

theorem complete_ok {x : Item} (h : x.Ok) (hs : x.stage = .executed) (ok : Bool) :
    ∃ y, complete ok x = .ok y ∧ y.Ok ∧ y.watch = x.watch ∧ y.name = x.name ∧
      y.voice = (if ok = true ∨ x.cancelled = true then x.voice else none) ∧ y.stage = .gone := by
  obtain ⟨h1, h2, h3, h4, h5⟩ := h
  cases x with
  | mk name watch cb tx call stage cancelled refs other handler =>
  simp only at h1 h2 h3 h4 h5 hs
  subst hs
  have h3 : call = true := h3
  subst h3
  have h5 := h5 rfl
  subst h5 h2
  cases watch
  · simp only [Bool.false_and, Bool.false_eq_true, if_false, if_true] at h1
    subst h1
    refine ⟨_, rfl, ⟨by simp, rfl, rfl, by simp, by simp [Stage.live]⟩, rfl, rfl, ?_, rfl⟩
    simp [Item.voice]
  · cases cb <;> cases ok <;> simp only [Bool.true_and, Bool.false_eq_true, if_false, if_true] at h1 <;> subst h1
    · exact ⟨_, rfl, ⟨by simp, rfl, rfl, fun _ => rfl, by simp [Stage.live]⟩, rfl, rfl, rfl, rfl⟩
    · exact ⟨_, rfl, ⟨by simp, rfl, rfl, fun _ => rfl, by simp [Stage.live]⟩, rfl, rfl, rfl, rfl⟩
    · exact ⟨_, rfl, ⟨by simp, rfl, rfl, fun _ => rfl, by simp [Stage.live]⟩, rfl, rfl, rfl, rfl⟩
    · exact ⟨_, rfl, ⟨by simp, rfl, rfl, fun _ => rfl, by simp [Stage.live]⟩, rfl, rfl, rfl, rfl⟩

/-- What holds in between too. -/
structure Base (s : State) : Prop where
  after : ∀ n, s.count ≤ n → s.item n = none
  before : ∀ n, n < s.count → ∃ x, s.item n = some x
  ok : ∀ n x, s.item n = some x → x.Ok
  entry : ∀ e ∈ s.table, ∃ x, s.item e.2 = some x ∧ x.name = e.1 ∧ x.watch = true
  found : ∀ n x, s.item n = some x → x.watch = true → (x.name, n) ∈ s.table
  names : (s.table.map (·.1)).Nodup

theorem on_ok {s : State} {n : Nat} {x y : Item} {f : Item → Out Item} (h : s.item n = some x) (hf : f x = .ok y) :
    s.on n f = .ok (s.set n y) := by
  simp [State.on, h, hf]

theorem remove_ok {s : State} (h : Base s) (name : Bytes) :
    ∃ t, s.remove name = .ok t ∧ Base t ∧ t.count = s.count ∧ t.closed = s.closed ∧ t.log = s.log ∧
      t.table = s.table.filter (fun e => e.1 != name) ∧
      (∀ n, t.voice n = if s.voice n = some name then none else s.voice n) ∧
      ∀ n x, s.item n = some x → ∃ y, t.item n = some y ∧ y.name = x.name ∧ y.stage = x.stage ∧ y.other = x.other := by
  unfold State.remove
  cases hf : s.table.find? fun e => e.1 == name with
  | none =>
    have hno : ∀ e ∈ s.table, e.1 ≠ name := by
      intro e he hn
      have := List.find?_eq_none.mp hf e he
      simp [hn] at this
    refine ⟨s, rfl, h, rfl, rfl, rfl, ?_, ?_, fun n x hx => ⟨x, hx, rfl, rfl, rfl⟩⟩
    · symm
      rw [List.filter_eq_self]
      intro e he
      simpa using hno e he
    · intro n
      split
      · rename_i hv
        exfalso
        unfold State.voice at hv
        cases hi : s.item n with
        | none => rw [hi] at hv; cases hv
        | some x =>
          rw [hi] at hv
          simp only [Option.bind_some, Item.voice] at hv
          have hx := h.ok n x hi
          cases hh : x.handler with
          | false => rw [hh] at hv; cases hv
          | true =>
            rw [hh] at hv
            simp only [if_true, Option.some.injEq] at hv
            have : x.watch = true := by
              have := hx.handler
              rw [hh] at this
              cases hw : x.watch <;> simp [hw] at this ⊢
            exact hno _ (h.found n x hi this) hv
      · rfl
  | some e =>
    have he := List.mem_of_find?_eq_some hf
    have hn : e.1 = name := by simpa using List.find?_some hf
    subst hn
    obtain ⟨x, hx, hxn, hxw⟩ := h.entry e he
    obtain ⟨y, hy, hok, hyw, hyn, hyv, hys, hyo⟩ := free_ok (h.ok _ x hx) hxw
    simp only [on_ok hx hy]
    have huniq : ∀ e' ∈ s.table, e'.1 = e.1 → e' = e := by
      intro e' he' hn
      have := h.names
      rw [List.nodup_iff_pairwise_ne, List.pairwise_map] at this
      by_cases hee : e' = e
      · exact hee
      · exfalso
        obtain ⟨a, b, hab⟩ := List.append_of_mem he
        rw [hab] at this he'
        rw [List.pairwise_append] at this
        rcases List.mem_append.mp he' with hm | hm
        · exact this.2.2 e' hm e (List.mem_cons_self ..) hn
        · rcases List.mem_cons.mp hm with hm | hm
          · exact hee hm
          · exact (List.pairwise_cons.mp this.2.1).1 e' hm hn.symm
    have hlt : e.2 < s.count := by
      apply Nat.lt_of_not_le
      intro hle
      rw [h.after _ hle] at hx
      cases hx
    refine ⟨_, rfl, ⟨?_, ?_, ?_, ?_, ?_, ?_⟩, rfl, rfl, rfl, rfl, ?_, ?_⟩
    · intro n hle
      show upd s.item e.2 (some y) n = none
      have hle : s.count ≤ n := hle
      rw [upd_ne _ _ (by omega)]
      exact h.after n hle
    · intro n hl
      show ∃ x, upd s.item e.2 (some y) n = some x
      unfold upd
      split
      · exact ⟨_, rfl⟩
      · exact h.before n hl
    · intro n z hz
      have hz : upd s.item e.2 (some y) n = some z := hz
      unfold upd at hz
      split at hz
      · cases hz; exact hok
      · exact h.ok n z hz
    · intro e' he'
      obtain ⟨he', hne⟩ := List.mem_filter.mp he'
      have hne : e'.1 ≠ e.1 := by simpa using hne
      obtain ⟨z, hz, hzn, hzw⟩ := h.entry e' he'
      refine ⟨z, ?_, hzn, hzw⟩
      show upd s.item e.2 (some y) e'.2 = some z
      rw [upd_ne _ _ ?_]
      · exact hz
      · intro heq
        rw [heq, hx] at hz
        cases hz
        exact hne (hzn.symm.trans hxn)
    · intro n z hz hzw
      have hz : upd s.item e.2 (some y) n = some z := hz
      unfold upd at hz
      split at hz
      · cases hz
        rw [hyw] at hzw
        cases hzw
      · rename_i hnn
        have := h.found n z hz hzw
        refine List.mem_filter.mpr ⟨this, ?_⟩
        simp only [bne_iff_ne, ne_eq]
        intro hzn
        have := huniq _ this hzn
        exact hnn (by rw [← this])
    · exact h.names.sublist (List.Sublist.map _ List.filter_sublist)
    · intro n
      show (upd s.item e.2 (some y) n).bind Item.voice = _
      by_cases hnn : n = e.2
      · subst hnn
        rw [upd_same]
        simp only [Option.bind_some, hyv]
        unfold State.voice
        rw [hx]
        simp only [Option.bind_some]
        unfold Item.voice
        rw [hxn]
        cases x.handler <;> simp
      · rw [upd_ne _ _ hnn]
        split
        · rename_i hv
          exfalso
          have hv0 := hv
          unfold State.voice at hv
          cases hi : s.item n with
          | none => rw [hi] at hv; cases hv
          | some z =>
            rw [hi] at hv
            simp only [Option.bind_some, Item.voice] at hv
            cases hh : z.handler with
            | false => rw [hh] at hv; cases hv
            | true =>
              rw [hh] at hv
              simp only [if_true, Option.some.injEq] at hv
              have hzw : z.watch = true := by
                have := (h.ok n z hi).handler
                rw [hh] at this
                cases hw : z.watch <;> simp [hw] at this ⊢
              have := huniq _ (h.found n z hi hzw) hv
              exact hnn (by rw [← this])
        · rfl
    · intro n z hz
      show ∃ y', upd s.item e.2 (some y) n = some y' ∧ _
      by_cases hnn : n = e.2
      · subst hnn
        rw [hx] at hz
        cases hz
        exact ⟨y, upd_same _ _ _, hyn, hys, hyo⟩
      · exact ⟨z, by rw [upd_ne _ _ hnn]; exact hz, rfl, rfl, rfl⟩

theorem freeAll_ok {l : List (Bytes × Nat)} {s : State} (h : Base s) :
    ∃ t, freeAll l s = .ok t ∧ Base t ∧ t.count = s.count ∧ t.closed = s.closed ∧ t.log = s.log ∧
      (∀ e ∈ t.table, e ∈ s.table ∧ e ∉ l) ∧
      ∀ n x, s.item n = some x → ∃ y, t.item n = some y ∧ y.name = x.name ∧ y.stage = x.stage ∧ y.other = x.other := by
  induction l generalizing s with
  | nil => exact ⟨s, rfl, h, rfl, rfl, rfl, fun e he => ⟨he, by simp⟩, fun n x hx => ⟨x, hx, rfl, rfl, rfl⟩⟩
  | cons e l ih =>
    obtain ⟨t, h1, h2, h3, h4, h5, h6, -, h7⟩ := remove_ok h e.1
    obtain ⟨u, k1, k2, k3, k4, k5, k6, k7⟩ := ih h2
    refine ⟨u, by simp only [freeAll, h1, k1], k2, k3.trans h3, k4.trans h4, k5.trans h5, ?_, ?_⟩
    · intro e' he'
      obtain ⟨m1, m2⟩ := k6 e' he'
      rw [h6, List.mem_filter] at m1
      refine ⟨m1.1, ?_⟩
      intro hm
      rcases List.mem_cons.mp hm with rfl | hm
      · simp at m1
      · exact m2 hm
    · intro n x hx
      obtain ⟨y, y1, y2, y3, y4⟩ := h7 n x hx
      obtain ⟨z, z1, z2, z3, z4⟩ := k7 n y y1
      exact ⟨z, z1, z2.trans y2, z3.trans y3, z4.trans y4⟩

/-- What always holds. -/
structure Inv (s : State) : Prop where
  base : Base s
  closed : s.closed = true → s.table = []
  waiting : ∀ n, waiting n s.log = s.voice n

theorem waiting_snoc (n : Nat) (l : List Ev) (e : Ev) : HidlWatch.waiting n (l ++ [e]) = waits n (HidlWatch.waiting n l) e := by
  simp [HidlWatch.waiting, List.foldl_append]

/-- An item is changed, except for what matters to others. -/
theorem Base.set {s : State} (h : Base s) {n : Nat} {x y : Item} (hx : s.item n = some x) (hy : y.Ok) (hn : y.name = x.name)
    (hw : y.watch = x.watch) : Base (s.set n y) := by
  have hlt : n < s.count := by
    apply Nat.lt_of_not_le
    intro hle
    rw [h.after _ hle] at hx
    cases hx
  refine ⟨?_, ?_, ?_, ?_, ?_, h.names⟩
  · intro k hle
    have hle : s.count ≤ k := hle
    show upd s.item n (some y) k = none
    rw [upd_ne _ _ (by omega)]
    exact h.after k hle
  · intro k hk
    show ∃ x, upd s.item n (some y) k = some x
    unfold upd
    split
    · exact ⟨_, rfl⟩
    · exact h.before k hk
  · intro k z hz
    have hz : upd s.item n (some y) k = some z := hz
    unfold upd at hz
    split at hz
    · cases hz; exact hy
    · exact h.ok k z hz
  · intro e he
    obtain ⟨z, hz, hzn, hzw⟩ := h.entry e he
    show ∃ x, upd s.item n (some y) e.2 = some x ∧ _
    by_cases hk : e.2 = n
    · rw [hk, upd_same]
      rw [hk, hx] at hz
      cases hz
      exact ⟨y, rfl, hn.trans hzn, hw.trans hzw⟩
    · rw [upd_ne _ _ hk]
      exact ⟨z, hz, hzn, hzw⟩
  · intro k z hz hzw
    have hz : upd s.item n (some y) k = some z := hz
    unfold upd at hz
    split at hz
    · rename_i hk
      cases hz
      subst hk
      show (y.name, k) ∈ s.table
      rw [hn]
      exact h.found k x hx (hw ▸ hzw)
    · exact h.found k z hz hzw

theorem voice_set (s : State) (n : Nat) (y : Item) (k : Nat) : (s.set n y).voice k = if k = n then y.voice else s.voice k := by
  show (upd s.item n (some y) k).bind Item.voice = _
  unfold upd
  split <;> rfl

/-- A new one, after all others with the same name have been removed. -/
theorem Base.add {s : State} (h : Base s) {name : Bytes} (hno : ∀ e ∈ s.table, e.1 ≠ name) {x : Item} (hx : x.Ok)
    (hn : x.name = name) (hw : x.watch = true) :
    Base { s with table := s.table ++ [(name, s.count)], count := s.count + 1, item := upd s.item s.count (some x) } := by
  refine ⟨?_, ?_, ?_, ?_, ?_, ?_⟩
  · intro k hle
    have hle : s.count + 1 ≤ k := hle
    show upd s.item s.count (some x) k = none
    rw [upd_ne _ _ (by omega)]
    exact h.after k (by omega)
  · intro k hk
    have hk : k < s.count + 1 := hk
    show ∃ z, upd s.item s.count (some x) k = some z
    unfold upd
    split
    · exact ⟨_, rfl⟩
    · exact h.before k (by omega)
  · intro k z hz
    have hz : upd s.item s.count (some x) k = some z := hz
    unfold upd at hz
    split at hz
    · cases hz; exact hx
    · exact h.ok k z hz
  · intro e he
    show ∃ z, upd s.item s.count (some x) e.2 = some z ∧ _
    rcases List.mem_append.mp he with he | he
    · obtain ⟨z, hz, hzn, hzw⟩ := h.entry e he
      refine ⟨z, ?_, hzn, hzw⟩
      rw [upd_ne _ _ ?_]
      · exact hz
      · intro hk
        rw [hk, h.after _ (Nat.le_refl _)] at hz
        cases hz
    · cases List.mem_singleton.mp he
      exact ⟨x, upd_same _ _ _, hn, hw⟩
  · intro k z hz hzw
    have hz : upd s.item s.count (some x) k = some z := hz
    unfold upd at hz
    split at hz
    · rename_i hk
      cases hz
      subst hk
      exact List.mem_append_right _ (by rw [hn]; exact List.mem_singleton.mpr rfl)
    · exact List.mem_append_left _ (h.found k z hz hzw)
  · show ((s.table ++ [(name, s.count)]).map (·.1)).Nodup
    rw [List.map_append, List.nodup_append]
    refine ⟨h.names, by simp, ?_⟩
    intro a ha b hb hab
    obtain ⟨e, he, rfl⟩ := List.mem_map.mp ha
    simp only [List.map_cons, List.map_nil, List.mem_singleton] at hb
    exact hno e he (hab.trans hb)

theorem new_ok (name : Bytes) (ok : Bool) :
    Item.Ok { name := name, tx := ok, stage := if ok then .queued else .refused } := by
  cases ok <;> exact ⟨rfl, rfl, rfl, fun _ => rfl, by simp [Stage.live]⟩

theorem watch_ok {s : State} (h : Base s) (name : Bytes) (ok : Bool) :
    ∃ t, s.watch name ok = .ok t ∧ Base t ∧ t.closed = s.closed ∧ t.log = s.log ∧
      (∀ n, t.voice n = waits n (s.voice n) (.watched name s.count ok)) ∧
      (∀ e ∈ t.table, e ∈ s.table ∧ e.1 ≠ name ∨ ok = true ∧ e = (name, s.count)) ∧
      ∀ n x, s.item n = some x → ∃ y, t.item n = some y ∧ y.stage = x.stage := by
  obtain ⟨t, h1, h2, h3, h4, h5, h6, h7, h8⟩ := remove_ok h name
  have hno : ∀ e ∈ t.table, e.1 ≠ name := by
    intro e he
    rw [h6, List.mem_filter] at he
    simpa using he.2
  have hb : Base (t.insert name ok) := h2.add hno (new_ok name ok) rfl rfl
  have hv : ∀ n, (t.insert name ok).voice n =
      if n = s.count then some name else t.voice n := by
    intro n
    show (upd t.item t.count (some _) n).bind Item.voice = _
    unfold upd
    rw [h3]
    split <;> rfl
  have hst : ∀ n x, s.item n = some x → ∃ y, (t.insert name ok).item n = some y ∧ y.stage = x.stage := by
    intro n x hx
    obtain ⟨y, y1, -, y2, -⟩ := h8 n x hx
    refine ⟨y, ?_, y2⟩
    show upd t.item t.count _ n = some y
    rw [upd_ne _ _ ?_]
    · exact y1
    · rintro rfl
      rw [h2.after _ (Nat.le_refl _)] at y1
      cases y1
  have htab : ∀ e ∈ (t.insert name ok).table, e ∈ s.table ∧ e.1 ≠ name ∨ e = (name, s.count) := by
    intro e he
    have he : e ∈ t.table ++ [(name, t.count)] := he
    rcases List.mem_append.mp he with he | he
    · refine .inl ⟨?_, hno e he⟩
      rw [h6, List.mem_filter] at he
      exact he.1
    · rw [h3] at he
      exact .inr (List.mem_singleton.mp he)
  unfold State.watch
  simp only [h1]
  cases ok with
  | true =>
    refine ⟨_, rfl, hb, h4, h5, ?_, fun e he => (htab e he).imp_right fun h => ⟨rfl, h⟩, hst⟩
    intro n
    rw [hv n, h7]
    unfold waits
    simp only [if_true]
    by_cases hn : n = s.count
    · simp [hn]
    · rw [if_neg hn, if_neg (Ne.symm hn)]
  | false =>
    obtain ⟨u, k1, k2, k3, k4, k5, k6, k7, k8⟩ := remove_ok hb name
    refine ⟨u, by simpa using k1, k2, k4.trans h4, k5.trans h5, ?_, ?_, ?_⟩
    rotate_left
    · intro e he
      rw [k6, List.mem_filter] at he
      rcases htab e he.1 with h | h
      · exact .inl h
      · rw [h] at he
        simp at he
    · intro n x hx
      obtain ⟨y, y1, y2⟩ := hst n x hx
      obtain ⟨z, z1, -, z2, -⟩ := k8 n y y1
      exact ⟨z, z1, z2.trans y2⟩
    intro n
    rw [k7, hv n, h7]
    unfold waits
    simp only [Bool.false_eq_true, if_false]
    by_cases hn : n = s.count
    · simp [hn]
    · rw [if_neg hn, if_neg (Ne.symm hn)]
      by_cases hs : s.voice n = some name <;> simp [hs]

theorem voice_none {s : State} (h : Base s) (ht : s.table = []) (n : Nat) : s.voice n = none := by
  unfold State.voice
  cases hi : s.item n with
  | none => rfl
  | some x =>
    cases hw : x.watch with
    | true =>
      have := h.found n x hi hw
      rw [ht] at this
      cases this
    | false =>
      have := (h.ok n x hi).handler
      simp [Item.voice, this, hw]

/-- The service manager isn't freed while a request is being sent. -/
def Calm (s : State) (l : Label) : Prop := l = .close → ∀ n x, s.item n = some x → x.stage ≠ .running

/-- Nobody is sending anything once it's closed. -/
def Quiet (s : State) : Prop := s.closed = true → ∀ n x, s.item n = some x → x.stage ≠ .running

theorem inv_init : Inv {} := by
  refine ⟨⟨fun _ _ => rfl, fun n h => absurd h (Nat.not_lt_zero n), ?_, ?_, ?_, by simp⟩, ?_, fun n => rfl⟩
  · intro n x h; cases h
  · intro e h; cases h
  · intro n x h; cases h
  · intro h; cases h

/-- Something that isn't seen has happened with one of them. -/
theorem Inv.set {s : State} (h : Inv s) {n : Nat} {x y : Item} (hx : s.item n = some x) (hy : y.Ok) (hn : y.name = x.name)
    (hw : y.watch = x.watch) (hv : y.voice = x.voice) : Inv (s.set n y) := by
  refine ⟨h.base.set hx hy hn hw, h.closed, ?_⟩
  intro k
  rw [voice_set]
  show HidlWatch.waiting k s.log = _
  rw [h.waiting]
  split
  · rename_i hk
    subst hk
    rw [hv]
    unfold State.voice
    rw [hx]
    rfl
  · rfl

/-- Whatever may be done in a state, can be done. -/
theorem inv_step {s s' : State} {l : Label} (h : Inv s) (hs : step s l = .ok s') : Inv s' := by
  cases l with
  | watch name ok =>
    simp only [step] at hs
    obtain ⟨t, h1, h2, h3, h4, h5, -⟩ := watch_ok h.base name ok
    cases hc : s.closed with
    | true => simp [hc] at hs
    | false =>
      simp only [hc, h1, Bool.false_eq_true, if_false] at hs
      cases hs
      refine ⟨⟨h2.after, h2.before, h2.ok, h2.entry, h2.found, h2.names⟩, ?_, ?_⟩
      · intro hc'
        have hc' : t.closed = true := hc'
        rw [h3, hc] at hc'
        cases hc'
      · intro n
        show HidlWatch.waiting n (t.log ++ [_]) = t.voice n
        rw [waiting_snoc, h5, h4, h.waiting]
  | unwatch name =>
    simp only [step] at hs
    obtain ⟨t, h1, h2, h3, h4, h5, h6, h7, h8⟩ := remove_ok h.base name
    cases hc : s.closed with
    | true => simp [hc] at hs
    | false =>
      simp only [hc, h1, Bool.false_eq_true, if_false] at hs
      cases hs
      refine ⟨⟨h2.after, h2.before, h2.ok, h2.entry, h2.found, h2.names⟩, ?_, ?_⟩
      · intro hc'
        have hc' : t.closed = true := hc'
        rw [h4, hc] at hc'
        cases hc'
      · intro n
        show HidlWatch.waiting n (t.log ++ [_]) = t.voice n
        rw [waiting_snoc, h7, h5, h.waiting]
        rfl
  | exec n =>
    simp only [step] at hs
    split at hs
    · cases hs
    rename_i x hx
    split at hs
    · rename_i hst
      cases hs
      obtain ⟨g1, g2, g3, g4, g5⟩ := h.base.ok n x hx
      rw [hst] at g3 g4 g5
      refine h.set hx ⟨g1, g2, ?_, ?_, ?_⟩ rfl rfl rfl
      · show x.call = _
        rw [g3]
        cases x.cancelled <;> rfl
      · intro hw
        show x.tx = _
        rw [g4 hw]
        cases x.cancelled <;> rfl
      · intro _
        exact g5 rfl
    · cases hs
  | send n =>
    simp only [step] at hs
    split at hs
    · cases hs
    rename_i x hx
    split at hs
    · rename_i hst
      split at hs
      · cases hs
      cases hs
      obtain ⟨g1, g2, g3, g4, g5⟩ := h.base.ok n x hx
      rw [hst] at g3 g4 g5
      have := h.set hx (y := { x with stage := .executed }) ⟨g1, g2, g3, g4, g5⟩ rfl rfl rfl
      refine ⟨⟨this.base.after, this.base.before, this.base.ok, this.base.entry, this.base.found, this.base.names⟩, this.closed, ?_⟩
      intro k
      show HidlWatch.waiting k (s.log ++ [_]) = _
      rw [waiting_snoc]
      exact this.waiting k
    · cases hs
  | complete n ok =>
    simp only [step] at hs
    split at hs
    · cases hs
    rename_i x hx
    split at hs
    · rename_i hst
      obtain ⟨y, y1, y2, y3, y4, y5, y6⟩ := complete_ok (h.base.ok n x hx) hst ok
      simp only [y1] at hs
      cases hs
      have hb := h.base.set hx y2 y4 y3
      refine ⟨⟨hb.after, hb.before, hb.ok, hb.entry, hb.found, hb.names⟩, h.closed, ?_⟩
      intro k
      show HidlWatch.waiting k (s.log ++ [_]) = (s.set n y).voice k
      rw [waiting_snoc, voice_set, h.waiting]
      by_cases hk : k = n
      · subst hk
        have hv : s.voice k = x.voice := by unfold State.voice; rw [hx]; rfl
        rw [if_pos rfl, y5, hv]
        unfold waits
        cases hcan : x.cancelled with
        | true =>
          have hvn : x.voice = none := by
            have g := h.base.ok k x hx
            have := g.cancelled (by rw [hst]; rfl)
            rw [hcan] at this
            have hw : x.watch = false := by cases hw : x.watch <;> simp [hw] at this ⊢
            have := g.handler
            simp [Item.voice, this, hw]
          simp [hvn]
        | false => cases ok <;> simp
      · rw [if_neg hk]
        unfold waits
        simp only []
        rw [if_neg]
        rintro ⟨rfl, _⟩
        exact hk rfl
    · cases hs
  | hold n =>
    simp only [step] at hs
    split at hs
    · cases hs
    rename_i x hx
    split at hs
    · cases hs
    cases hs
    obtain ⟨g1, g2, g3, g4, g5⟩ := h.base.ok n x hx
    refine h.set hx ⟨?_, g2, g3, g4, g5⟩ rfl rfl rfl
    simp only
    omega
  | release n =>
    simp only [step] at hs
    split at hs
    · cases hs
    rename_i x hx
    split at hs
    · cases hs
    rename_i k hk
    obtain ⟨g1, g2, g3, g4, g5⟩ := h.base.ok n x hx
    simp only [unref] at hs
    split at hs
    · rename_i y hy
      split at hy
      · cases hy
      rename_i r hr
      cases hy
      cases hs
      refine h.set hx ⟨?_, g2, g3, g4, g5⟩ rfl rfl rfl
      simp only
      rw [hr, hk] at g1
      omega
    · cases hs
    · cases hs
  | notify n full =>
    simp only [step] at hs
    split at hs
    · cases hs
    split at hs
    · cases hs
    split at hs
    · split at hs
      · cases hs
      cases hs
      refine ⟨⟨h.base.after, h.base.before, h.base.ok, h.base.entry, h.base.found, h.base.names⟩, h.closed, ?_⟩
      intro k
      show HidlWatch.waiting k (s.log ++ [_]) = s.voice k
      rw [waiting_snoc]
      exact h.waiting k
    · cases hs
      exact h
  | close =>
    simp only [step] at hs
    obtain ⟨t, h1, h2, h3, h4, h5, h6, h7⟩ := freeAll_ok (l := s.table) h.base
    cases hc : s.closed with
    | true => simp [hc] at hs
    | false =>
      simp only [hc, h1, Bool.false_eq_true, if_false] at hs
      cases hs
      have ht : t.table = [] := by
        cases hl : t.table with
        | nil => rfl
        | cons e l =>
          obtain ⟨a, b⟩ := h6 e (by rw [hl]; exact List.mem_cons_self)
          exact absurd a b
      refine ⟨⟨h2.after, h2.before, h2.ok, h2.entry, h2.found, h2.names⟩, fun _ => ht, ?_⟩
      intro n
      show HidlWatch.waiting n (t.log ++ [_]) = t.voice n
      rw [waiting_snoc, voice_none h2 ht]
      rfl

theorem inv_reach {s : State} (h : Reach step {} s) : Inv s :=
  Reach.invariant inv_init (fun _ _ _ hg hs => inv_step hg hs) h

/-- Nothing goes wrong if it's quiet. -/
theorem no_ub {s : State} (h : Inv s) (hq : Quiet s) (l : Label) : step s l ≠ .ub := by
  intro hs
  cases l with
  | watch name ok =>
    obtain ⟨t, h1, -⟩ := watch_ok h.base name ok
    simp only [step, h1] at hs
    split at hs <;> cases hs
  | unwatch name =>
    obtain ⟨t, h1, -⟩ := remove_ok h.base name
    simp only [step, h1] at hs
    split at hs <;> cases hs
  | exec n =>
    simp only [step] at hs
    split at hs
    · cases hs
    · split at hs <;> cases hs
  | send n =>
    simp only [step] at hs
    split at hs
    · cases hs
    rename_i x hx
    split at hs
    · rename_i hst
      split at hs
      · rename_i hc
        rcases hc with hc | hc
        · exact hq hc n x hx hst
        · have g := h.base.ok n x hx
          have g1 := g.refs
          have g3 := g.call
          rw [hst] at g3
          have g3 : x.call = true := g3
          rw [g3] at g1
          simp only [if_true] at g1
          omega
      · cases hs
    · cases hs
  | complete n ok =>
    simp only [step] at hs
    split at hs
    · cases hs
    rename_i x hx
    split at hs
    · rename_i hst
      obtain ⟨y, y1, -⟩ := complete_ok (h.base.ok n x hx) hst ok
      simp only [y1] at hs
      cases hs
    · cases hs
  | hold n =>
    simp only [step] at hs
    split at hs
    · cases hs
    · split at hs <;> cases hs
  | release n =>
    simp only [step] at hs
    split at hs
    · cases hs
    rename_i x hx
    split at hs
    · cases hs
    rename_i k hk
    have g1 := (h.base.ok n x hx).refs
    rw [hk] at g1
    simp only [unref] at hs
    split at hs
    · cases hs
    · cases hs
    · rename_i hy
      split at hy
      · rename_i hr
        omega
      · cases hy
  | notify n full =>
    simp only [step] at hs
    split at hs
    · cases hs
    rename_i x hx
    split at hs
    · cases hs
    split at hs
    · rename_i hh
      split at hs
      · rename_i hc
        have := voice_none h.base (h.closed hc) n
        unfold State.voice at this
        rw [hx] at this
        simp [Item.voice, hh] at this
      · cases hs
    · cases hs
  | close =>
    obtain ⟨t, h1, -⟩ := freeAll_ok (l := s.table) h.base
    simp only [step, h1] at hs
    split at hs <;> cases hs

/-- The rest of the steps change at most one of them. -/
theorem set_quiet {s : State} (h : Quiet s) {n : Nat} {y : Item} (hy : s.closed = true → y.stage ≠ .running) :
    Quiet (s.set n y) := by
  intro hc k x hx
  have hx : upd s.item n (some y) k = some x := hx
  unfold upd at hx
  split at hx
  · cases hx
    exact hy hc
  · exact h hc k x hx

theorem quiet_step {s s' : State} {l : Label} (h : Inv s) (hq : Quiet s) (hl : Calm s l) (hs : step s l = .ok s') :
    Quiet s' := by
  cases l with
  | watch name ok =>
    obtain ⟨t, h1, h2, h3, -⟩ := watch_ok h.base name ok
    simp only [step, h1] at hs
    split at hs
    · cases hs
    rename_i hc
    cases hs
    intro hc'
    have hc' : t.closed = true := hc'
    rw [h3] at hc'
    exact absurd hc' hc
  | unwatch name =>
    obtain ⟨t, h1, h2, -, h3, -⟩ := remove_ok h.base name
    simp only [step, h1] at hs
    split at hs
    · cases hs
    rename_i hc
    cases hs
    intro hc'
    have hc' : t.closed = true := hc'
    rw [h3] at hc'
    exact absurd hc' hc
  | exec n =>
    simp only [step] at hs
    split at hs
    · cases hs
    rename_i x hx
    split at hs
    · rename_i hst
      cases hs
      refine set_quiet hq ?_
      intro hc
      have g := h.base.ok n x hx
      have hw : x.watch = false := by
        cases hw : x.watch with
        | false => rfl
        | true =>
          have := h.base.found n x hx hw
          rw [h.closed hc] at this
          cases this
      have := g.cancelled (by rw [hst]; rfl)
      rw [hw] at this
      simp [this]
    · cases hs
  | send n =>
    simp only [step] at hs
    split at hs
    · cases hs
    split at hs
    · split at hs
      · cases hs
      cases hs
      exact set_quiet hq (by simp)
    · cases hs
  | complete n ok =>
    simp only [step] at hs
    split at hs
    · cases hs
    rename_i x hx
    split at hs
    · rename_i hst
      obtain ⟨y, y1, y2, y3, y4, y5, y6⟩ := complete_ok (h.base.ok n x hx) hst ok
      simp only [y1] at hs
      cases hs
      exact set_quiet hq (by rw [y6]; simp)
    · cases hs
  | hold n =>
    simp only [step] at hs
    split at hs
    · cases hs
    rename_i x hx
    split at hs
    · cases hs
    cases hs
    exact set_quiet hq fun hc => hq hc n x hx
  | release n =>
    simp only [step] at hs
    split at hs
    · cases hs
    rename_i x hx
    split at hs
    · cases hs
    simp only [unref] at hs
    split at hs
    · rename_i y hy
      split at hy
      · cases hy
      cases hy
      cases hs
      exact set_quiet hq fun hc => hq hc n x hx
    · cases hs
    · cases hs
  | notify n full =>
    simp only [step] at hs
    split at hs
    · cases hs
    split at hs
    · cases hs
    split at hs
    · split at hs
      · cases hs
      cases hs
      exact hq
    · cases hs
      exact hq
  | close =>
    obtain ⟨t, h1, h2, h3, h4, h5, h6, h7⟩ := freeAll_ok (l := s.table) h.base
    simp only [step, h1] at hs
    split at hs
    · cases hs
    cases hs
    intro _ k y hy
    have hy : t.item k = some y := hy
    have hk : k < s.count := by
      apply Nat.lt_of_not_le
      intro hle
      rw [h2.after k (by omega)] at hy
      cases hy
    obtain ⟨x, hx⟩ := h.base.before k hk
    obtain ⟨z, z1, z2, z3, z4⟩ := h7 k x hx
    rw [hy] at z1
    cases z1
    rw [z3]
    exact hl rfl k x hx

theorem quiet_reach {s : State} (h : ReachIf step Calm {} s) : Inv s ∧ Quiet s := by
  induction h with
  | init => exact ⟨inv_init, fun h => by cases h⟩
  | step l _ hl hs ih => exact ⟨inv_step ih.1 hs, quiet_step ih.1 ih.2 hl hs⟩

/-- What the log tells about the state. -/
structure Seen (s : State) : Prop where
  kept : ∀ e ∈ s.table, kept e.2 s.log = some e.1
  completed : ∀ n ok, .completed n ok ∈ s.log → ∃ x, s.item n = some x ∧ x.stage = .gone

theorem kept_snoc (n : Nat) (l : List Ev) (e : Ev) : HidlWatch.kept n (l ++ [e]) = keeps n (HidlWatch.kept n l) e := by
  simp [HidlWatch.kept, List.foldl_append]

/-- An item has been changed, and something is seen which doesn't matter. -/
theorem Seen.set {s : State} (h : Seen s) {n : Nat} {x y : Item} (hx : s.item n = some x)
    (hg : x.stage = .gone → y.stage = .gone) : Seen (s.set n y) := by
  refine ⟨h.kept, ?_⟩
  intro k ok hk
  obtain ⟨z, z1, z2⟩ := h.completed k ok hk
  show ∃ x, upd s.item n (some y) k = some x ∧ _
  by_cases hkn : k = n
  · subst hkn
    rw [hx] at z1
    cases z1
    exact ⟨y, upd_same _ _ _, hg z2⟩
  · exact ⟨z, by rw [upd_ne _ _ hkn]; exact z1, z2⟩

theorem Seen.see {s : State} (h : Seen s) {e : Ev} (hk : ∀ n w, keeps n w e = w) (hc : ∀ n ok, e ≠ .completed n ok) :
    Seen (s.see e) := by
  refine ⟨?_, ?_⟩
  · intro e' he'
    show HidlWatch.kept e'.2 (s.log ++ [e]) = _
    rw [kept_snoc, hk]
    exact h.kept e' he'
  · intro n ok hm
    have hm : Ev.completed n ok ∈ s.log ++ [e] := hm
    rcases List.mem_append.mp hm with hm | hm
    · exact h.completed n ok hm
    · exact absurd (List.mem_singleton.mp hm).symm (hc n ok)

theorem seen_step {s s' : State} {l : Label} (h : Inv s) (hk : Seen s) (hs : step s l = .ok s') : Seen s' := by
  cases l with
  | watch name ok =>
    obtain ⟨t, h1, h2, h3, h4, h5, h6, h7⟩ := watch_ok h.base name ok
    simp only [step, h1] at hs
    split at hs
    · cases hs
    cases hs
    refine ⟨?_, ?_⟩
    · intro e he
      show HidlWatch.kept e.2 (t.log ++ [_]) = _
      rw [kept_snoc, h4]
      rcases h6 e he with ⟨he, hne⟩ | ⟨rfl, rfl⟩
      · obtain ⟨x, hx, -⟩ := h.base.entry e he
        rw [hk.kept e he]
        unfold keeps
        simp only []
        rw [if_neg ?_, if_neg (by simpa using hne)]
        intro heq
        rw [h.base.after _ (by omega)] at hx
        cases hx
      · unfold keeps
        simp
    · intro n b hm
      have hm : Ev.completed n b ∈ t.log ++ [_] := hm
      rw [h4] at hm
      simp only [List.mem_append, List.mem_singleton, reduceCtorEq, or_false] at hm
      obtain ⟨x, x1, x2⟩ := hk.completed n b hm
      obtain ⟨y, y1, y2⟩ := h7 n x x1
      exact ⟨y, y1, y2.trans x2⟩
  | unwatch name =>
    obtain ⟨t, h1, h2, h3, h4, h5, h6, h7, h8⟩ := remove_ok h.base name
    simp only [step, h1] at hs
    split at hs
    · cases hs
    cases hs
    refine ⟨?_, ?_⟩
    · intro e he
      show HidlWatch.kept e.2 (t.log ++ [_]) = _
      have he : e ∈ t.table := he
      rw [h6, List.mem_filter] at he
      rw [kept_snoc, h5, hk.kept e he.1]
      unfold keeps
      simp only []
      rw [if_neg (by simpa using he.2)]
    · intro n b hm
      have hm : Ev.completed n b ∈ t.log ++ [_] := hm
      rw [h5] at hm
      simp only [List.mem_append, List.mem_singleton, reduceCtorEq, or_false] at hm
      obtain ⟨x, x1, x2⟩ := hk.completed n b hm
      obtain ⟨y, y1, -, y2, -⟩ := h8 n x x1
      exact ⟨y, y1, y2.trans x2⟩
  | exec n =>
    simp only [step] at hs
    split at hs
    · cases hs
    rename_i x hx
    split at hs
    · rename_i hst
      cases hs
      exact hk.set hx (by rw [hst]; intro hh; cases hh)
    · cases hs
  | send n =>
    simp only [step] at hs
    split at hs
    · cases hs
    rename_i x hx
    split at hs
    · rename_i hst
      split at hs
      · cases hs
      cases hs
      exact (hk.set hx (by rw [hst]; intro hh; cases hh)).see (fun _ _ => rfl) (by simp)
    · cases hs
  | complete n ok =>
    simp only [step] at hs
    split at hs
    · cases hs
    rename_i x hx
    split at hs
    · rename_i hst
      obtain ⟨y, y1, y2, y3, y4, y5, y6⟩ := complete_ok (h.base.ok n x hx) hst ok
      simp only [y1] at hs
      cases hs
      have hs := hk.set hx (y := y) (fun _ => y6)
      refine ⟨?_, ?_⟩
      · intro e he
        show HidlWatch.kept e.2 (s.log ++ [_]) = _
        rw [kept_snoc]
        exact hk.kept e he
      · intro k b hm
        have hm : Ev.completed k b ∈ s.log ++ [_] := hm
        rcases List.mem_append.mp hm with hm | hm
        · exact hs.completed k b hm
        · cases List.mem_singleton.mp hm
          exact ⟨y, upd_same _ _ _, y6⟩
    · cases hs
  | hold n =>
    simp only [step] at hs
    split at hs
    · cases hs
    rename_i x hx
    split at hs
    · cases hs
    cases hs
    exact hk.set hx id
  | release n =>
    simp only [step] at hs
    split at hs
    · cases hs
    rename_i x hx
    split at hs
    · cases hs
    simp only [unref] at hs
    split at hs
    · rename_i y hy
      split at hy
      · cases hy
      cases hy
      cases hs
      exact hk.set hx id
    · cases hs
    · cases hs
  | notify n full =>
    simp only [step] at hs
    split at hs
    · cases hs
    split at hs
    · cases hs
    split at hs
    · split at hs
      · cases hs
      cases hs
      exact hk.see (fun _ _ => rfl) (by simp)
    · cases hs
      exact hk
  | close =>
    obtain ⟨t, h1, h2, h3, h4, h5, h6, h7⟩ := freeAll_ok (l := s.table) h.base
    simp only [step, h1] at hs
    split at hs
    · cases hs
    cases hs
    refine ⟨?_, ?_⟩
    · intro e he
      obtain ⟨a, b⟩ := h6 e he
      exact absurd a b
    · intro n b hm
      have hm : Ev.completed n b ∈ t.log ++ [_] := hm
      rw [h5] at hm
      simp only [List.mem_append, List.mem_singleton, reduceCtorEq, or_false] at hm
      obtain ⟨x, x1, x2⟩ := hk.completed n b hm
      obtain ⟨y, y1, -, y2, -⟩ := h7 n x x1
      exact ⟨y, y1, y2.trans x2⟩

theorem seen_reach {s : State} (h : Reach step {} s) : Inv s ∧ Seen s := by
  refine Reach.invariant (P := fun s => Inv s ∧ Seen s) ⟨inv_init, ?_⟩ (fun _ _ _ hg hs => ⟨inv_step hg.1 hs, seen_step hg.1 hg.2 hs⟩) h
  refine ⟨?_, ?_⟩
  · intro e he; cases he
  · intro n ok hm; cases hm

/-- Once the transaction has been refused, nobody frees the call. -/
def Stuck (n : Nat) (s : State) : Prop := ∃ x, s.item n = some x ∧ x.stage = .refused

theorem stuck_step {s s' : State} {l : Label} {n : Nat} (h : Inv s) (hk : Stuck n s) (hs : step s l = .ok s') : Stuck n s' := by
  obtain ⟨x, hx, hst⟩ := hk
  have key : ∀ {k : Nat} {y z : Item}, s.item k = some z → (z.stage = .refused → y.stage = .refused) → Stuck n (s.set k y) := by
    intro k y z hz hy
    show ∃ x, upd s.item k (some y) n = some x ∧ _
    by_cases hkn : n = k
    · subst hkn
      rw [hx] at hz
      cases hz
      exact ⟨y, upd_same _ _ _, hy hst⟩
    · exact ⟨x, by rw [upd_ne _ _ hkn]; exact hx, hst⟩
  cases l with
  | watch name ok =>
    obtain ⟨t, h1, h2, h3, h4, h5, h6, h7⟩ := watch_ok h.base name ok
    simp only [step, h1] at hs
    split at hs
    · cases hs
    cases hs
    obtain ⟨y, y1, y2⟩ := h7 n x hx
    exact ⟨y, y1, y2.trans hst⟩
  | unwatch name =>
    obtain ⟨t, h1, h2, h3, h4, h5, h6, h7, h8⟩ := remove_ok h.base name
    simp only [step, h1] at hs
    split at hs
    · cases hs
    cases hs
    obtain ⟨y, y1, -, y2, -⟩ := h8 n x hx
    exact ⟨y, y1, y2.trans hst⟩
  | exec k =>
    simp only [step] at hs
    split at hs
    · cases hs
    rename_i z hz
    split at hs
    · rename_i hst'
      cases hs
      exact key hz (by rw [hst']; intro hh; cases hh)
    · cases hs
  | send k =>
    simp only [step] at hs
    split at hs
    · cases hs
    rename_i z hz
    split at hs
    · rename_i hst'
      split at hs
      · cases hs
      cases hs
      exact key hz (by rw [hst']; intro hh; cases hh)
    · cases hs
  | complete k ok =>
    simp only [step] at hs
    split at hs
    · cases hs
    rename_i z hz
    split at hs
    · rename_i hst'
      split at hs
      · cases hs
        exact key hz (by rw [hst']; intro hh; cases hh)
      · cases hs
      · cases hs
    · cases hs
  | hold k =>
    simp only [step] at hs
    split at hs
    · cases hs
    rename_i z hz
    split at hs
    · cases hs
    cases hs
    exact key hz id
  | release k =>
    simp only [step] at hs
    split at hs
    · cases hs
    rename_i z hz
    split at hs
    · cases hs
    simp only [unref] at hs
    split at hs
    · rename_i y hy
      split at hy
      · cases hy
      cases hy
      cases hs
      exact key hz id
    · cases hs
    · cases hs
  | notify k full =>
    simp only [step] at hs
    split at hs
    · cases hs
    split at hs
    · cases hs
    split at hs
    · split at hs
      · cases hs
      cases hs
      exact ⟨x, hx, hst⟩
    · cases hs
      exact ⟨x, hx, hst⟩
  | close =>
    obtain ⟨t, h1, h2, h3, h4, h5, h6, h7⟩ := freeAll_ok (l := s.table) h.base
    simp only [step, h1] at hs
    split at hs
    · cases hs
    cases hs
    obtain ⟨y, y1, -, y2, -⟩ := h7 n x hx
    exact ⟨y, y1, y2.trans hst⟩

end Gb.HidlWatch
