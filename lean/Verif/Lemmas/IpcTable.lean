import Verif.Spec.IpcTable
/-
What holds in all states of Model/IpcTable.
-/
set_option autoImplicit false

namespace Gb.IpcTable

open Config (str)

theorem name_ne_colon (p : Protocol) : (58 : UInt8) ∉ protocolName p := by
  cases p <;> decide +kernel

theorem protocolName_inj {p q : Protocol} (h : protocolName p = protocolName q) : p = q := by
  revert h
  cases p <;> cases q <;> first | (intro _; rfl) | (intro h; exact absurd h (by decide +kernel))

theorem split_at {α : Type} {c : α} : ∀ {a b x y : List α}, c ∉ a → c ∉ b → a ++ c :: x = b ++ c :: y → a = b ∧ x = y
  | [], [], x, y, _, _, h => by cases h; exact ⟨rfl, rfl⟩
  | [], b :: bs, x, y, _, hb, h => by cases h; simp at hb
  | a :: as, [], x, y, ha, _, h => by cases h; simp at ha
  | a :: as, b :: bs, x, y, ha, hb, h => by
    simp only [List.cons_append, List.cons.injEq] at h
    obtain ⟨h1, h2⟩ := split_at (fun h => ha (List.mem_cons_of_mem _ h)) (fun h => hb (List.mem_cons_of_mem _ h)) h.2
    exact ⟨by rw [h.1, h1], h2⟩

theorem makeKey_inj {d e : Bytes} {p q : Protocol} (h : makeKey d p = makeKey e q) : d = e ∧ p = q := by
  unfold makeKey at h
  have hc : str ":" = [58] := by decide +kernel
  rw [hc, List.append_assoc, List.append_assoc] at h
  obtain ⟨h1, h2⟩ := split_at (name_ne_colon p) (name_ne_colon q) h
  exact ⟨h2, protocolName_inj h1⟩

/-- References as counted by the object. -/
def State.refs (s : State) (i : Nat) : Nat := ((s.ipc i).map (·.refs)).getD 0

/-- Threads which are dropping a reference to this object. -/
def State.work (s : State) (i : Nat) : Nat := s.busy.countP fun b => b.2.1 == i

structure Inv (s : State) : Prop where
  bal : ∀ i, s.refs i + s.log.countP (takes i) = s.log.countP (gives i) + s.work i
  le : ∀ i, s.log.countP (takes i) ≤ s.log.countP (gives i)
  uniq : (s.busy.map (·.1)).Nodup
  pos : ∀ i x, s.ipc i = some x → 0 < x.refs ∧ i < s.no
  live : ∀ i ∈ s.table, s.ipc i ≠ none
  gone : ∀ t i ph, (t, i, ph) ∈ s.busy → ph ≠ .dispose → i ∉ s.table
  last : ∀ t i, (t, i, Phase.last) ∈ s.busy → s.refs i = 1
  nodup : s.table.Nodup
  keys : ∀ i j x y, i ∈ s.table → j ∈ s.table → s.ipc i = some x → s.ipc j = some y → x.key = y.key → i = j
  isFor : ∀ i x d p, s.ipc i = some x → Ev.got d p i ∈ s.log → x.dev = d ∧ x.protocol = p
  known : ∀ d p i, Ev.got d p i ∈ s.log → i < s.no
  asked : ∀ i x, s.ipc i = some x → Ev.got x.dev x.protocol i ∈ s.log
  freed : ∀ i, Ev.freed i ∈ s.log ↔ i < s.no ∧ s.ipc i = none

theorem Inv.owned {s : State} (h : Inv s) (i : Nat) : owned i s.log + s.work i = s.refs i := by
  have h1 := h.bal i
  have h2 := h.le i
  simp only [IpcTable.owned]
  omega

theorem Inv.intact {s : State} (h : Inv s) : s.intact = true := by
  simp only [State.intact, List.all_eq_true]
  intro i hi
  have := h.live i hi
  cases hx : s.ipc i <;> simp_all

theorem doing_mem {s : State} {t : Nat} {y : Nat × Phase} (h : s.doing t = some y) : (t, y) ∈ s.busy := by
  unfold State.doing at h
  obtain ⟨b, hb, rfl⟩ := Option.map_eq_some_iff.1 h
  have h1 := List.mem_of_find?_eq_some hb
  have h2 := List.find?_some hb
  simp only [beq_iff_eq] at h2
  rw [← h2]
  exact h1

theorem doing_none {s : State} {t : Nat} (h : s.doing t = none) (y : Nat × Phase) : (t, y) ∉ s.busy := by
  unfold State.doing at h
  rw [Option.map_eq_none_iff, List.find?_eq_none] at h
  intro hm
  exact h _ hm (by simp)

theorem mem_doing {s : State} (hu : (s.busy.map (·.1)).Nodup) {t : Nat} {y : Nat × Phase} (h : (t, y) ∈ s.busy) :
    s.doing t = some y := by
  unfold State.doing
  induction hb : s.busy generalizing s with
  | nil => rw [hb] at h; cases h
  | cons b l ih =>
    rw [hb] at h hu
    simp only [List.map_cons, List.nodup_cons] at hu
    rw [List.find?_cons]
    by_cases hbt : b.1 = t
    · rcases List.mem_cons.1 h with h | h
      · rw [← h]; simp
      · exact absurd (List.mem_map.2 ⟨_, h, hbt.symm⟩) hu.1
    · rcases List.mem_cons.1 h with h | h
      · rw [← h] at hbt; exact absurd rfl hbt
      · simp only [show (b.1 == t) = false by simp [hbt]]
        exact ih (s := { s with busy := l }) hu.2 h rfl

/-- The list without this thread. -/
theorem rest_count {l : List (Nat × Nat × Phase)} (hu : (l.map (·.1)).Nodup) {t : Nat} {y : Nat × Phase}
    (h : (t, y) ∈ l) (i : Nat) :
    (l.filter fun b => b.1 != t).countP (fun b => b.2.1 == i) + (if y.1 = i then 1 else 0) =
      l.countP fun b => b.2.1 == i := by
  induction l with
  | nil => cases h
  | cons b l ih =>
    simp only [List.map_cons, List.nodup_cons] at hu
    by_cases hb : b.1 = t
    · have hn : ∀ c ∈ l, (c.1 != t) = true := by
        intro c hc
        simp only [bne_iff_ne, ne_eq]
        intro he
        exact hu.1 (List.mem_map.2 ⟨c, hc, by rw [he, hb]⟩)
      have hy : (t, y) = b := by
        rcases List.mem_cons.1 h with h | h
        · exact h
        · have := hn _ h; simp at this
      rw [List.filter_cons_of_neg (by simp [hb]), List.filter_eq_self.2 hn, ← hy, List.countP_cons]
      simp
    · have h' : (t, y) ∈ l := by
        rcases List.mem_cons.1 h with h | h
        · rw [← h] at hb; exact absurd rfl hb
        · exact h
      have := ih hu.2 h'
      rw [List.filter_cons_of_pos (by simp [hb]), List.countP_cons, List.countP_cons]
      omega

theorem rest_none {l : List (Nat × Nat × Phase)} {t : Nat} (h : ∀ y, (t, y) ∉ l) :
    (l.filter fun b => b.1 != t) = l := by
  rw [List.filter_eq_self]
  intro b hb
  simp only [bne_iff_ne, ne_eq]
  intro he
  exact h b.2 (by rw [← he]; exact hb)

theorem rest_uniq {l : List (Nat × Nat × Phase)} (hu : (l.map (·.1)).Nodup) (t : Nat) :
    ((l.filter fun b => b.1 != t).map (·.1)).Nodup ∧ t ∉ (l.filter fun b => b.1 != t).map (·.1) := by
  refine ⟨List.Nodup.sublist (List.Sublist.map _ (List.filter_sublist)) hu, ?_⟩
  intro h
  obtain ⟨b, hb, he⟩ := List.mem_map.1 h
  have := (List.mem_filter.1 hb).2
  simp [he] at this

theorem mem_becomes {s : State} {t t' : Nat} {y y' : Nat × Phase} (h : (t', y') ∈ (s.becomes t (some y)).busy) :
    (t' = t ∧ y' = y) ∨ (t' ≠ t ∧ (t', y') ∈ s.busy) := by
  simp only [State.becomes, List.cons_append, List.nil_append, List.mem_cons, List.mem_filter, Prod.mk.injEq] at h
  rcases h with h | h
  · exact .inl h
  · exact .inr ⟨by simpa using h.2, h.1⟩

theorem mem_rest {s : State} {t t' : Nat} {y' : Nat × Phase} (h : (t', y') ∈ (s.becomes t none).busy) :
    t' ≠ t ∧ (t', y') ∈ s.busy := by
  simp only [State.becomes, List.nil_append, List.mem_filter] at h
  exact ⟨by simpa using h.2, h.1⟩

theorem becomes_uniq {s : State} (hu : (s.busy.map (·.1)).Nodup) (t : Nat) (x : Option (Nat × Phase)) :
    ((s.becomes t x).busy.map (·.1)).Nodup := by
  obtain ⟨h1, h2⟩ := rest_uniq hu t
  cases x with
  | none => simpa [State.becomes] using h1
  | some y =>
    simp only [State.becomes, List.cons_append, List.nil_append, List.map_cons, List.nodup_cons]
    exact ⟨h2, h1⟩

/-- One more reference to somebody. -/
theorem Inv.ref {s : State} (h : Inv s) {i : Nat} {x : Ipc} (hx : s.ipc i = some x) {e : Ev}
    (he : e = .ref i ∨ e = .got x.dev x.protocol i) (hl : ∀ t, (t, i, Phase.last) ∉ s.busy) :
    Inv ((s.set i (some { x with refs := x.refs + 1 })).see [e]) := by
  have hg : ∀ j, gives j e = (j == i) := by intro j; rcases he with rfl | rfl <;> rfl
  have ht : ∀ j, takes j e = false := by intro j; rcases he with rfl | rfl <;> rfl
  have hne : ∀ {j : Nat} {y : Ipc}, upd s.ipc i (some { x with refs := x.refs + 1 }) j = some y →
      ∃ z, s.ipc j = some z ∧ y.dev = z.dev ∧ y.protocol = z.protocol ∧ z.refs ≤ y.refs ∧ (j ≠ i → y = z) := by
    intro j y hy
    by_cases hj : j = i
    · subst hj; rw [upd_same] at hy; cases hy
      exact ⟨x, hx, rfl, rfl, Nat.le_succ _, fun h => absurd rfl h⟩
    · rw [upd_ne _ _ hj] at hy
      exact ⟨y, hy, rfl, rfl, Nat.le_refl _, fun _ => rfl⟩
  constructor
  · intro j
    have := h.bal j
    simp only [State.refs, State.work, State.set, State.see, List.countP_append, List.countP_cons, List.countP_nil,
      hg, ht] at this ⊢
    by_cases hj : j = i
    · subst hj; rw [upd_same]; rw [hx] at this; simp at this ⊢; omega
    · rw [upd_ne _ _ hj]; simp [hj] at this ⊢; omega
  · intro j
    have := h.le j
    simp only [State.see, State.set, List.countP_append, List.countP_cons, List.countP_nil, hg, ht]
    simp only [Bool.false_eq_true, if_false]
    omega
  · exact h.uniq
  · intro j y hy
    obtain ⟨z, hz, _, _, hle, _⟩ := hne hy
    have := h.pos j z hz
    exact ⟨by omega, this.2⟩
  · intro j hj hn
    simp only [State.see, State.set] at hn
    by_cases hji : j = i
    · subst hji; rw [upd_same] at hn; cases hn
    · rw [upd_ne _ _ hji] at hn; exact h.live j hj hn
  · exact h.gone
  · intro t j hm
    have hji : j ≠ i := fun hji => hl t (hji ▸ hm)
    have := h.last t j hm
    simp only [State.refs, State.see, State.set] at this ⊢
    rwa [upd_ne _ _ hji]
  · exact h.nodup
  · intro j k y z hj hk hy hz hkey
    obtain ⟨y', hy', h1, h2, _⟩ := hne hy
    obtain ⟨z', hz', h3, h4, _⟩ := hne hz
    refine h.keys j k y' z' hj hk hy' hz' ?_
    simp only [Ipc.key] at hkey ⊢
    rw [← h1, ← h2, ← h3, ← h4]; exact hkey
  · intro j y d p hy hm
    obtain ⟨z, hz, h1, h2, _⟩ := hne hy
    rw [h1, h2]
    rcases List.mem_append.1 hm with hm | hm
    · exact h.isFor j z d p hz hm
    · simp only [List.mem_singleton] at hm
      rcases he with rfl | rfl
      · cases hm
      · cases hm; rw [hx] at hz; cases hz; exact ⟨rfl, rfl⟩
  · intro d p j hm
    rcases List.mem_append.1 hm with hm | hm
    · exact h.known d p j hm
    · simp only [List.mem_singleton] at hm
      rcases he with rfl | rfl
      · cases hm
      · cases hm; exact (h.pos i x hx).2
  · intro j y hy
    obtain ⟨z, hz, h1, h2, _⟩ := hne hy
    rw [h1, h2]
    exact List.mem_append_left _ (h.asked j z hz)
  · intro j
    have h1 := h.freed j
    have h2 : Ev.freed j ≠ e := by rcases he with rfl | rfl <;> simp
    simp only [State.see, State.set, List.mem_append, List.mem_singleton, h2, or_false]
    rw [h1]
    by_cases hj : j = i
    · subst hj; rw [upd_same, hx]; simp
    · rw [upd_ne _ _ hj]

/-- An object with a reference isn't about to be freed. -/
theorem Inv.not_last {s : State} (h : Inv s) {i : Nat} (ho : 0 < IpcTable.owned i s.log) (t : Nat) :
    (t, i, Phase.last) ∉ s.busy := by
  intro hm
  have h1 := h.owned i
  have h2 := h.last t i hm
  have h3 : 0 < s.work i := List.countP_pos_iff.2 ⟨_, hm, by simp⟩
  omega

theorem Inv.not_last_table {s : State} (h : Inv s) {i : Nat} (hi : i ∈ s.table) (t : Nat) :
    (t, i, Phase.last) ∉ s.busy := fun hm => h.gone t i _ hm (by simp) hi

theorem refAll_inv {s : State} (h : Inv s) {l : List Nat} (hl : ∀ i ∈ l, i ∈ s.table) :
    ∃ s', s.refAll l = .ok s' ∧ Inv s' ∧ s'.table = s.table ∧ s'.busy = s.busy := by
  induction l generalizing s with
  | nil => exact ⟨s, rfl, h, rfl, rfl⟩
  | cons i l ih =>
    have hi := hl i (by simp)
    cases hx : s.ipc i with
    | none => exact absurd hx (h.live i hi)
    | some x =>
      have h1 := h.ref hx (.inl rfl) (h.not_last_table hi)
      obtain ⟨s', h2, h3, h4, h5⟩ := ih h1 fun j hj => hl j (by simp [hj])
      exact ⟨s', by simp only [State.refAll, hx]; exact h2, h3, h4, h5⟩

theorem Inv.alive {s : State} (h : Inv s) {i : Nat} (ho : 0 < IpcTable.owned i s.log) : ∃ x, s.ipc i = some x := by
  have := h.owned i
  cases hx : s.ipc i with
  | none => simp only [State.refs, hx, Option.map_none, Option.getD_none] at this; omega
  | some x => exact ⟨x, rfl⟩

theorem Inv.busy_alive {s : State} (h : Inv s) {t i : Nat} {ph : Phase} (hm : (t, i, ph) ∈ s.busy) :
    ∃ x, s.ipc i = some x := by
  have := h.owned i
  have h3 : 0 < s.work i := List.countP_pos_iff.2 ⟨_, hm, by simp⟩
  cases hx : s.ipc i with
  | none => simp only [State.refs, hx, Option.map_none, Option.getD_none] at this; omega
  | some x => exact ⟨x, rfl⟩

theorem lookup_some {s : State} {key : Bytes} {i : Nat} (h : s.lookup key = some i) :
    i ∈ s.table ∧ ∃ x, s.ipc i = some x ∧ x.key = key := by
  unfold State.lookup at h
  refine ⟨List.mem_of_find?_eq_some h, ?_⟩
  have := List.find?_some h
  simp only [Option.any_eq_true, beq_iff_eq] at this
  exact this

theorem lookup_none {s : State} {key : Bytes} (h : s.lookup key = none) {i : Nat} {x : Ipc} (hi : i ∈ s.table)
    (hx : s.ipc i = some x) : x.key ≠ key := by
  unfold State.lookup at h
  rw [List.find?_eq_none] at h
  have := h i hi
  simpa [hx] using this

/-- The object is new. -/
theorem Inv.new {s : State} (h : Inv s) {d : Bytes} {p : Protocol} (hn : s.lookup (makeKey d p) = none) :
    Inv ((({ s with no := s.no + 1, table := s.no :: s.table } : State).set s.no (some ⟨1, d, p⟩)).see
      [.got d p s.no]) := by
  have hno : s.ipc s.no = none := by
    cases hx : s.ipc s.no with
    | none => rfl
    | some x => have := (h.pos _ x hx).2; omega
  have hnt : s.no ∉ s.table := fun hm => h.live _ hm hno
  have hnb : ∀ t ph, (t, s.no, ph) ∉ s.busy := by
    intro t ph hm
    obtain ⟨x, hx⟩ := h.busy_alive hm
    rw [hno] at hx; cases hx
  have hg : ∀ j, gives j (.got d p s.no) = (j == s.no) := fun _ => rfl
  have ht : ∀ j, takes j (.got d p s.no) = false := fun _ => rfl
  have hne : ∀ {j : Nat} {y : Ipc}, upd s.ipc s.no (some ⟨1, d, p⟩) j = some y →
      (j = s.no ∧ y = ⟨1, d, p⟩) ∨ (j ≠ s.no ∧ s.ipc j = some y) := by
    intro j y hy
    by_cases hj : j = s.no
    · rw [hj, upd_same] at hy; cases hy; exact .inl ⟨hj, rfl⟩
    · rw [upd_ne _ _ hj] at hy; exact .inr ⟨hj, hy⟩
  constructor
  · intro j
    have := h.bal j
    simp only [State.refs, State.work, State.set, State.see, List.countP_append, List.countP_cons, List.countP_nil,
      hg, ht] at this ⊢
    by_cases hj : j = s.no
    · rw [hj, upd_same]; rw [hj, hno] at this; simp at this ⊢; omega
    · rw [upd_ne _ _ hj]; simp [hj] at this ⊢; omega
  · intro j
    have := h.le j
    simp only [State.see, State.set, List.countP_append, List.countP_cons, List.countP_nil, hg, ht]
    simp only [Bool.false_eq_true, if_false]
    omega
  · exact h.uniq
  · intro j y hy
    rcases hne hy with ⟨hj, rfl⟩ | ⟨hj, hy⟩
    · exact ⟨by simp, by rw [hj]; exact Nat.lt_succ_self _⟩
    · have := h.pos j y hy
      exact ⟨this.1, Nat.lt_succ_of_lt this.2⟩
  · intro j hj hn
    simp only [State.see, State.set] at hn hj
    by_cases hji : j = s.no
    · rw [hji, upd_same] at hn; cases hn
    · rw [upd_ne _ _ hji] at hn
      rcases List.mem_cons.1 hj with hj | hj
      · exact hji hj
      · exact h.live j hj hn
  · intro t j ph hm hph hj
    rcases List.mem_cons.1 hj with hj | hj
    · rw [hj] at hm; exact hnb t ph hm
    · exact h.gone t j ph hm hph hj
  · intro t j hm
    have hji : j ≠ s.no := fun hji => hnb t _ (hji ▸ hm)
    have := h.last t j hm
    simp only [State.refs, State.see, State.set] at this ⊢
    rwa [upd_ne _ _ hji]
  · exact List.nodup_cons.2 ⟨hnt, h.nodup⟩
  · intro j k y z hj hk hy hz hkey
    have hj' := List.mem_cons.1 hj
    have hk' := List.mem_cons.1 hk
    rcases hne hy with ⟨hj1, rfl⟩ | ⟨hj1, hy⟩ <;> rcases hne hz with ⟨hk1, rfl⟩ | ⟨hk1, hz⟩
    · rw [hj1, hk1]
    · exact absurd hkey.symm (lookup_none hn (hk'.resolve_left hk1) hz)
    · exact absurd hkey (lookup_none hn (hj'.resolve_left hj1) hy)
    · exact h.keys j k y z (hj'.resolve_left hj1) (hk'.resolve_left hk1) hy hz hkey
  · intro j y d' p' hy hm
    rcases List.mem_append.1 hm with hm | hm
    · rcases hne hy with ⟨hj1, rfl⟩ | ⟨hj1, hy⟩
      · have := h.known _ _ _ hm; omega
      · exact h.isFor j y d' p' hy hm
    · simp only [List.mem_singleton] at hm
      cases hm
      rcases hne hy with ⟨hj1, rfl⟩ | ⟨hj1, hy⟩
      · exact ⟨rfl, rfl⟩
      · exact absurd rfl hj1
  · intro d' p' j hm
    rcases List.mem_append.1 hm with hm | hm
    · exact Nat.lt_succ_of_lt (h.known d' p' j hm)
    · simp only [List.mem_singleton] at hm
      cases hm; exact Nat.lt_succ_self _
  · intro j y hy
    rcases hne hy with ⟨hj1, rfl⟩ | ⟨hj1, hy⟩
    · rw [hj1]; exact List.mem_append_right _ (by simp)
    · exact List.mem_append_left _ (h.asked j y hy)
  · intro j
    have h1 := h.freed j
    simp only [State.see, State.set, List.mem_append, List.mem_singleton, reduceCtorEq, or_false]
    rw [h1]
    by_cases hj : j = s.no
    · rw [hj, upd_same]; simp
    · rw [upd_ne _ _ hj]
      constructor
      · rintro ⟨h2, h3⟩; exact ⟨Nat.lt_succ_of_lt h2, h3⟩
      · rintro ⟨h2, h3⟩
        have h2 : j < s.no + 1 := h2
        exact ⟨by omega, h3⟩

theorem Inv.failed {s : State} (h : Inv s) (d : Bytes) (p : Protocol) : Inv (s.see [.failed d p]) := by
  constructor
  · intro j; have := h.bal j
    simpa [State.refs, State.work, State.see, List.countP_append, List.countP_cons, gives, takes] using this
  · intro j; have := h.le j
    simpa [State.see, List.countP_append, List.countP_cons, gives, takes] using this
  · exact h.uniq
  · exact h.pos
  · exact h.live
  · exact h.gone
  · exact h.last
  · exact h.nodup
  · exact h.keys
  · intro j x d' p' hx hm
    exact h.isFor j x d' p' hx (by simpa [State.see] using hm)
  · intro d' p' j hm
    exact h.known d' p' j (by simpa [State.see] using hm)
  · intro j x hx
    exact List.mem_append_left _ (h.asked j x hx)
  · intro j
    have h1 := h.freed j
    simpa [State.see] using h1

/-- A reference is dropped, it isn't the last one: either by somebody who has it (`e` tells so) or by a thread which has
already disposed of the object. -/
theorem Inv.less {s : State} (h : Inv s) {i : Nat} {x : Ipc} (hx : s.ipc i = some x) (hr : 1 < x.refs)
    {busy : List (Nat × Nat × Phase)} {e : List Ev} (hg : ∀ j, e.countP (gives j) = 0)
    (ht : ∀ j, s.log.countP (takes j) + e.countP (takes j) ≤ s.log.countP (gives j))
    (hw : ∀ j, s.work j + e.countP (takes j) = busy.countP (fun b => b.2.1 == j) + if j = i then 1 else 0)
    (hu : (busy.map (·.1)).Nodup) (hb : ∀ b ∈ busy, b ∈ s.busy) (he : ∀ d p j, Ev.got d p j ∉ e)
    (hf : ∀ j, Ev.freed j ∉ e) :
    Inv { s.set i (some { x with refs := x.refs - 1 }) with busy := busy, log := s.log ++ e } := by
  have hne : ∀ {j : Nat} {y : Ipc}, upd s.ipc i (some { x with refs := x.refs - 1 }) j = some y →
      ∃ z, s.ipc j = some z ∧ y.dev = z.dev ∧ y.protocol = z.protocol ∧ 0 < y.refs := by
    intro j y hy
    by_cases hj : j = i
    · subst hj; rw [upd_same] at hy; cases hy
      exact ⟨x, hx, rfl, rfl, by show 0 < x.refs - 1; omega⟩
    · rw [upd_ne _ _ hj] at hy
      exact ⟨y, hy, rfl, rfl, (h.pos j y hy).1⟩
  have hgot : ∀ {d p j}, Ev.got d p j ∈ s.log ++ e → Ev.got d p j ∈ s.log := by
    intro d p j hm
    rcases List.mem_append.1 hm with hm | hm
    · exact hm
    · exact absurd hm (he d p j)
  constructor
  · intro j
    have h1 := h.bal j
    have h2 := hw j
    simp only [State.refs, State.work, State.set, List.countP_append, hg] at h1 h2 ⊢
    by_cases hj : j = i
    · subst hj; rw [upd_same]; rw [hx] at h1
      simp only [Option.map_some, Option.getD_some, if_true] at h1 h2 ⊢
      omega
    · rw [upd_ne _ _ hj]; simp only [hj, if_false] at h2; omega
  · intro j
    have := ht j
    simp only [List.countP_append, hg]
    omega
  · exact hu
  · intro j y hy
    obtain ⟨z, hz, _, _, h3⟩ := hne hy
    exact ⟨h3, (h.pos j z hz).2⟩
  · intro j hj hn
    simp only [State.set] at hn
    by_cases hji : j = i
    · subst hji; rw [upd_same] at hn; cases hn
    · rw [upd_ne _ _ hji] at hn; exact h.live j hj hn
  · intro t j ph hm; exact h.gone t j ph (hb _ hm)
  · intro t j hm
    have h1 := h.last t j (hb _ hm)
    simp only [State.refs, State.set] at h1 ⊢
    have hji : j ≠ i := by
      rintro rfl
      rw [hx] at h1
      simp only [Option.map_some, Option.getD_some] at h1
      omega
    rwa [upd_ne _ _ hji]
  · exact h.nodup
  · intro j k y z hj hk hy hz hkey
    obtain ⟨y', hy', h1, h2, _⟩ := hne hy
    obtain ⟨z', hz', h3, h4, _⟩ := hne hz
    refine h.keys j k y' z' hj hk hy' hz' ?_
    simp only [Ipc.key] at hkey ⊢
    rw [← h1, ← h2, ← h3, ← h4]; exact hkey
  · intro j y d p hy hm
    obtain ⟨z, hz, h1, h2, _⟩ := hne hy
    rw [h1, h2]
    exact h.isFor j z d p hz (hgot hm)
  · intro d p j hm; exact h.known d p j (hgot hm)
  · intro j y hy
    obtain ⟨z, hz, h1, h2, _⟩ := hne hy
    rw [h1, h2]
    exact List.mem_append_left _ (h.asked j z hz)
  · intro j
    have h1 := h.freed j
    simp only [State.set, List.mem_append, hf, or_false]
    rw [h1]
    by_cases hj : j = i
    · subst hj; rw [upd_same, hx]; simp
    · rw [upd_ne _ _ hj]

/-- A thread goes on to the next phase, something may be removed from the table. -/
theorem Inv.next {s : State} (h : Inv s) {t i : Nat} {ph : Phase} {table : List Nat} {e : List Ev}
    (hg : ∀ j, e.countP (gives j) = 0) (he : ∀ d p j, Ev.got d p j ∉ e) (hf : ∀ j, Ev.freed j ∉ e)
    (ht : ∀ j, s.log.countP (takes j) + e.countP (takes j) ≤ s.log.countP (gives j))
    (hw : ∀ j, s.work j + e.countP (takes j) = (s.becomes t (some (i, ph))).work j)
    (htab : ∀ j ∈ table, j ∈ s.table) (hnd : table.Nodup) (hgone : ph ≠ .dispose → i ∉ table)
    (hlast : ph = .last → s.refs i = 1) :
    Inv { s.becomes t (some (i, ph)) with table := table, log := s.log ++ e } := by
  have hgot : ∀ {d p j}, Ev.got d p j ∈ s.log ++ e → Ev.got d p j ∈ s.log := by
    intro d p j hm
    rcases List.mem_append.1 hm with hm | hm
    · exact hm
    · exact absurd hm (he d p j)
  constructor
  · intro j
    have h1 := h.bal j
    have h2 := hw j
    simp only [State.refs, State.work, State.becomes, List.countP_append, hg] at h1 h2 ⊢
    omega
  · intro j
    have := ht j
    simp only [List.countP_append, hg]
    omega
  · exact becomes_uniq h.uniq t (some (i, ph))
  · exact h.pos
  · intro j hj; exact h.live j (htab j hj)
  · intro t' j ph' hm hph hj
    rcases mem_becomes hm with ⟨_, h1⟩ | ⟨_, h1⟩
    · cases h1; exact hgone hph hj
    · exact h.gone t' j ph' h1 hph (htab j hj)
  · intro t' j hm
    rcases mem_becomes hm with ⟨_, h1⟩ | ⟨_, h1⟩
    · cases h1; exact hlast rfl
    · exact h.last t' j h1
  · exact hnd
  · intro j k y z hj hk; exact h.keys j k y z (htab j hj) (htab k hk)
  · intro j y d p hy hm; exact h.isFor j y d p hy (hgot hm)
  · intro d p j hm; exact h.known d p j (hgot hm)
  · intro j y hy; exact List.mem_append_left _ (h.asked j y hy)
  · intro j
    have h1 := h.freed j
    simp only [State.becomes, List.mem_append, hf, or_false]
    exact h1

/-- The object is freed. -/
theorem Inv.free {s : State} (h : Inv s) {t i : Nat} (hm : (t, i, Phase.last) ∈ s.busy) :
    Inv (((s.set i none).becomes t none).see [.freed i]) := by
  have hr := h.last t i hm
  have hk : ∀ j, ((s.busy.filter fun b => b.1 != t).countP fun b => b.2.1 == j) + (if i = j then 1 else 0) = s.work j :=
    rest_count h.uniq hm
  have hne : ∀ {j : Nat} {y : Ipc}, upd s.ipc i none j = some y → j ≠ i ∧ s.ipc j = some y := by
    intro j y hy
    by_cases hj : j = i
    · rw [hj, upd_same] at hy; cases hy
    · rw [upd_ne _ _ hj] at hy; exact ⟨hj, hy⟩
  have hw : s.work i = 1 := by
    have h1 := h.owned i
    have h2 := hk i
    simp only [if_true] at h2
    omega
  constructor
  · intro j
    have h1 := h.bal j
    have h2 := hk j
    simp only [State.refs, State.work, State.set, State.see, State.becomes, List.countP_append, List.countP_cons,
      List.countP_nil, gives, takes, List.nil_append] at h1 h2 ⊢
    by_cases hj : j = i
    · rw [hj, upd_same]
      rw [hj] at h1 h2
      simp only [State.refs] at hr
      simp only [Option.map_none, Option.getD_none, if_true, Bool.false_eq_true, if_false] at h2 ⊢
      omega
    · rw [upd_ne _ _ hj]
      simp only [Ne.symm hj, if_false, Bool.false_eq_true] at h2 ⊢
      omega
  · intro j
    have := h.le j
    simpa [State.see, State.set, State.becomes, List.countP_append, List.countP_cons, gives, takes] using this
  · exact becomes_uniq (s := s.set i none) h.uniq t none
  · intro j y hy
    obtain ⟨_, hy⟩ := hne hy
    exact h.pos j y hy
  · intro j hj hn
    simp only [State.see, State.set, State.becomes] at hn hj
    by_cases hji : j = i
    · rw [hji] at hj; exact h.gone t i _ hm (by simp) hj
    · rw [upd_ne _ _ hji] at hn; exact h.live j hj hn
  · intro t' j ph hm'
    exact h.gone t' j ph (mem_rest (s := s.set i none) hm').2
  · intro t' j hm'
    obtain ⟨h1, h2⟩ := mem_rest (s := s.set i none) hm'
    have hji : j ≠ i := by
      rintro rfl
      have h3 := hk j
      simp only [if_true] at h3
      have : 0 < (s.busy.filter fun b => b.1 != t).countP fun b => b.2.1 == j :=
        List.countP_pos_iff.2 ⟨(t', j, .last), List.mem_filter.2 ⟨h2, by simp [h1]⟩, by simp⟩
      omega
    have := h.last t' j h2
    simp only [State.refs, State.see, State.set, State.becomes] at this ⊢
    rwa [upd_ne _ _ hji]
  · exact h.nodup
  · intro j k y z hj hk' hy hz
    exact h.keys j k y z hj hk' (hne hy).2 (hne hz).2
  · intro j y d p hy hm'
    exact h.isFor j y d p (hne hy).2 (by simpa [State.see, State.set, State.becomes] using hm')
  · intro d p j hm'
    exact h.known d p j (by simpa [State.see, State.set, State.becomes] using hm')
  · intro j y hy
    exact List.mem_append_left _ (h.asked j y (hne hy).2)
  · intro j
    have h1 := h.freed j
    simp only [State.see, State.set, State.becomes, List.mem_append, List.mem_singleton, Ev.freed.injEq]
    rw [h1]
    obtain ⟨x, hx⟩ := h.busy_alive hm
    by_cases hj : j = i
    · subst hj; rw [upd_same]; simp [(h.pos _ x hx).2]
    · rw [upd_ne _ _ hj]; simp [hj]

theorem mem_forget {s : State} {key : Bytes} {i : Nat} :
    i ∈ (s.forget key).table ↔ i ∈ s.table ∧ ∀ x, s.ipc i = some x → x.key ≠ key := by
  simp only [State.forget, List.mem_filter]
  cases hx : s.ipc i <;> simp

theorem step_inv {auto : Bytes → Protocol} {s : State} (h : Inv s) {l : Label} (hok : Ok s l) :
    step auto s l ≠ .ub ∧ ∀ s', step auto s l = .ok s' → Inv s' := by
  cases l with
  | new dev name opens =>
    simp only [step]
    rw [if_pos h.intact]
    cases hl : s.lookup (makeKey (device dev) (protocol auto (device dev) name)) with
    | some i =>
      obtain ⟨hi, x, hx, hk⟩ := lookup_some hl
      simp only [hx]
      obtain ⟨h1, h2⟩ := makeKey_inj hk
      refine ⟨by simp, fun s' hs => ?_⟩
      cases hs
      refine h.ref hx (.inr ?_) (h.not_last_table hi)
      rw [← h2, ← h1]
    | none =>
      simp only []
      cases opens with
      | true => simp only [if_true]; exact ⟨by simp, fun s' hs => by cases hs; exact h.new hl⟩
      | false =>
        simp only [Bool.false_eq_true, if_false]
        exact ⟨by simp, fun s' hs => by cases hs; exact h.failed _ _⟩
  | ref i =>
    obtain ⟨x, hx⟩ := h.alive hok
    simp only [step, hx]
    exact ⟨by simp, fun s' hs => by cases hs; exact h.ref hx (.inl rfl) (h.not_last hok)⟩
  | unref t i =>
    obtain ⟨x, hx⟩ := h.alive hok
    simp only [step, hx]
    have hcount : ∀ j, List.countP (takes j) [Ev.unref i] = if j = i then 1 else 0 := by
      intro j; simp [List.countP_cons, takes]
    have hle : ∀ j, s.log.countP (takes j) + List.countP (takes j) [Ev.unref i] ≤ s.log.countP (gives j) := by
      intro j
      have h1 := h.le j
      rw [hcount]
      simp only [Ok, owned] at hok
      split
      · subst_vars; omega
      · omega
    split
    · exact ⟨by simp, fun s' hs => by cases hs⟩
    · rename_i hd
      have hd : s.doing t = none := Classical.not_not.1 hd
      split
      · rename_i hr
        refine ⟨by simp, fun s' hs => ?_⟩
        cases hs
        exact h.less hx hr (e := [.unref i]) (by simp [gives]) hle
          (fun j => by rw [hcount]; rfl) h.uniq (fun _ hb => hb) (by simp) (by simp)
      · rename_i hr
        refine ⟨by simp, fun s' hs => ?_⟩
        cases hs
        refine h.next (t := t) (i := i) (ph := .dispose) (table := s.table) (e := [.unref i])
          (by simp [gives]) (by simp) (by simp) hle (fun j => ?_) (fun _ hj => hj) h.nodup (fun hn => absurd rfl hn)
          (fun hn => by cases hn)
        rw [hcount]
        simp only [State.work, State.becomes, List.cons_append, List.nil_append, List.countP_cons,
          rest_none (doing_none hd)]
        by_cases hj : j = i <;> simp [hj, eq_comm (a := i)]
  | remove t =>
    simp only [step]
    split
    · rename_i i hd
      have hm := doing_mem hd
      obtain ⟨x, hx⟩ := h.busy_alive hm
      simp only [hx]
      rw [if_pos h.intact]
      refine ⟨by simp, fun s' hs => ?_⟩
      cases hs
      have := h.next (t := t) (i := i) (ph := .disposed) (table := (s.forget x.key).table) (e := [])
        (by simp) (by simp) (by simp) (by simpa using h.le) (fun j => ?_) (fun j hj => (mem_forget.1 hj).1)
        (List.Nodup.sublist List.filter_sublist h.nodup) (fun _ hi => (mem_forget.1 hi).2 x hx rfl) (fun hn => by cases hn)
      · simpa [State.becomes, State.forget] using this
      · have := rest_count h.uniq hm j
        simp only [State.work, State.becomes, List.cons_append, List.nil_append, List.countP_cons, List.countP_nil,
          beq_iff_eq] at this ⊢
        omega
    · exact ⟨by simp, fun s' hs => by cases hs⟩
  | recheck t =>
    simp only [step]
    split
    · rename_i i hd
      have hm := doing_mem hd
      obtain ⟨x, hx⟩ := h.busy_alive hm
      simp only [hx]
      split
      · rename_i hr
        refine ⟨by simp, fun s' hs => ?_⟩
        cases hs
        have := h.less hx hr (busy := s.busy.filter fun b => b.1 != t) (e := [])
          (by simp) (by simpa using h.le) (fun j => ?_) (rest_uniq h.uniq t).1
          (fun b hb => (List.mem_filter.1 hb).1) (by simp) (by simp)
        · simpa [State.becomes, State.set] using this
        · have := rest_count h.uniq hm j
          simp only [State.work, List.countP_nil, eq_comm (a := i)] at this ⊢
          omega
      · rename_i hr
        refine ⟨by simp, fun s' hs => ?_⟩
        cases hs
        have hp := h.pos i x hx
        have := h.next (t := t) (i := i) (ph := .last) (table := s.table) (e := [])
          (by simp) (by simp) (by simp) (by simpa using h.le) (fun j => ?_) (fun j hj => hj) h.nodup
          (fun _ => h.gone t i _ hm (by simp)) (fun _ => ?_)
        · simpa [State.becomes] using this
        · have := rest_count h.uniq hm j
          simp only [State.work, State.becomes, List.cons_append, List.nil_append, List.countP_cons, List.countP_nil,
            beq_iff_eq] at this ⊢
          omega
        · simp only [State.refs, hx, Option.map_some, Option.getD_some]
          omega
    · exact ⟨by simp, fun s' hs => by cases hs⟩
  | drop t =>
    simp only [step]
    split
    · rename_i i hd
      have hm := doing_mem hd
      obtain ⟨x, hx⟩ := h.busy_alive hm
      have hr := h.last t i hm
      simp only [State.refs, hx, Option.map_some, Option.getD_some] at hr
      simp only [hx]
      rw [if_neg (by omega)]
      exact ⟨by simp, fun s' hs => by cases hs; exact h.free hm⟩
    · exact ⟨by simp, fun s' hs => by cases hs⟩
  | exit =>
    simp only [step]
    rw [if_pos h.intact]
    obtain ⟨s', h1, h2, _⟩ := refAll_inv h (l := s.table) fun _ hi => hi
    rw [h1]
    exact ⟨by simp, fun s'' hs => by cases hs; exact h2⟩

theorem init_inv : Inv {} :=
  ⟨by simp [State.refs, State.work], by simp, by simp, by simp, by simp, by simp, by simp, by simp, by simp, by simp,
    by simp, by simp, by simp⟩

theorem reach_inv {auto : Bytes → Protocol} {s : State} (h : ReachIf (step auto) Ok {} s) : Inv s := by
  induction h with
  | init => exact init_inv
  | @step s0 s1 l _ hok hs ih => exact (step_inv ih hok).2 _ hs

end Gb.IpcTable
