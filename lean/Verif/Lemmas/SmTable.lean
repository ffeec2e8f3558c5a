import Verif.Spec.SmTable
/-
The tables of service managers.
-/
set_option autoImplicit false

namespace Gb.SmTable

open Client (Kind)
open IpcTable (Phase)

theorem updK_same {α : Type} (f : Kind → α) (k : Kind) (v : α) : updK f k v k = v := by simp [updK]

theorem updK_ne {α : Type} (f : Kind → α) {k x : Kind} (v : α) (h : x ≠ k) : updK f k v x = f x := by simp [updK, h]

/-- What's in the table of a class. -/
def content (s : State) (k : Kind) : List (Bytes × Nat) :=
  match s.table k with
  | none => []
  | some t => (s.tabs t).getD []

/-- The tables are there, and there's one for each class. -/
structure Tables (s : State) : Prop where
  ptr : ∀ k t, s.table k = some t → ∃ l, s.tabs t = some l ∧ l ≠ []
  sep : ∀ k k' t, s.table k = some t → s.table k' = some t → k = k'
  lt : ∀ t l, s.tabs t = some l → t < s.ntabs

theorem Tables.of_eq {s s' : State} (h : Tables s) (hc : ∀ k, s'.table k = s.table k) (ht : s'.tabs = s.tabs)
    (hn : s'.ntabs = s.ntabs) : Tables s' := by
  constructor
  · intro k t; rw [hc, ht]; exact h.ptr k t
  · intro k k' t; rw [hc, hc]; exact h.sep k k' t
  · intro t l; rw [ht, hn]; exact h.lt t l

theorem content_of_eq {s s' : State} (hc : ∀ k, s'.table k = s.table k) (ht : s'.tabs = s.tabs) (k : Kind) :
    content s' k = content s k := by
  unfold content
  rw [hc, ht]

/-- The class is there, but its table isn't. -/
theorem classRef_table {s : State} {k : Kind} (h : s.cls k = none → ∀ q, parent k = some q → s.table q = none) (k' : Kind) :
    (classRef s k).table k' = s.table k' := by
  unfold classRef
  split
  · rfl
  · rename_i hn
    have hk : s.table k = none := by simp [State.table, hn]
    split
    · by_cases hkk : k' = k
      · subst hkk; simp [State.table, updK_same, hn]
      · simp [State.table, updK_ne _ _ hkk]
    · rename_i q hq
      have hqt := h hn q hq
      split
      · rename_i t ht
        have : t = none := by simpa [State.table, ht] using hqt
        subst this
        by_cases hkk : k' = k
        · subst hkk; simp [State.table, updK_same, hn]
        · simp [State.table, updK_ne _ _ hkk]
      · rename_i ht
        by_cases hkk : k' = k
        · subst hkk; simp [State.table, updK_same, hn]
        · by_cases hqq : k' = q
          · subst hqq; simp [State.table, updK_same, updK_ne _ _ hkk, ht]
          · simp [State.table, updK_ne _ _ hkk, updK_ne _ _ hqq]

theorem classRef_rest (s : State) (k : Kind) : (classRef s k).tabs = s.tabs ∧ (classRef s k).ntabs = s.ntabs ∧
    (classRef s k).sm = s.sm ∧ (classRef s k).no = s.no ∧ (classRef s k).doing = s.doing ∧ (classRef s k).log = s.log := by
  unfold classRef
  split
  · simp
  · split
    · simp
    · split <;> simp

/-- A new table. -/
theorem Tables.first {s s' : State} (h : Tables s) {k : Kind} (hk : s.table k = none) {l : List (Bytes × Nat)} (hl : l ≠ [])
    (hc : s'.cls = updK s.cls k (some (some s.ntabs))) (ht : s'.tabs = upd s.tabs s.ntabs (some l)) (hn : s'.ntabs = s.ntabs + 1) :
    Tables s' ∧ ∀ k', content s' k' = if k' = k then l else content s k' := by
  have htab : ∀ k', s'.table k' = if k' = k then some s.ntabs else s.table k' := by
    intro k'
    unfold State.table
    rw [hc]
    by_cases hkk : k' = k
    · subst hkk; simp [updK_same]
    · simp [updK_ne _ _ hkk, hkk]
  have hlt : ∀ k' t, s.table k' = some t → t ≠ s.ntabs := by
    intro k' t h1 h2
    obtain ⟨l', h3, _⟩ := h.ptr k' t h1
    have := h.lt t l' h3
    omega
  constructor
  · constructor
    · intro k' t hkt
      rw [htab] at hkt
      rw [ht]
      by_cases hkk : k' = k
      · rw [if_pos hkk] at hkt; cases hkt; exact ⟨l, upd_same _ _ _, hl⟩
      · rw [if_neg hkk] at hkt
        rw [upd_ne _ _ (hlt _ _ hkt)]
        exact h.ptr _ _ hkt
    · intro k1 k2 t h1 h2
      rw [htab] at h1 h2
      have := h.sep
      grind
    · intro t l' h1
      rw [ht] at h1
      rw [hn]
      by_cases htt : t = s.ntabs
      · omega
      · rw [upd_ne _ _ htt] at h1
        have := h.lt _ _ h1
        omega
  · intro k'
    unfold content
    rw [htab, ht]
    by_cases hkk : k' = k
    · simp [hkk, upd_same]
    · simp only [if_neg hkk]
      cases hq : s.table k' with
      | none => rfl
      | some t => simp only []; rw [upd_ne _ _ (hlt _ _ hq)]

/-- The table is changed. -/
theorem Tables.change {s s' : State} (h : Tables s) {k : Kind} {t : Nat} (hk : s.table k = some t) {l : List (Bytes × Nat)}
    (hl : l ≠ []) (hc : s'.cls = s.cls) (ht : s'.tabs = upd s.tabs t (some l)) (hn : s'.ntabs = s.ntabs) :
    Tables s' ∧ ∀ k', content s' k' = if k' = k then l else content s k' := by
  have htab : ∀ k', s'.table k' = s.table k' := by
    intro k'
    unfold State.table
    rw [hc]
  constructor
  · constructor
    · intro k' t' hkt
      rw [htab] at hkt
      rw [ht]
      by_cases htt : t' = t
      · subst htt; exact ⟨l, upd_same _ _ _, hl⟩
      · rw [upd_ne _ _ htt]
        exact h.ptr _ _ hkt
    · intro k1 k2 t' h1 h2
      rw [htab] at h1 h2
      exact h.sep _ _ _ h1 h2
    · intro t' l' h1
      rw [ht] at h1
      rw [hn]
      by_cases htt : t' = t
      · subst htt
        obtain ⟨l0, h0, _⟩ := h.ptr _ _ hk
        exact h.lt _ _ h0
      · rw [upd_ne _ _ htt] at h1
        exact h.lt _ _ h1
  · intro k'
    unfold content
    rw [htab, ht]
    by_cases hkk : k' = k
    · subst hkk; simp [hk, upd_same]
    · simp only [if_neg hkk]
      cases hq : s.table k' with
      | none => rfl
      | some t' =>
        simp only []
        rw [upd_ne]
        rintro rfl
        exact hkk (h.sep _ _ _ hq hk)

/-- The table is freed. -/
theorem Tables.free {s s' : State} (h : Tables s) {k : Kind} {t : Nat} (hk : s.table k = some t)
    (hc : s'.cls = updK s.cls k (some none)) (ht : s'.tabs = upd s.tabs t none) (hn : s'.ntabs = s.ntabs) :
    Tables s' ∧ ∀ k', content s' k' = if k' = k then [] else content s k' := by
  have htab : ∀ k', s'.table k' = if k' = k then none else s.table k' := by
    intro k'
    unfold State.table
    rw [hc]
    by_cases hkk : k' = k
    · subst hkk; simp [updK_same]
    · simp [updK_ne _ _ hkk, hkk]
  have hne : ∀ k' t', k' ≠ k → s.table k' = some t' → t' ≠ t := by
    intro k' t' h1 h2 h3
    subst h3
    exact h1 (h.sep _ _ _ h2 hk)
  constructor
  · constructor
    · intro k' t' hkt
      rw [htab] at hkt
      rw [ht]
      by_cases hkk : k' = k
      · rw [if_pos hkk] at hkt; cases hkt
      · rw [if_neg hkk] at hkt
        rw [upd_ne _ _ (hne _ _ hkk hkt)]
        exact h.ptr _ _ hkt
    · intro k1 k2 t' h1 h2
      rw [htab] at h1 h2
      have := h.sep
      grind
    · intro t' l' h1
      rw [ht] at h1
      rw [hn]
      by_cases htt : t' = t
      · subst htt; rw [upd_same] at h1; cases h1
      · rw [upd_ne _ _ htt] at h1
        exact h.lt _ _ h1
  · intro k'
    unfold content
    rw [htab, ht]
    by_cases hkk : k' = k
    · simp [hkk]
    · simp only [if_neg hkk]
      cases hq : s.table k' with
      | none => rfl
      | some t' => simp only []; rw [upd_ne _ _ (hne _ _ hkk hq)]

theorem owned_snoc (i : Nat) (log : List Ev) (e : Ev) : owned i (log ++ [e]) = ownStep i (owned i log) e := by
  simp [owned]

/-- Is it (still) in the table? -/
def Listed (s : State) (i : Nat) : Prop := ∀ t ph, s.doing t = some (i, ph) → ph = .dispose

structure Inv (s : State) : Prop where
  tables : Tables s
  lt : ∀ i x, s.sm i = some x → i < s.no
  live : ∀ i x, s.sm i = some x →
    (owned i s.log = x.refs ∧ 0 < x.refs ∧ ¬Doomed s i) ∨ (owned i s.log = 0 ∧ x.refs = 1 ∧ Doomed s i)
  dead : ∀ i, s.sm i = none → owned i s.log = 0 ∧ ¬Doomed s i
  one : ∀ t t' i ph ph', s.doing t = some (i, ph) → s.doing t' = some (i, ph') → t = t'
  entry : ∀ k d i, (d, i) ∈ content s k ↔ ∃ x, s.sm i = some x ∧ x.kind = k ∧ x.dev = d ∧ Listed s i
  keys : ∀ k d i j, (d, i) ∈ content s k → (d, j) ∈ content s k → i = j
  dev : ∀ i x, s.sm i = some x → x.dev ≠ []
  isFor : ∀ k d p i, Ev.got k d p i ∈ s.log → i < s.no ∧ ∀ x, s.sm i = some x → x.kind = k ∧ x.dev = d
  freed : ∀ i, Ev.freed i ∈ s.log ↔ i < s.no ∧ s.sm i = none
  asked : ∀ i x, s.sm i = some x → Ev.got x.kind x.dev x.protocol i ∈ s.log

theorem Inv.init : Inv {} := by
  constructor
  · constructor <;> simp [State.table]
  all_goals simp [content, State.table, owned, Doomed]

/-- The class is there. -/
theorem Inv.classRef {s : State} (h : Inv s) {k : Kind}
    (hf : s.cls k = none → ∀ q, parent k = some q → ∀ i x, s.sm i = some x → x.kind ≠ q) :
    Inv (Gb.SmTable.classRef s k) := by
  have hq : s.cls k = none → ∀ q, parent k = some q → s.table q = none := by
    intro h1 q h2
    cases hh : s.table q with
    | none => rfl
    | some t =>
      obtain ⟨l, h3, h4⟩ := h.tables.ptr _ _ hh
      obtain ⟨⟨d, i⟩, h5⟩ := List.exists_mem_of_ne_nil _ h4
      have : (d, i) ∈ content s q := by simp [content, hh, h3, h5]
      obtain ⟨x, hx, hk, _⟩ := (h.entry _ _ _).1 this
      exact absurd hk (hf h1 q h2 i x hx)
  obtain ⟨h1, h2, h3, h4, h5, h6⟩ := classRef_rest s k
  have ht := classRef_table hq
  have hD : ∀ i, Doomed (Gb.SmTable.classRef s k) i ↔ Doomed s i := by intro i; unfold Doomed; rw [h5]
  have hL : ∀ i, Listed (Gb.SmTable.classRef s k) i ↔ Listed s i := by intro i; unfold Listed; rw [h5]
  constructor
  · exact h.tables.of_eq ht h1 h2
  · rw [h3, h4]; exact h.lt
  · simp only [h3, h6, hD]; exact h.live
  · simp only [h3, h6, hD]; exact h.dead
  · rw [h5]; exact h.one
  · intro k' d i
    rw [content_of_eq ht h1, h3]
    simp only [hL]
    exact h.entry k' d i
  · intro k'
    rw [content_of_eq ht h1]
    exact h.keys k'
  · rw [h3]; exact h.dev
  · rw [h3, h4, h6]; exact h.isFor
  · rw [h3, h4, h6]; exact h.freed
  · rw [h3, h6]; exact h.asked

/-- A manager is created. -/
theorem Inv.create {s s' : State} (h : Inv s) {k : Kind} {dev : Bytes} {p : Protocol} (hd : dev ≠ [])
    (ht : Tables s') (hc : ∀ k', content s' k' = if k' = k then (dev, s.no) :: content s k else content s k')
    (hsm : s'.sm = upd s.sm s.no (some ⟨1, k, dev, p⟩)) (hno : s'.no = s.no + 1) (hdo : s'.doing = s.doing)
    (hlog : s'.log = s.log ++ [.got k dev p s.no]) (hnew : ∀ i, (dev, i) ∉ content s k) : Inv s' := by
  have fresh : s.sm s.no = none := by
    cases hh : s.sm s.no with
    | none => rfl
    | some x => exact absurd (h.lt _ _ hh) (by omega)
  have hD : ∀ i, Doomed s' i ↔ Doomed s i := by intro i; unfold Doomed; rw [hdo]
  have hL : ∀ i, Listed s' i ↔ Listed s i := by intro i; unfold Listed; rw [hdo]
  have how : ∀ i, owned i s'.log = if i = s.no then 1 else owned i s.log := by
    intro i
    rw [hlog, owned_snoc]
    simp only [ownStep]
    by_cases hi : i = s.no
    · subst hi; simp [(h.dead _ fresh).1]
    · have hi' : s.no ≠ i := fun h => hi h.symm
      simp [hi, hi']
  have hnD : ¬Doomed s s.no := (h.dead _ fresh).2
  have hnL : Listed s s.no := by
    intro t ph ht
    exact absurd ⟨t, ph, ht⟩ hnD
  have hs' : ∀ i, s'.sm i = if i = s.no then some ⟨1, k, dev, p⟩ else s.sm i := by
    intro i; rw [hsm]; unfold upd; rfl
  constructor
  · exact ht
  · intro i x hx
    rw [hs'] at hx
    rw [hno]
    split at hx
    · omega
    · have := h.lt _ _ hx; omega
  · intro i x hx
    rw [hs'] at hx
    rw [how, hD]
    split at hx
    · rename_i hi
      cases hx
      subst hi
      simp [hnD]
    · rename_i hi
      rw [if_neg hi]
      exact h.live _ _ hx
  · intro i hx
    rw [hs'] at hx
    rw [how, hD]
    split at hx
    · cases hx
    · rename_i hi
      rw [if_neg hi]
      exact h.dead _ hx
  · rw [hdo]; exact h.one
  · intro k' d i
    rw [hc, hs', hL]
    have := h.entry k' d i
    by_cases hi : i = s.no
    · subst hi
      have hno : ∀ k', (d, s.no) ∉ content s k' := by
        intro k' hm
        obtain ⟨x, hx, _⟩ := (h.entry _ _ _).1 hm
        rw [fresh] at hx
        cases hx
      simp only [if_true]
      by_cases hkk : k' = k
      · subst hkk
        simp only [if_true, List.mem_cons, hno, or_false, Prod.mk.injEq, and_true]
        constructor
        · rintro rfl; exact ⟨_, rfl, rfl, rfl, hnL⟩
        · rintro ⟨x, h1, _, h3, _⟩; cases h1; exact h3.symm
      · rw [if_neg hkk]
        constructor
        · intro h; exact absurd h (hno _)
        · rintro ⟨x, h1, h2, _⟩; cases h1; exact absurd h2.symm hkk
    · simp only [if_neg hi]
      rw [← this]
      by_cases hkk : k' = k
      · subst hkk; simp [hi]
      · rw [if_neg hkk]
  · intro k' d i j
    rw [hc]
    have := h.keys k' d i j
    split
    · rename_i hkk
      subst hkk
      simp only [List.mem_cons, Prod.mk.injEq]
      rintro (⟨rfl, rfl⟩ | h1) (⟨h3, h4⟩ | h2)
      · exact h4.symm
      · exact absurd h2 (hnew j)
      · subst h3; exact absurd h1 (hnew i)
      · exact this h1 h2
    · exact this
  · intro i x hx
    rw [hs'] at hx
    split at hx
    · cases hx; exact hd
    · exact h.dev _ _ hx
  · intro k' d q i hm
    rw [hlog] at hm
    rw [hno, hs']
    rcases List.mem_append.1 hm with hm | hm
    · obtain ⟨h1, h2⟩ := h.isFor _ _ _ _ hm
      have : i ≠ s.no := by omega
      refine ⟨by omega, ?_⟩
      rw [if_neg this]
      exact h2
    · simp at hm
      obtain ⟨rfl, rfl, rfl, rfl⟩ := hm
      refine ⟨by omega, ?_⟩
      intro x hx
      simp at hx
      subst hx
      exact ⟨rfl, rfl⟩
  · intro i
    rw [hlog, hno, hs', List.mem_append]
    have := h.freed i
    by_cases hi : i = s.no
    · subst hi
      simp only [List.mem_singleton, reduceCtorEq, or_false, if_true, and_false, iff_false]
      rw [this]
      intro hh
      omega
    · simp only [List.mem_singleton, reduceCtorEq, or_false, if_neg hi]
      rw [this]
      constructor
      · rintro ⟨h1, h2⟩; exact ⟨by omega, h2⟩
      · rintro ⟨h1, h2⟩; exact ⟨by omega, h2⟩
  · intro i x hx
    rw [hs'] at hx
    rw [hlog]
    split at hx
    · rename_i hi; cases hx; subst hi; simp
    · exact List.mem_append_left _ (h.asked _ _ hx)

/-- One more reference, or one less. -/
theorem Inv.count {s s' : State} (h : Inv s) {i : Nat} {x : Sm} (hx : s.sm i = some x) {n : Nat} (hn : 0 < n) {e : Ev}
    (hnd : ¬Doomed s i) (hcls : s'.cls = s.cls) (htabs : s'.tabs = s.tabs) (hnt : s'.ntabs = s.ntabs)
    (hsm : s'.sm = upd s.sm i (some { x with refs := n })) (hno : s'.no = s.no) (hdo : s'.doing = s.doing)
    (hlog : s'.log = s.log ++ [e]) (ho : owned i s'.log = n) (ho' : ∀ j, j ≠ i → owned j s'.log = owned j s.log)
    (hf : ∀ j, e ≠ .freed j)
    (hg : ∀ k d p j, e = .got k d p j → j = i ∧ x.kind = k ∧ x.dev = d) : Inv s' := by
  have hD : ∀ i, Doomed s' i ↔ Doomed s i := by intro i; unfold Doomed; rw [hdo]
  have hL : ∀ i, Listed s' i ↔ Listed s i := by intro i; unfold Listed; rw [hdo]
  have htab : ∀ k, s'.table k = s.table k := by intro k; unfold State.table; rw [hcls]
  have hs' : ∀ j, s'.sm j = if j = i then some { x with refs := n } else s.sm j := by
    intro i; rw [hsm]; unfold upd; rfl
  constructor
  · exact h.tables.of_eq htab htabs hnt
  · intro j y hy
    rw [hs'] at hy
    rw [hno]
    split at hy
    · rename_i hj; rw [hj]; exact h.lt _ _ hx
    · exact h.lt _ _ hy
  · intro j y hy
    rw [hs'] at hy
    rw [hD]
    split at hy
    · rename_i hj
      cases hy
      subst hj
      exact .inl ⟨ho, hn, hnd⟩
    · rename_i hj
      rw [ho' _ hj]
      exact h.live _ _ hy
  · intro j hy
    rw [hs'] at hy
    rw [hD]
    split at hy
    · cases hy
    · rename_i hj
      rw [ho' _ hj]
      exact h.dead _ hy
  · rw [hdo]; exact h.one
  · intro k' d j
    rw [content_of_eq htab htabs, h.entry, hs', hL]
    by_cases hj : j = i
    · subst hj
      simp [hx]
    · rw [if_neg hj]
  · intro k'
    rw [content_of_eq htab htabs]
    exact h.keys k'
  · intro j y hy
    rw [hs'] at hy
    split at hy
    · cases hy; exact h.dev i x hx
    · exact h.dev _ _ hy
  · intro k' d q j hm
    rw [hlog] at hm
    rw [hno, hs']
    rcases List.mem_append.1 hm with hm | hm
    · obtain ⟨h1, h2⟩ := h.isFor _ _ _ _ hm
      refine ⟨h1, ?_⟩
      intro y hy
      split at hy
      · rename_i hj
        subst hj
        cases hy
        exact h2 x hx
      · exact h2 _ hy
    · obtain ⟨rfl, h1, h2⟩ := hg k' d q j (by simpa using (List.mem_singleton.1 hm).symm)
      refine ⟨h.lt _ _ hx, ?_⟩
      intro y hy
      simp at hy
      subst hy
      exact ⟨h1, h2⟩
  · intro j
    rw [hlog, hno, hs', List.mem_append, h.freed]
    have : ¬Ev.freed j ∈ [e] := by
      intro hm
      exact hf j (List.mem_singleton.1 hm).symm
    by_cases hj : j = i
    · subst hj
      simp [this, hx]
    · simp [this, hj]
  · intro j y hy
    rw [hs'] at hy
    rw [hlog]
    split at hy
    · rename_i hj; cases hy; subst hj; exact List.mem_append_left _ (h.asked _ x hx)
    · exact List.mem_append_left _ (h.asked _ _ hy)

/-- The last reference is dropped. -/
theorem Inv.last {s : State} (h : Inv s) {i t : Nat} {x : Sm} (hx : s.sm i = some x) (hd : s.doing t = none)
    (ho : 0 < owned i s.log) (hr : ¬x.refs > 1) : Inv ((s.becomes t (some (i, .dispose))).see (.unref i)) := by
  have hlive : owned i s.log = x.refs ∧ 0 < x.refs ∧ ¬Doomed s i := by
    rcases h.live i x hx with h1 | h1
    · exact h1
    · omega
  have hdo : ∀ t', ((s.becomes t (some (i, .dispose))).see (.unref i)).doing t' = if t' = t then some (i, .dispose) else s.doing t' := by
    intro t'; rfl
  have hDi : Doomed ((s.becomes t (some (i, .dispose))).see (.unref i)) i := ⟨t, .dispose, by rw [hdo, if_pos rfl]⟩
  have hD : ∀ j, j ≠ i → (Doomed ((s.becomes t (some (i, .dispose))).see (.unref i)) j ↔ Doomed s j) := by
    intro j hj
    constructor
    · rintro ⟨t', ph, h1⟩
      rw [hdo] at h1
      split at h1
      · cases h1; exact absurd rfl hj
      · exact ⟨t', ph, h1⟩
    · rintro ⟨t', ph, h1⟩
      refine ⟨t', ph, ?_⟩
      rw [hdo, if_neg]
      · exact h1
      · rintro rfl; rw [hd] at h1; cases h1
  have hL : ∀ j, Listed ((s.becomes t (some (i, .dispose))).see (.unref i)) j ↔ Listed s j := by
    intro j
    constructor
    · intro h1 t' ph h2
      refine h1 t' ph ?_
      rw [hdo, if_neg]
      · exact h2
      · rintro rfl; rw [hd] at h2; cases h2
    · intro h1 t' ph h2
      rw [hdo] at h2
      split at h2
      · cases h2; rfl
      · exact h1 t' ph h2
  have how : ∀ j, owned j ((s.becomes t (some (i, .dispose))).see (.unref i)).log = if j = i then 0 else owned j s.log := by
    intro j
    rw [show ((s.becomes t (some (i, .dispose))).see (.unref i)).log = s.log ++ [.unref i] from rfl, owned_snoc]
    simp only [ownStep]
    by_cases hj : j = i
    · subst hj; simp; omega
    · have hj' : i ≠ j := fun h => hj h.symm
      simp [hj, hj']
  constructor
  · exact h.tables.of_eq (fun _ => rfl) rfl rfl
  · exact h.lt
  · intro j y hy
    rw [how]
    by_cases hj : j = i
    · subst hj
      have : x = y := Option.some.inj (hx.symm.trans hy)
      subst this
      exact .inr ⟨if_pos rfl, by omega, hDi⟩
    · rw [if_neg hj, hD j hj]
      exact h.live j y hy
  · intro j hy
    have hj : j ≠ i := by rintro rfl; rw [show s.sm j = none from hy] at hx; cases hx
    rw [how, if_neg hj, hD j hj]
    exact h.dead j hy
  · intro t1 t2 j ph ph' h1 h2
    rw [hdo] at h1 h2
    split at h1 <;> split at h2
    · rename_i e1 e2; rw [e1, e2]
    · cases h1; exact absurd ⟨_, _, h2⟩ hlive.2.2
    · cases h2; exact absurd ⟨_, _, h1⟩ hlive.2.2
    · exact h.one _ _ _ _ _ h1 h2
  · intro k d j
    rw [hL]
    exact h.entry k d j
  · exact h.keys
  · exact h.dev
  · intro k d p j hm
    exact h.isFor k d p j (by simpa [State.see, State.becomes] using hm)
  · intro j
    have := h.freed j
    simpa [State.see, State.becomes] using this
  · intro j y hy; exact List.mem_append_left _ (h.asked _ _ hy)

/-- The thread which drops the last reference goes on. -/
theorem Inv.goes {s s' : State} (h : Inv s) {i t : Nat} {x : Sm} {ph ph' : Phase} (hx : s.sm i = some x)
    (hd : s.doing t = some (i, ph)) (hph : ph' ≠ .dispose) (ht : Tables s')
    (hc : ∀ k d j, (d, j) ∈ content s' k ↔ (d, j) ∈ content s k ∧ j ≠ i)
    (hsm : s'.sm = s.sm) (hno : s'.no = s.no) (hdo : s'.doing = upd s.doing t (some (i, ph')))
    (hlog : s'.log = s.log) : Inv s' := by
  have hdo : ∀ t', s'.doing t' = if t' = t then some (i, ph') else s.doing t' := by
    intro t'; rw [hdo]; rfl
  have hD : ∀ j, Doomed s' j ↔ Doomed s j := by
    intro j
    constructor
    · rintro ⟨t', p, h1⟩
      rw [hdo] at h1
      split at h1
      · cases h1; exact ⟨_, _, hd⟩
      · exact ⟨t', p, h1⟩
    · rintro ⟨t', p, h1⟩
      by_cases htt : t' = t
      · subst htt
        rw [hd] at h1
        cases h1
        exact ⟨t', ph', by rw [hdo, if_pos rfl]⟩
      · exact ⟨t', p, by rw [hdo, if_neg htt]; exact h1⟩
  have hL : ∀ j, j ≠ i → (Listed s' j ↔ Listed s j) := by
    intro j hj
    constructor
    · intro h1 t' p h2
      refine h1 t' p ?_
      rw [hdo, if_neg]
      · exact h2
      · rintro rfl; rw [hd] at h2; cases h2; exact hj rfl
    · intro h1 t' p h2
      rw [hdo] at h2
      split at h2
      · cases h2; exact absurd rfl hj
      · exact h1 t' p h2
  have hLi : ¬Listed s' i := by
    intro h1
    exact hph (h1 t ph' (by rw [hdo, if_pos rfl]))
  constructor
  · exact ht
  · rw [hsm, hno]; exact h.lt
  · simp only [hsm, hlog, hD]; exact h.live
  · simp only [hsm, hlog, hD]; exact h.dead
  · intro t1 t2 j p p' h1 h2
    rw [hdo] at h1 h2
    have := h.one
    split at h1 <;> split at h2
    · rename_i e1 e2; rw [e1, e2]
    · rename_i e1 e2; cases h1; rw [e1]; exact h.one _ _ _ _ _ hd h2
    · rename_i e1 e2; cases h2; rw [e2]; exact h.one _ _ _ _ _ h1 hd
    · exact h.one _ _ _ _ _ h1 h2
  · intro k d j
    rw [hc, h.entry, hsm]
    by_cases hj : j = i
    · subst hj
      simp [hLi]
    · rw [hL j hj]
      simp [hj]
  · intro k d a b h1 h2
    exact h.keys k d a b ((hc _ _ _).1 h1).1 ((hc _ _ _).1 h2).1
  · rw [hsm]; exact h.dev
  · rw [hlog, hno, hsm]; exact h.isFor
  · rw [hlog, hno, hsm]; exact h.freed
  · rw [hlog, hsm]; exact h.asked

/-- It's freed. -/
theorem Inv.free {s : State} (h : Inv s) {i t : Nat} {x : Sm} {ph : Phase} (hx : s.sm i = some x)
    (hd : s.doing t = some (i, ph)) (hph : ph ≠ .dispose) :
    Inv (((s.set i none).becomes t none).see (.freed i)) := by
  have hno : owned i s.log = 0 := by
    rcases h.live i x hx with h1 | h1
    · exact absurd ⟨_, _, hd⟩ h1.2.2
    · exact h1.1
  have hdo : ∀ t', (((s.set i none).becomes t none).see (.freed i)).doing t' = if t' = t then none else s.doing t' := by
    intro t'; rfl
  have hs' : ∀ j, (((s.set i none).becomes t none).see (.freed i)).sm j = if j = i then none else s.sm j := by
    intro t'; rfl
  have hDi : ¬Doomed (((s.set i none).becomes t none).see (.freed i)) i := by
    rintro ⟨t', p, h1⟩
    rw [hdo] at h1
    split at h1
    · cases h1
    · rename_i hne; exact hne (h.one _ _ _ _ _ h1 hd)
  have hD : ∀ j, j ≠ i → (Doomed (((s.set i none).becomes t none).see (.freed i)) j ↔ Doomed s j) := by
    intro j hj
    constructor
    · rintro ⟨t', p, h1⟩
      rw [hdo] at h1
      split at h1
      · cases h1
      · exact ⟨t', p, h1⟩
    · rintro ⟨t', p, h1⟩
      refine ⟨t', p, ?_⟩
      rw [hdo, if_neg]
      · exact h1
      · rintro rfl; rw [hd] at h1; cases h1; exact hj rfl
  have hL : ∀ j, j ≠ i → (Listed (((s.set i none).becomes t none).see (.freed i)) j ↔ Listed s j) := by
    intro j hj
    constructor
    · intro h1 t' p h2
      refine h1 t' p ?_
      rw [hdo, if_neg]
      · exact h2
      · rintro rfl; rw [hd] at h2; cases h2; exact hj rfl
    · intro h1 t' p h2
      rw [hdo] at h2
      split at h2
      · cases h2
      · exact h1 t' p h2
  have hLi : ¬Listed s i := fun h1 => hph (h1 t ph hd)
  have how : ∀ j, owned j (((s.set i none).becomes t none).see (.freed i)).log = owned j s.log := by
    intro j
    rw [show (((s.set i none).becomes t none).see (.freed i)).log = s.log ++ [.freed i] from rfl, owned_snoc]
    rfl
  have hc : ∀ k, content (((s.set i none).becomes t none).see (.freed i)) k = content s k := fun _ => rfl
  constructor
  · exact h.tables.of_eq (fun _ => rfl) rfl rfl
  · intro j y hy
    rw [hs'] at hy
    split at hy
    · cases hy
    · exact h.lt _ _ hy
  · intro j y hy
    rw [hs'] at hy
    split at hy
    · cases hy
    · rename_i hj
      rw [how, hD j hj]
      exact h.live _ _ hy
  · intro j hy
    rw [hs'] at hy
    rw [how]
    by_cases hj : j = i
    · subst hj; exact ⟨hno, hDi⟩
    · rw [if_neg hj] at hy
      rw [hD j hj]
      exact h.dead j hy
  · intro t1 t2 j p p' h1 h2
    rw [hdo] at h1 h2
    split at h1
    · cases h1
    · split at h2
      · cases h2
      · exact h.one _ _ _ _ _ h1 h2
  · intro k d j
    rw [hc, h.entry, hs']
    by_cases hj : j = i
    · subst hj
      simp [hLi]
    · rw [hL j hj, if_neg hj]
  · exact h.keys
  · intro j y hy
    rw [hs'] at hy
    split at hy
    · cases hy
    · exact h.dev _ _ hy
  · intro k d p j hm
    rw [hs']
    obtain ⟨h1, h2⟩ := h.isFor k d p j (by simpa [State.see, State.becomes, State.set] using hm)
    refine ⟨h1, ?_⟩
    intro y hy
    split at hy
    · cases hy
    · exact h2 y hy
  · intro j
    have := h.freed j
    rw [hs']
    rw [show (((s.set i none).becomes t none).see (.freed i)).log = s.log ++ [.freed i] from rfl, List.mem_append, this]
    by_cases hj : j = i
    · subst hj
      simpa [State.see, State.becomes, State.set] using h.lt _ _ hx
    · simpa [State.see, State.becomes, State.set, hj] using fun e => absurd e hj
  · intro j y hy
    rw [hs'] at hy
    split at hy
    · cases hy
    · exact List.mem_append_left _ (h.asked _ _ hy)

theorem find_none {l : List (Bytes × Nat)} {dev : Bytes} (h : l.find? (fun e => e.1 == dev) = none) (i : Nat) : (dev, i) ∉ l := by
  intro hm
  have := List.find?_eq_none.1 h _ hm
  simp at this

theorem find_some {l : List (Bytes × Nat)} {dev : Bytes} {e : Bytes × Nat} (h : l.find? (fun e => e.1 == dev) = some e) :
    (dev, e.2) ∈ l := by
  have h1 := List.mem_of_find?_eq_some h
  have h2 := List.find?_some h
  have h3 : e.1 = dev := by simpa using h2
  rw [← h3]
  exact h1

theorem device_eq {dev : Bytes} (h : dev ≠ []) : IpcTable.device (some dev) = dev := by
  unfold IpcTable.device
  cases dev with
  | nil => exact absurd rfl h
  | cons a l => simp

/-- What's done under the lock by gbinder_servicemanager_new. -/
theorem Inv.lookup {s : State} (h : Inv s) {k : Kind} {dev : Bytes} (hd : dev ≠ []) (p : Protocol)
    (hcalm : ∀ i x, Doomed s i → s.sm i = some x → ¬(x.kind = k ∧ x.dev = dev)) :
    ∃ s' i, Gb.SmTable.lookup s k dev p = .ok s' ∧ Inv s' ∧ s'.log = s.log ++ [.got k dev p i] ∧
      ((∃ x, s.sm i = some x ∧ x.kind = k ∧ x.dev = dev ∧ 0 < owned i s.log ∧ s'.sm i = some { x with refs := x.refs + 1 }) ∨
       (i = s.no ∧ (∀ j x, s.sm j = some x → ¬(x.kind = k ∧ x.dev = dev)) ∧ s'.sm i = some ⟨1, k, dev, p⟩)) := by
  have hno : ∀ k d i, (d, i) ∈ content s k → i ≠ s.no := by
    intro k d i hm e
    obtain ⟨x, hx, _⟩ := (h.entry _ _ _).1 hm
    have := h.lt _ _ hx
    omega
  have hnone : (∀ i, (dev, i) ∉ content s k) → ∀ j x, s.sm j = some x → ¬(x.kind = k ∧ x.dev = dev) := by
    intro hn j x hx hkd
    refine hn j ((h.entry _ _ _).2 ⟨x, hx, hkd.1, hkd.2, ?_⟩)
    intro t ph ht
    exact absurd hkd (hcalm j x ⟨t, ph, ht⟩ hx)
  unfold Gb.SmTable.lookup
  cases hk : s.table k with
  | none =>
    have hcn : content s k = [] := by simp [content, hk]
    obtain ⟨h1, h2⟩ := h.tables.first (s' := Gb.SmTable.create (({ s with ntabs := s.ntabs + 1 } : State).setCls k (some s.ntabs)) k dev p s.ntabs [])
      hk (l := [(dev, s.no)]) (by simp) rfl rfl rfl
    refine ⟨_, s.no, rfl, ?_, rfl, .inr ⟨rfl, hnone (by simp [hcn]), ?_⟩⟩
    · refine h.create (k := k) (dev := dev) (p := p) hd h1 ?_ ?_ rfl rfl rfl (by simp [hcn])
      · rw [hcn]; exact h2
      · simp only [Gb.SmTable.create, State.set, State.setTab, State.see, State.setCls, device_eq hd]
    · simp only [Gb.SmTable.create, State.set, State.setTab, State.see, State.setCls, device_eq hd, upd_same]
  | some t =>
    obtain ⟨l, hl, hl0⟩ := h.tables.ptr _ _ hk
    have hcn : content s k = l := by simp [content, hk, hl]
    simp only [hl]
    cases hf : l.find? (fun e => e.1 == dev) with
    | none =>
      obtain ⟨h1, h2⟩ := h.tables.change (s' := Gb.SmTable.create s k dev p t l) hk (l := (dev, s.no) :: l) (by simp) rfl rfl rfl
      have hnew : ∀ i, (dev, i) ∉ content s k := by rw [hcn]; exact find_none hf
      refine ⟨_, s.no, rfl, ?_, rfl, .inr ⟨rfl, hnone hnew, ?_⟩⟩
      · refine h.create (k := k) (dev := dev) (p := p) hd h1 ?_ ?_ rfl rfl rfl hnew
        · rw [hcn]; exact h2
        · simp only [Gb.SmTable.create, State.set, State.setTab, State.see, device_eq hd]
      · simp only [Gb.SmTable.create, State.set, State.setTab, State.see, device_eq hd, upd_same]
    | some e =>
      have hm : (dev, e.2) ∈ content s k := by rw [hcn]; exact find_some hf
      obtain ⟨x, hx, hxk, hxd, _⟩ := (h.entry _ _ _).1 hm
      have hnd : ¬Doomed s e.2 := fun hD => hcalm _ _ hD hx ⟨hxk, hxd⟩
      have hlive : owned e.2 s.log = x.refs ∧ 0 < x.refs := by
        rcases h.live _ _ hx with h1 | h1
        · exact ⟨h1.1, h1.2.1⟩
        · exact absurd h1.2.2 hnd
      simp only [hx]
      refine ⟨_, e.2, rfl, ?_, rfl, .inl ⟨x, hx, hxk, hxd, by omega, ?_⟩⟩
      · refine h.count hx (n := x.refs + 1) (e := .got k dev p e.2) (by omega) hnd rfl rfl rfl rfl rfl rfl rfl ?_ ?_ ?_ ?_
        · rw [show ((s.set e.2 (some { x with refs := x.refs + 1 })).see (.got k dev p e.2)).log = s.log ++ [.got k dev p e.2] from rfl,
            owned_snoc]
          simp [ownStep]
          omega
        · intro j hj
          rw [show ((s.set e.2 (some { x with refs := x.refs + 1 })).see (.got k dev p e.2)).log = s.log ++ [.got k dev p e.2] from rfl,
            owned_snoc]
          have hj' : e.2 ≠ j := fun h => hj h.symm
          simp [ownStep, hj']
        · intro j; simp
        · intro k' d q j he
          cases he
          exact ⟨rfl, hxk, hxd⟩
      · simp only [State.set, State.see, upd_same]

theorem Inv.alone {s : State} (h : Inv s) {i t : Nat} {x : Sm} {ph : Phase} (hx : s.sm i = some x) (hd : s.doing t = some (i, ph)) :
    x.refs = 1 := by
  rcases h.live i x hx with h1 | h1
  · exact absurd ⟨_, _, hd⟩ h1.2.2
  · exact h1.2.1

theorem Inv.there {s : State} (h : Inv s) {i t : Nat} {ph : Phase} (hd : s.doing t = some (i, ph)) : ∃ x, s.sm i = some x := by
  cases hx : s.sm i with
  | none => exact absurd ⟨_, _, hd⟩ (h.dead i hx).2
  | some x => exact ⟨x, rfl⟩

theorem Inv.owner {s : State} (h : Inv s) {i : Nat} (ho : 0 < owned i s.log) :
    ∃ x, s.sm i = some x ∧ owned i s.log = x.refs ∧ ¬Doomed s i := by
  cases hx : s.sm i with
  | none => have := (h.dead i hx).1; omega
  | some x =>
    rcases h.live i x hx with h1 | h1
    · exact ⟨x, rfl, h1.1, h1.2.2⟩
    · omega

/-- What's done under the lock by dispose. -/
theorem Inv.forget {s : State} (h : Inv s) {i t : Nat} {x : Sm} (hx : s.sm i = some x) (hd : s.doing t = some (i, .dispose)) :
    ∃ s', Gb.SmTable.forget s x = .ok s' ∧ Inv (s'.becomes t (some (i, .disposed))) := by
  have hr := h.alone hx hd
  have hLi : Listed s i := by
    intro t' ph h1
    have := h.one _ _ _ _ _ h1 hd
    subst this
    rw [hd] at h1
    cases h1
    rfl
  have hm : (x.dev, i) ∈ content s x.kind := (h.entry _ _ _).2 ⟨x, hx, rfl, rfl, hLi⟩
  have hother : ∀ k d, k ≠ x.kind → (d, i) ∉ content s k := by
    intro k d hk hm
    obtain ⟨y, hy, hyk, _⟩ := (h.entry _ _ _).1 hm
    rw [hx] at hy
    cases hy
    exact hk hyk.symm
  have hfil : ∀ d j, (d, j) ∈ (content s x.kind).filter (fun e => !(e.1 == x.dev)) ↔ (d, j) ∈ content s x.kind ∧ j ≠ i := by
    intro d j
    simp only [List.mem_filter, Bool.not_eq_true', beq_eq_false_iff_ne]
    constructor
    · rintro ⟨h1, h2⟩
      refine ⟨h1, ?_⟩
      rintro rfl
      obtain ⟨y, hy, _, hyd, _⟩ := (h.entry _ _ _).1 h1
      rw [hx] at hy
      cases hy
      exact h2 hyd.symm
    · rintro ⟨h1, h2⟩
      refine ⟨h1, ?_⟩
      intro (h3 : d = x.dev)
      subst h3
      exact h2 (h.keys _ _ _ _ h1 hm)
  have hall : ∀ s' : State, (∀ k, content s' k = if k = x.kind then (content s x.kind).filter (fun e => !(e.1 == x.dev)) else content s k) →
      ∀ k d j, (d, j) ∈ content s' k ↔ (d, j) ∈ content s k ∧ j ≠ i := by
    intro s' hc k d j
    rw [hc]
    by_cases hk : k = x.kind
    · rw [if_pos hk, hfil, hk]
    · rw [if_neg hk]
      constructor
      · intro h1
        refine ⟨h1, ?_⟩
        rintro rfl
        exact hother k d hk h1
      · exact fun h1 => h1.1
  unfold Gb.SmTable.forget
  cases hk : s.table x.kind with
  | none => simp [content, hk] at hm
  | some tb =>
    obtain ⟨l, hl, hl0⟩ := h.tables.ptr _ _ hk
    have hcn : content s x.kind = l := by simp [content, hk, hl]
    simp only [hl]
    rw [if_pos (by omega)]
    rw [hcn] at hall
    split
    · rename_i he
      refine ⟨_, rfl, ?_⟩
      obtain ⟨h1, h2⟩ := h.tables.free (s' := ((s.setTab tb none).setCls x.kind none).becomes t (some (i, .disposed))) hk rfl rfl rfl
      refine h.goes (ph' := .disposed) hx hd (by simp) h1 (hall _ ?_) rfl rfl rfl rfl
      intro k
      rw [h2, he]
    · rename_i he
      refine ⟨_, rfl, ?_⟩
      obtain ⟨h1, h2⟩ := h.tables.change (s' := (s.setTab tb (some (l.filter fun e => !(e.1 == x.dev)))).becomes t (some (i, .disposed)))
        hk (l := l.filter fun e => !(e.1 == x.dev)) he rfl rfl rfl
      exact h.goes (ph' := .disposed) hx hd (by simp) h1 (hall _ h2) rfl rfl rfl rfl

/-- Nothing happens, as far as references are concerned. -/
theorem Inv.failed {s : State} (h : Inv s) (k : Kind) (d : Bytes) (p : Protocol) : Inv (s.see (.failed k d p)) := by
  have how : ∀ i, owned i (s.see (.failed k d p)).log = owned i s.log := by
    intro i
    rw [show (s.see (.failed k d p)).log = s.log ++ [.failed k d p] from rfl, owned_snoc]
    rfl
  constructor
  · exact h.tables.of_eq (fun _ => rfl) rfl rfl
  · exact h.lt
  · intro i x hx; rw [how]; exact h.live i x hx
  · intro i hx; rw [how]; exact h.dead i hx
  · exact h.one
  · exact h.entry
  · exact h.keys
  · exact h.dev
  · intro k' d' p' i hm
    exact h.isFor k' d' p' i (by simpa [State.see] using hm)
  · intro i
    have := h.freed i
    simpa [State.see] using this
  · intro j y hy; exact List.mem_append_left _ (h.asked _ _ hy)

theorem step_inv {auto : Bytes → Protocol} {s : State} (h : Inv s) {l : Label} (hok : Good s l) :
    step auto s l ≠ .ub ∧ ∀ s', step auto s l = .ok s' → Inv s' := by
  cases l with
  | new k dev name opens =>
    obtain ⟨hd, hcalm, hfirst⟩ := hok.2 k dev name opens rfl
    have h1 := h.classRef hfirst
    simp only [step]
    split
    · obtain ⟨_, _, c3, _, c5, _⟩ := classRef_rest s k
      obtain ⟨s', i, hs, hi, _⟩ := h1.lookup hd (IpcTable.protocol auto (IpcTable.device (some dev)) name)
        (by rw [c3]; unfold Doomed; rw [c5]; exact hcalm)
      rw [hs]
      exact ⟨by simp, fun s'' e => by cases e; exact hi⟩
    · exact ⟨by simp, fun s'' e => by cases e; exact h1.failed _ _ _⟩
  | ref i =>
    obtain ⟨x, hx, ho, hnd⟩ := h.owner hok.1
    simp only [step, hx]
    refine ⟨by simp, fun s' e => ?_⟩
    cases e
    refine h.count hx (n := x.refs + 1) (e := .ref i) (by omega) hnd rfl rfl rfl rfl rfl rfl rfl ?_ ?_ (by intro j; simp) (by intro _ _ _ _ e; cases e)
    · rw [show ((s.set i (some { x with refs := x.refs + 1 })).see (.ref i)).log = s.log ++ [.ref i] from rfl, owned_snoc]
      simp [ownStep]
      omega
    · intro j hj
      rw [show ((s.set i (some { x with refs := x.refs + 1 })).see (.ref i)).log = s.log ++ [.ref i] from rfl, owned_snoc]
      have hj' : i ≠ j := fun h => hj h.symm
      simp [ownStep, hj']
  | unref t i =>
    obtain ⟨x, hx, ho, hnd⟩ := h.owner hok.1
    simp only [step, hx]
    split
    · exact ⟨by simp, fun s' e => by cases e⟩
    · rename_i hd
      split
      · rename_i hr
        refine ⟨by simp, fun s' e => ?_⟩
        cases e
        refine h.count hx (n := x.refs - 1) (e := .unref i) (by omega) hnd rfl rfl rfl rfl rfl rfl rfl ?_ ?_ (by intro j; simp) (by intro _ _ _ _ e; cases e)
        · rw [show ((s.set i (some { x with refs := x.refs - 1 })).see (.unref i)).log = s.log ++ [.unref i] from rfl, owned_snoc]
          simp [ownStep]
          omega
        · intro j hj
          rw [show ((s.set i (some { x with refs := x.refs - 1 })).see (.unref i)).log = s.log ++ [.unref i] from rfl, owned_snoc]
          have hj' : i ≠ j := fun h => hj h.symm
          simp [ownStep, hj']
      · rename_i hr
        refine ⟨by simp, fun s' e => ?_⟩
        cases e
        exact h.last hx (by simpa using hd) hok.1 hr
  | remove t =>
    simp only [step]
    split
    · rename_i i hd
      obtain ⟨x, hx⟩ := h.there hd
      obtain ⟨s', h1, h2⟩ := h.forget hx hd
      simp only [hx, h1, Out.andThen]
      exact ⟨by simp, fun s'' e => by cases e; exact h2⟩
    · exact ⟨by simp, fun s' e => by cases e⟩
  | recheck t =>
    simp only [step]
    split
    · rename_i i hd
      obtain ⟨x, hx⟩ := h.there hd
      have hr := h.alone hx hd
      simp only [hx]
      rw [if_neg (by omega)]
      refine ⟨by simp, fun s' e => ?_⟩
      cases e
      refine h.goes (ph' := .last) hx hd (by simp) (h.tables.of_eq (fun _ => rfl) rfl rfl) ?_ rfl rfl rfl rfl
      intro k d j
      refine ⟨fun h1 => ⟨h1, ?_⟩, fun h1 => h1.1⟩
      rintro rfl
      obtain ⟨_, _, _, _, hL⟩ := (h.entry _ _ _).1 (show (d, j) ∈ content s k from h1)
      have := hL _ _ hd
      cases this
    · exact ⟨by simp, fun s' e => by cases e⟩
  | drop t =>
    simp only [step]
    split
    · rename_i i hd
      obtain ⟨x, hx⟩ := h.there hd
      have hr := h.alone hx hd
      simp only [hx]
      rw [if_neg (by omega)]
      refine ⟨by simp, fun s' e => ?_⟩
      cases e
      exact h.free hx hd (by simp)
    · exact ⟨by simp, fun s' e => by cases e⟩

theorem reach_inv {auto : Bytes → Protocol} {s : State} (h : ReachIf (step auto) Good {} s) : Inv s := by
  induction h with
  | init => exact Inv.init
  | step l _ hok hs ih => exact (step_inv ih hok).2 _ hs

end Gb.SmTable
