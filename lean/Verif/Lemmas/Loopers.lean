import Verif.Spec.Loopers
/-
The invariant of the looper lists.
-/
set_option autoImplicit false

namespace Gb.Loopers

theorem chain_upd {next : Nat → Option Nat} {x : Nat} {v : Option Nat} {l : List Nat} (hx : x ∉ l)
    {h : Option Nat} : Chain (upd next x v) h l ↔ Chain next h l := by
  induction l generalizing h with
  | nil => exact Iff.rfl
  | cons y l ih =>
    simp only [List.mem_cons, not_or] at hx
    simp only [Chain, upd_ne _ _ (Ne.symm hx.1), ih hx.2]

theorem chain_congr {next next' : Nat → Option Nat} {l : List Nat}
    (he : ∀ x ∈ l, next' x = next x) {h : Option Nat} (hc : Chain next h l) : Chain next' h l := by
  induction l generalizing h with
  | nil => exact hc
  | cons y l ih =>
    refine ⟨hc.1, ?_⟩
    rw [he y (by simp)]
    exact ih (fun x hx => he x (List.mem_cons_of_mem _ hx)) hc.2

theorem walk_chain {next : Nat → Option Nat} {l : List Nat} {h : Option Nat} {f : Nat}
    (hc : Chain next h l) (hf : l.length < f) : walk next f h = l := by
  induction l generalizing h f with
  | nil =>
    cases f with
    | zero => rfl
    | succ f => rw [show h = none from hc]; rfl
  | cons y l ih =>
    cases f with
    | zero => simp at hf
    | succ f =>
      rw [hc.1]
      simp only [walk]
      rw [ih hc.2 (by simpa using hf)]

theorem findPrev_none {next : Nat → Option Nat} {x : Nat} {l : List Nat} {p f : Nat}
    (hc : Chain next (next p) l) (hx : x ∉ l) : findPrev next x f p = none := by
  induction l generalizing p f with
  | nil =>
    cases f with
    | zero => rfl
    | succ f => simp only [findPrev]; rw [show next p = none from hc]
  | cons y l ih =>
    cases f with
    | zero => rfl
    | succ f =>
      simp only [List.mem_cons, not_or] at hx
      simp only [findPrev]
      rw [hc.1]
      simp only
      rw [if_neg (fun h => hx.1 h.symm)]
      exact ih hc.2 hx.2

/-- The list without the element. -/
theorem findPrev_some {next : Nat → Option Nat} {x : Nat} {l : List Nat} {p f : Nat}
    (hc : Chain next (next p) l) (hx : x ∈ l) (hd : (p :: l).Nodup) (hf : l.length ≤ f) :
    ∃ q, findPrev next x f p = some q ∧ q ∈ p :: l ∧ q ≠ x ∧
      Chain (upd (upd next q (next x)) x none) (some p) (p :: l.erase x) := by
  induction l generalizing p f with
  | nil => cases hx
  | cons y l ih =>
    cases f with
    | zero => simp at hf
    | succ f =>
      obtain ⟨hy, hl⟩ := hc
      simp only [List.nodup_cons, List.mem_cons, not_or] at hd
      simp only [findPrev, hy]
      by_cases hyx : y = x
      · subst hyx
        refine ⟨p, by simp, by simp, hd.1.1, rfl, ?_⟩
        rw [upd_ne _ _ hd.1.1, upd_same]
        simp only [List.erase_cons_head]
        rw [chain_upd hd.2.1, chain_upd hd.1.2]
        exact hl
      · rw [if_neg hyx]
        have hx' : x ∈ l := by
          rcases List.mem_cons.1 hx with h | h
          · exact absurd h.symm hyx
          · exact h
        obtain ⟨q, h1, h2, h3, h4⟩ := ih hl hx' (by simpa using hd.2) (by simpa using hf)
        refine ⟨q, h1, List.mem_cons_of_mem _ h2, h3, rfl, ?_⟩
        have hpx : p ≠ x := fun h => hd.1.2 (h ▸ hx')
        have hpq : p ≠ q := by
          intro h
          subst h
          rcases List.mem_cons.1 h2 with h | h
          · exact hd.1.1 h
          · exact hd.1.2 h
        rw [upd_ne _ _ hpx, upd_ne _ _ hpq, hy, List.erase_cons_tail (by simpa using hyx)]
        exact h4

theorem removeFrom_none {next : Nat → Option Nat} {x : Nat} {l : List Nat} {h : Option Nat} {f : Nat}
    (hc : Chain next h l) (hx : x ∉ l) : removeFrom f next h x = none := by
  cases l with
  | nil => rw [show h = none from hc]; rfl
  | cons y l =>
    simp only [List.mem_cons, not_or] at hx
    rw [hc.1]
    simp only [removeFrom]
    rw [if_neg (fun h => hx.1 h.symm), findPrev_none hc.2 hx.2]

theorem removeFrom_some {next : Nat → Option Nat} {x : Nat} {l : List Nat} {h : Option Nat} {f : Nat}
    (hc : Chain next h l) (hx : x ∈ l) (hd : l.Nodup) (hf : l.length ≤ f) :
    ∃ next' h', removeFrom f next h x = some (next', h') ∧ Chain next' h' (l.erase x) ∧
      ∀ y, y ∉ l → next' y = next y := by
  cases l with
  | nil => cases hx
  | cons y l =>
    obtain ⟨hh, hl⟩ := hc
    by_cases hyx : y = x
    · subst hyx
      refine ⟨upd next y none, next y, by simp [removeFrom, hh], ?_, ?_⟩
      · rw [List.erase_cons_head, chain_upd (List.nodup_cons.1 hd).1]
        exact hl
      · intro z hz
        simp only [List.mem_cons, not_or] at hz
        rw [upd_ne _ _ hz.1]
    · have hx' : x ∈ l := by
        rcases List.mem_cons.1 hx with h | h
        · exact absurd h.symm hyx
        · exact h
      obtain ⟨q, h1, h2, h3, h4⟩ := findPrev_some hl hx' hd (f := f) (by simp at hf; omega)
      refine ⟨upd (upd next q (next x)) x none, some y, ?_, ?_, ?_⟩
      · simp only [removeFrom, hh]
        rw [if_neg hyx, h1]
      · rw [List.erase_cons_tail (by simpa using hyx)]
        exact h4
      · intro z hz
        rw [upd_ne _ _ (fun h => hz (by rw [h]; exact hx)),
          upd_ne _ _ (fun h => hz (by rw [h]; exact h2))]

theorem stopAll_chain {next : Nat → Option Nat} {l A : List Nat} {acc : Option Nat}
    (hc : Chain next acc A) (hd : l.Nodup) (hA : ∀ x ∈ l, x ∉ A) :
    Chain (stopAll l next acc).1 (stopAll l next acc).2 (l.reverse ++ A) ∧
      ∀ y, y ∉ l → (stopAll l next acc).1 y = next y := by
  induction l generalizing next acc A with
  | nil => exact ⟨hc, fun _ _ => rfl⟩
  | cons x l ih =>
    have hx := List.nodup_cons.1 hd
    have hxA := hA x (by simp)
    have h1 : Chain (upd next x acc) (some x) (x :: A) := by
      refine ⟨rfl, ?_⟩
      rw [upd_same, chain_upd hxA]
      exact hc
    obtain ⟨h2, h3⟩ := ih h1 hx.2 (by
      intro y hy
      simp only [List.mem_cons, not_or]
      exact ⟨fun h => hx.1 (h ▸ hy), hA y (List.mem_cons_of_mem _ hy)⟩)
    refine ⟨by simpa [stopAll] using h2, ?_⟩
    intro y hy
    simp only [List.mem_cons, not_or] at hy
    simp only [stopAll]
    rw [h3 y hy.2, upd_ne _ _ hy.1]

/-- The number of references. -/
def refsOf (s : State) (x : Nat) : Nat := ((s.obj x).map (·.refs)).getD 0

/-- The thread has a reference. -/
def Thread.refs : Thread → Nat
  | .gone => 0
  | _ => 1

theorem Thread.refs_one {t : Thread} (h : t ≠ .gone) : t.refs = 1 := by
  cases t <;> first | rfl | exact absurd rfl h

/-- The reference of the thread of a looper. -/
def thr (s : State) (x : Nat) : Nat := (s.thread x).refs

/-- Who is running gbinder_ipc_stop_loopers. -/
def Stop.who : Stop → Option Nat
  | .idle => none
  | .list b _ _ => b
  | .join b _ _ _ => b

/-- The loopers which are being stopped. -/
def Stopping (next : Nat → Option Nat) : Stop → List Nat → List Nat → Prop
  | .idle, S, J => S = [] ∧ J = []
  | .list _ _ tmp, S, J => Chain next tmp S ∧ J = []
  | .join _ _ tmp x, S, J => Chain next tmp S ∧ J = [x]

/-- In how many lists it is. -/
def lists (P B S J : List Nat) (x : Nat) : Nat := P.count x + B.count x + S.count x + J.count x

/-- The list of primary loopers, that of blocked loopers, and those which are being stopped. -/
structure Inv (s : State) (P B S J : List Nat) : Prop where
  cp : Chain s.next s.primary P
  cb : Chain s.next s.blocked B
  cs : Stopping s.next s.stop S J
  once : ∀ x, lists P B S J x ≤ 1
  fresh : ∀ x, s.n ≤ x → s.thread x = .gone ∧ s.obj x = none
  refs : ∀ x, refsOf s x = lists P B S J x + thr s x + s.temps.count x
  pos : ∀ x o, s.obj x = some o → 0 < o.refs
  limit : P.length ≤ 5
  was : ∀ x, s.thread x = .blocked true ∨ s.thread x = .finishing true → x ∈ B
  exits : ∀ x o, 0 < S.count x + J.count x → s.obj x = some o → o.exit = true
  ipc : ∀ x o, s.obj x = some o → o.ipc = false → o.exit = true ∧
    (s.thread x = .gone ∨ s.thread x = .loop ∨ s.thread x = .disposing ∨ s.thread x = .leaving ∨ s.thread x = .last)
  disp : ∀ x, s.thread x = .disposing ↔ s.stop.who = some x

theorem Inv.init : Inv {} [] [] [] [] where
  cp := rfl
  cb := rfl
  cs := ⟨rfl, rfl⟩
  once := fun x => by simp [lists]
  fresh := fun x _ => ⟨rfl, rfl⟩
  refs := fun x => by simp [lists, refsOf, thr, Thread.refs]
  pos := fun x o h => by cases h
  limit := by simp
  was := fun x h => by rcases h with h | h <;> cases h
  exits := fun x o h => by simp at h
  ipc := fun x o h => by cases h
  disp := fun x => by simp [Stop.who]

section
variable {s : State} {P B S J : List Nat}

theorem Inv.gone (h : Inv s P B S J) {x : Nat} (hx : s.n ≤ x) :
    lists P B S J x = 0 ∧ s.temps.count x = 0 := by
  have h1 := h.refs x
  have := (h.fresh x hx).2
  simp only [refsOf, this, Option.map_none, Option.getD_none] at h1
  omega

theorem Inv.lt (h : Inv s P B S J) {x : Nat} (hx : 0 < lists P B S J x) : x < s.n := by
  rcases Nat.lt_or_ge x s.n with h1 | h1
  · exact h1
  · have := (h.gone h1).1
    omega

theorem short {n : Nat} {l : List Nat} (hd : l.Nodup) (h : ∀ x ∈ l, x < n) : l.length ≤ n := by
  have := List.Nodup.length_le_of_subset hd (l₂ := List.range n) (fun x hx => by simpa using h x hx)
  simpa using this

theorem Inv.dp (h : Inv s P B S J) : P.Nodup := by
  rw [List.nodup_iff_count]
  intro x
  have := h.once x
  simp only [lists] at this
  omega

theorem Inv.db (h : Inv s P B S J) : B.Nodup := by
  rw [List.nodup_iff_count]
  intro x
  have := h.once x
  simp only [lists] at this
  omega

theorem Inv.lp (h : Inv s P B S J) : P.length ≤ s.n := by
  refine short h.dp (fun x hx => h.lt ?_)
  have := List.count_pos_iff.2 hx
  simp only [lists]
  omega

theorem Inv.lb (h : Inv s P B S J) : B.length ≤ s.n := by
  refine short h.db (fun x hx => h.lt ?_)
  have := List.count_pos_iff.2 hx
  simp only [lists]
  omega

theorem Inv.walkP (h : Inv s P B S J) : s.walk s.primary = P :=
  walk_chain h.cp (by have := h.lp; omega)

theorem Inv.walkB (h : Inv s P B S J) : s.walk s.blocked = B :=
  walk_chain h.cb (by have := h.lb; omega)

/-- Something that is referred to is there. -/
theorem Inv.alive (h : Inv s P B S J) {x : Nat}
    (hx : 0 < lists P B S J x + thr s x + s.temps.count x) : ∃ o, s.obj x = some o ∧ o.refs =
      lists P B S J x + thr s x + s.temps.count x := by
  have h1 := h.refs x
  cases ho : s.obj x with
  | none => simp only [refsOf, ho, Option.map_none, Option.getD_none] at h1; omega
  | some o => simp only [refsOf, ho, Option.map_some, Option.getD_some] at h1; exact ⟨o, rfl, h1⟩

theorem Inv.aliveP (h : Inv s P B S J) : s.alive P = true := by
  simp only [State.alive, List.all_eq_true]
  intro x hx
  have := List.count_pos_iff.2 hx
  obtain ⟨o, ho, _⟩ := h.alive (x := x) (by simp only [lists]; omega)
  simp [ho]

theorem Inv.aliveB (h : Inv s P B S J) : s.alive B = true := by
  simp only [State.alive, List.all_eq_true]
  intro x hx
  have := List.count_pos_iff.2 hx
  obtain ⟨o, ho, _⟩ := h.alive (x := x) (by simp only [lists]; omega)
  simp [ho]

theorem Inv.thread (h : Inv s P B S J) {x : Nat} (hx : s.thread x ≠ .gone) : ∃ o, s.obj x = some o := by
  obtain ⟨o, ho, _⟩ := h.alive (x := x) (by simp only [thr, Thread.refs_one hx]; omega)
  exact ⟨o, ho⟩

theorem Inv.notin (h : Inv s P B S J) {x : Nat} (hx : s.n ≤ x) : x ∉ P ∧ x ∉ B ∧ x ∉ S ∧ x ∉ J := by
  have := (h.gone hx).1
  simp only [lists] at this
  simp only [← List.count_eq_zero]
  omega

/-- The thread goes elsewhere. -/
theorem Inv.go (h : Inv s P B S J) {x : Nat} {t : Thread} (h1 : s.thread x ≠ .gone) (h2 : t ≠ .gone)
    (h3 : s.thread x ≠ .disposing) (h4 : t ≠ .disposing)
    (h5 : t = .blocked true ∨ t = .finishing true → x ∈ B)
    (h6 : ∀ o, s.obj x = some o → o.ipc = false → t = .loop ∨ t = .leaving ∨ t = .last) :
    Inv { s with thread := upd s.thread x t } P B S J where
  cp := h.cp
  cb := h.cb
  cs := h.cs
  once := h.once
  fresh := by
    intro y hy
    have := h.fresh y hy
    refine ⟨?_, this.2⟩
    simp only
    rw [upd_ne]
    · exact this.1
    · intro e; subst e; exact h1 this.1
  refs := by
    intro y
    have := h.refs y
    simp only [refsOf, thr] at this ⊢
    by_cases e : y = x
    · subst e
      rw [upd_same, Thread.refs_one h2]
      rw [Thread.refs_one h1] at this
      exact this
    · rw [upd_ne _ _ e]
      exact this
  pos := h.pos
  limit := h.limit
  was := by
    intro y
    simp only
    by_cases e : y = x
    · subst e
      rw [upd_same]
      exact h5
    · rw [upd_ne _ _ e]
      exact h.was y
  exits := h.exits
  ipc := by
    intro y o ho hi
    have := h.ipc y o ho hi
    refine ⟨this.1, ?_⟩
    simp only
    by_cases e : y = x
    · subst e
      rw [upd_same]
      rcases h6 o ho hi with h | h | h <;> simp [h]
    · rw [upd_ne _ _ e]
      exact this.2
  disp := by
    intro y
    simp only
    by_cases e : y = x
    · subst e
      rw [upd_same, ← h.disp y]
      simp [h3, h4]
    · rw [upd_ne _ _ e]
      exact h.disp y

/-- A looper is created. -/
theorem Inv.create (h : Inv s [] B S J) : Inv s.create [s.n] B S J := by
  have hn := h.gone (Nat.le_refl s.n)
  have hni := h.notin (Nat.le_refl s.n)
  have hf := h.fresh s.n (Nat.le_refl s.n)
  refine ⟨⟨rfl, by simp [State.create, upd_same, Chain]⟩, (chain_upd hni.2.1).2 h.cb, ?_, ?_, ?_, ?_, ?_,
    by simp, ?_, ?_, ?_, ?_⟩
  · have := h.cs
    cases hs : s.stop with
    | idle => rw [hs] at this; simp only [State.create, hs]; exact this
    | list b a t =>
      rw [hs] at this
      simp only [State.create, hs]
      exact ⟨(chain_upd hni.2.2.1).2 this.1, this.2⟩
    | join b a t x =>
      rw [hs] at this
      simp only [State.create, hs]
      exact ⟨(chain_upd hni.2.2.1).2 this.1, this.2⟩
  · intro x
    have := h.once x
    simp only [lists, List.count_cons, List.count_nil] at this hn ⊢
    by_cases e : s.n = x
    · subst e; simp; omega
    · simp [e]; omega
  · intro x hx
    have := h.fresh x (by simp only [State.create] at hx; omega)
    have e : x ≠ s.n := by simp only [State.create] at hx; omega
    simp only [State.create]
    rw [upd_ne _ _ e, upd_ne _ _ e]
    exact this
  · intro x
    have := h.refs x
    simp only [refsOf, thr, State.create, lists, List.count_cons, List.count_nil] at this hn ⊢
    by_cases e : s.n = x
    · subst e
      rw [upd_same, upd_same]
      simp [Thread.refs]
      omega
    · rw [upd_ne _ _ (Ne.symm e), upd_ne _ _ (Ne.symm e)]
      simp [e]
      omega
  · intro x o
    simp only [State.create]
    by_cases e : x = s.n
    · subst e; rw [upd_same]; intro ho; cases ho; simp
    · rw [upd_ne _ _ e]; exact h.pos x o
  · intro x
    simp only [State.create]
    by_cases e : x = s.n
    · subst e; rw [upd_same]; simp
    · rw [upd_ne _ _ e]; exact h.was x
  · intro x o hx
    simp only [State.create]
    by_cases e : x = s.n
    · subst e; rw [lists] at hn; omega
    · rw [upd_ne _ _ e]; exact h.exits x o hx
  · intro x o
    simp only [State.create]
    by_cases e : x = s.n
    · subst e; rw [upd_same]; intro ho; cases ho; simp
    · rw [upd_ne _ _ e, upd_ne _ _ e]; exact h.ipc x o
  · intro x
    simp only [State.create]
    by_cases e : x = s.n
    · subst e; rw [upd_same, ← h.disp s.n, hf.1]; simp
    · rw [upd_ne _ _ e]; exact h.disp x

/-- A reference is dropped. `s` is the state in which there's one more reference than there should
be. -/
theorem unref_inv {x : Nat}
    (hcp : Chain s.next s.primary P) (hcb : Chain s.next s.blocked B) (hcs : Stopping s.next s.stop S J)
    (hon : ∀ x, lists P B S J x ≤ 1) (hfr : ∀ x, s.n ≤ x → s.thread x = .gone ∧ s.obj x = none)
    (hrf : ∀ y, refsOf s y = lists P B S J y + thr s y + s.temps.count y + if y = x then 1 else 0)
    (hps : ∀ x o, s.obj x = some o → 0 < o.refs) (hlm : P.length ≤ 5)
    (hws : ∀ x, s.thread x = .blocked true ∨ s.thread x = .finishing true → x ∈ B)
    (hex : ∀ x o, 0 < S.count x + J.count x → s.obj x = some o → o.exit = true)
    (hip : ∀ x o, s.obj x = some o → o.ipc = false → o.exit = true ∧
      (s.thread x = .gone ∨ s.thread x = .loop ∨ s.thread x = .disposing ∨ s.thread x = .leaving ∨ s.thread x = .last))
    (hdi : ∀ x, s.thread x = .disposing ↔ s.stop.who = some x) :
    ∃ s', s.unref x = .ok s' ∧ Inv s' P B S J ∧ s'.thread = s.thread ∧ s'.primary = s.primary ∧
      s'.stop = s.stop ∧ s'.n = s.n ∧ (∀ y o, s'.obj y = some o → ∃ o', s.obj y = some o' ∧ o'.exit = o.exit) := by
  have hx := hrf x
  simp only [refsOf, if_pos] at hx
  cases ho : s.obj x with
  | none => rw [ho] at hx; simp at hx
  | some o =>
    rw [ho] at hx
    simp only [Option.map_some, Option.getD_some] at hx
    simp only [State.unref, ho]
    match hr : o.refs with
    | 0 => omega
    | 1 =>
      refine ⟨_, rfl, ⟨hcp, hcb, hcs, hon, ?_, ?_, ?_, hlm, hws, ?_, ?_, hdi⟩, rfl, rfl, rfl, rfl, ?_⟩
      · intro y hy
        refine ⟨(hfr y hy).1, ?_⟩
        by_cases e : y = x
        · subst e; exact upd_same _ _ _
        · simp only; rw [upd_ne _ _ e]; exact (hfr y hy).2
      · intro y
        have hy := hrf y
        simp only [refsOf, thr] at hy hx ⊢
        by_cases e : y = x
        · subst e; rw [upd_same]; simp; omega
        · rw [upd_ne _ _ e]; simp only [if_neg e] at hy; exact hy
      · intro y
        simp only
        by_cases e : y = x
        · subst e; rw [upd_same]; simp
        · rw [upd_ne _ _ e]; exact hps y
      · intro y
        simp only
        by_cases e : y = x
        · subst e; rw [upd_same]; simp
        · rw [upd_ne _ _ e]; exact hex y
      · intro y
        simp only
        by_cases e : y = x
        · subst e; rw [upd_same]; simp
        · rw [upd_ne _ _ e]; exact hip y
      · intro y
        simp only
        by_cases e : y = x
        · subst e; rw [upd_same]; simp
        · rw [upd_ne _ _ e]; exact fun o ho => ⟨o, ho, rfl⟩
    | r + 2 =>
      refine ⟨_, rfl, ⟨hcp, hcb, hcs, hon, ?_, ?_, ?_, hlm, hws, ?_, ?_, hdi⟩, rfl, rfl, rfl, rfl, ?_⟩
      · intro y hy
        refine ⟨(hfr y hy).1, ?_⟩
        by_cases e : y = x
        · subst e; rw [(hfr y hy).2] at ho; cases ho
        · simp only; rw [upd_ne _ _ e]; exact (hfr y hy).2
      · intro y
        have hy := hrf y
        simp only [refsOf, thr] at hy hx ⊢
        by_cases e : y = x
        · subst e; rw [upd_same]; simp; omega
        · rw [upd_ne _ _ e]; simp only [if_neg e] at hy; exact hy
      · intro y
        simp only
        by_cases e : y = x
        · subst e; rw [upd_same]; intro o' ho'; cases ho'; simp
        · rw [upd_ne _ _ e]; exact hps y
      · intro y
        simp only
        by_cases e : y = x
        · subst e; rw [upd_same]; intro o' hc ho'; cases ho'; exact hex y o hc ho
        · rw [upd_ne _ _ e]; exact hex y
      · intro y
        simp only
        by_cases e : y = x
        · subst e; rw [upd_same]; intro o' ho' hi; cases ho'; exact hip y o ho hi
        · rw [upd_ne _ _ e]; exact hip y
      · intro y
        simp only
        by_cases e : y = x
        · subst e; rw [upd_same]; intro o' ho'; cases ho'; exact ⟨o, ho, rfl⟩
        · rw [upd_ne _ _ e]; exact fun o ho => ⟨o, ho, rfl⟩

end

/-- Nothing has gone wrong so far. -/
structure Good (s : State) (P : List Nat) : Prop where
  idle : s.stop = .idle
  some : 0 < s.n → P ≠ []
  serv : ∀ x, x ∈ P →
    s.thread x = .starting ∨ s.thread x = .loop ∨ s.thread x = .reading ∨ s.thread x = .waiting
  stay : ∀ x o, x ∈ P → s.obj x = .some o → o.exit = false
  was : ∀ x o, s.obj x = .some o → o.exit = true → s.thread x ≠ .blocked true ∧ s.thread x ≠ .finishing true

/-- What's true after a step. -/
def After (s : State) (P : List Nat) (l : Label) (s' : State) : Prop :=
  ∃ P' B' S' J', Inv s' P' B' S' J' ∧ (Healthy s l → Good s P → Good s' P')

theorem chain_none {next : Nat → Option Nat} {l : List Nat} (h : Chain next none l) : l = [] := by
  cases l with
  | nil => rfl
  | cons x l => cases h.1

section
variable {s : State} {P B S J : List Nat}

theorem Good.create (h1 : s.stop = .idle)
    (h2 : ∀ x o, s.obj x = .some o → o.exit = true → s.thread x ≠ .blocked true ∧ s.thread x ≠ .finishing true) :
    Good s.create [s.n] where
  idle := h1
  some := fun _ => by simp
  serv := by
    intro x hx
    simp only [List.mem_singleton] at hx
    subst hx
    exact .inl (upd_same _ _ _)
  stay := by
    intro x o hx
    simp only [List.mem_singleton] at hx
    subst hx
    simp only [State.create, upd_same]
    intro ho; cases ho; rfl
  was := by
    intro x o
    simp only [State.create]
    by_cases e : x = s.n
    · subst e; rw [upd_same, upd_same]; simp
    · rw [upd_ne _ _ e, upd_ne _ _ e]; exact h2 x o

theorem Good.mono {s' : State} (h : Good s P) (h1 : s'.stop = s.stop) (h2 : s'.n = s.n)
    (h3 : s'.thread = s.thread)
    (h4 : ∀ y o, s'.obj y = .some o → ∃ o', s.obj y = .some o' ∧ o'.exit = o.exit) : Good s' P where
  idle := by rw [h1]; exact h.idle
  some := by rw [h2]; exact h.some
  serv := by rw [h3]; exact h.serv
  stay := by
    intro x o hx ho
    obtain ⟨o', ho', he⟩ := h4 x o ho
    rw [← he]
    exact h.stay x o' hx ho'
  was := by
    intro x o ho hx
    obtain ⟨o', ho', he⟩ := h4 x o ho
    rw [h3]
    exact h.was x o' ho' (he.trans hx)

theorem Good.go (h : Good s P) {x : Nat} {t : Thread}
    (h1 : x ∈ P → t = .starting ∨ t = .loop ∨ t = .reading ∨ t = .waiting)
    (h2 : ∀ o, s.obj x = .some o → o.exit = true → t ≠ .blocked true ∧ t ≠ .finishing true) :
    Good { s with thread := upd s.thread x t } P where
  idle := h.idle
  some := h.some
  serv := by
    intro y hy
    simp only
    by_cases e : y = x
    · subst e; rw [upd_same]; exact h1 hy
    · rw [upd_ne _ _ e]; exact h.serv y hy
  stay := h.stay
  was := by
    intro y o
    simp only
    by_cases e : y = x
    · subst e; rw [upd_same]; exact h2 o
    · rw [upd_ne _ _ e]; exact h.was y o

/-- Both. -/
theorem Inv.goes (h : Inv s P B S J) {x : Nat} {t : Thread} {l : Label} (h1 : s.thread x ≠ .gone) (h2 : t ≠ .gone)
    (h3 : s.thread x ≠ .disposing) (h4 : t ≠ .disposing)
    (h5 : t = .blocked true ∨ t = .finishing true → x ∈ B)
    (h6 : ∀ o, s.obj x = some o → o.ipc = false → t = .loop ∨ t = .leaving ∨ t = .last)
    (h7 : Healthy s l → Good s P → x ∈ P → t = .starting ∨ t = .loop ∨ t = .reading ∨ t = .waiting)
    (h8 : Good s P → ∀ o, s.obj x = .some o → o.exit = true → t ≠ .blocked true ∧ t ≠ .finishing true) :
    After s P l { s with thread := upd s.thread x t } :=
  ⟨P, B, S, J, h.go h1 h2 h3 h4 h5 h6, fun ha hg => hg.go (h7 ha hg) (h8 hg)⟩

/-- Not in more than one list. -/
theorem Inv.disj (h : Inv s P B S J) {x : Nat} : (x ∈ P → x ∉ B ∧ x ∉ S ∧ x ∉ J) ∧
    (x ∈ B → x ∉ P ∧ x ∉ S ∧ x ∉ J) := by
  have := h.once x
  simp only [lists] at this
  simp only [← List.count_eq_zero, ← List.count_pos_iff]
  omega

theorem Stopping.congr {next next' : Nat → Option Nat} {st : Stop} (h : Stopping next st S J)
    (he : ∀ x ∈ S, next' x = next x) : Stopping next' st S J := by
  cases st with
  | idle => exact h
  | list b a t => exact ⟨chain_congr he h.1, h.2⟩
  | join b a t x => exact ⟨chain_congr he h.1, h.2⟩

theorem not_mem_erase {l : List Nat} {x : Nat} (h : l.Nodup) : x ∉ l.erase x := by
  intro hx
  have := (List.nodup_iff_count.1 h) x
  have h1 := List.count_pos_iff.2 hx
  rw [List.count_erase] at h1
  simp at h1
  omega

theorem count_erase_mem {l : List Nat} {x : Nat} (h : x ∈ l) (y : Nat) :
    l.count y = (l.erase x).count y + if y = x then 1 else 0 := by
  rw [List.count_erase]
  have := List.count_pos_iff.2 h
  by_cases e : y = x
  · subst e; simp; omega
  · simp [e, Ne.symm e]

/-- A looper is blocked. -/
theorem Inv.block (h : Inv s P B S J) {x : Nat} (hx : x ∈ P) (ht : s.thread x = .waiting)
    {next' : Nat → Option Nat} {p' : Option Nat} (hc : Chain next' p' (P.erase x))
    (hn : ∀ y, y ∉ P → next' y = s.next y) :
    Inv { s with thread := upd s.thread x (.blocked true), next := upd next' x s.blocked,
                 blocked := some x, primary := p' } (P.erase x) (x :: B) S J := by
  have hd := h.disj (x := x)
  refine ⟨(chain_upd (not_mem_erase h.dp)).2 hc, ⟨rfl, ?_⟩, ?_, ?_, ?_, ?_, h.pos, ?_, ?_, h.exits, ?_, ?_⟩
  · simp only; rw [upd_same]
    rw [chain_upd (hd.1 hx).1]
    exact chain_congr (fun y hy => hn y ((h.disj (x := y)).2 hy).1) h.cb
  · refine h.cs.congr ?_
    intro y hy
    have e : y ≠ x := fun e => (hd.1 hx).2.1 (e ▸ hy)
    simp only
    rw [upd_ne _ _ e]
    exact hn y (fun hp => ((h.disj (x := y)).1 hp).2.1 hy)
  · intro y
    have h1 := h.once y
    have h2 := count_erase_mem hx y
    simp only [lists, List.count_cons, beq_iff_eq, eq_comm (a := x)] at h1 ⊢
    omega
  · intro y hy
    have h1 := h.fresh y hy
    have e : y ≠ x := fun e => by subst e; rw [ht] at h1; cases h1.1
    simp only
    rw [upd_ne _ _ e]
    exact h1
  · intro y
    have h1 := h.refs y
    have h2 := count_erase_mem hx y
    have h3 : (upd s.thread x (.blocked true) y).refs = (s.thread y).refs := by
      by_cases e : y = x
      · subst e; rw [upd_same, ht]; rfl
      · rw [upd_ne _ _ e]
    simp only [refsOf, thr, lists, List.count_cons, beq_iff_eq, eq_comm (a := x), h3] at h1 ⊢
    omega
  · have := h.limit
    have h2 := List.length_erase_le (a := x) (l := P)
    omega
  · intro y
    simp only
    by_cases e : y = x
    · subst e; simp
    · rw [upd_ne _ _ e]; exact fun hw => List.mem_cons_of_mem _ (h.was y hw)
  · intro y o ho hi
    have := h.ipc y o ho hi
    refine ⟨this.1, ?_⟩
    have e : y ≠ x := fun e => by subst e; rw [ht] at this; simp at this
    simp only
    rw [upd_ne _ _ e]
    exact this.2
  · intro y
    simp only
    by_cases e : y = x
    · subst e; rw [upd_same, ← h.disp y, ht]; simp
    · rw [upd_ne _ _ e]; exact h.disp y

/-- A looper isn't blocked anymore. -/
theorem Inv.back (h : Inv s P B S J) {x : Nat} (ht : s.thread x = .finishing true) (hl : P.length < 5)
    {next' : Nat → Option Nat} {p' : Option Nat} (hc : Chain next' p' (B.erase x))
    (hn : ∀ y, y ∉ B → next' y = s.next y) :
    Inv { s with thread := upd s.thread x .reading, next := upd next' x s.primary,
                 blocked := p', primary := some x } (x :: P) (B.erase x) S J := by
  have hx : x ∈ B := h.was x (.inr ht)
  have hd := h.disj (x := x)
  refine ⟨⟨rfl, ?_⟩, (chain_upd (not_mem_erase h.db)).2 hc, ?_, ?_, ?_, ?_, h.pos, ?_, ?_, h.exits, ?_, ?_⟩
  · simp only; rw [upd_same]
    rw [chain_upd (hd.2 hx).1]
    exact chain_congr (fun y hy => hn y ((h.disj (x := y)).1 hy).1) h.cp
  · refine h.cs.congr ?_
    intro y hy
    have e : y ≠ x := fun e => (hd.2 hx).2.1 (e ▸ hy)
    simp only
    rw [upd_ne _ _ e]
    exact hn y (fun hp => ((h.disj (x := y)).2 hp).2.1 hy)
  · intro y
    have h1 := h.once y
    have h2 := count_erase_mem hx y
    simp only [lists, List.count_cons, beq_iff_eq, eq_comm (a := x)] at h1 ⊢
    omega
  · intro y hy
    have h1 := h.fresh y hy
    have e : y ≠ x := fun e => by subst e; rw [ht] at h1; cases h1.1
    simp only
    rw [upd_ne _ _ e]
    exact h1
  · intro y
    have h1 := h.refs y
    have h2 := count_erase_mem hx y
    have h3 : (upd s.thread x .reading y).refs = (s.thread y).refs := by
      by_cases e : y = x
      · subst e; rw [upd_same, ht]; rfl
      · rw [upd_ne _ _ e]
    simp only [refsOf, thr, lists, List.count_cons, beq_iff_eq, eq_comm (a := x), h3] at h1 ⊢
    omega
  · simp only [List.length_cons]; omega
  · intro y
    simp only
    by_cases e : y = x
    · subst e; rw [upd_same]; simp
    · rw [upd_ne _ _ e]
      intro hw
      exact (List.mem_erase_of_ne e).2 (h.was y hw)
  · intro y o ho hi
    have := h.ipc y o ho hi
    refine ⟨this.1, ?_⟩
    have e : y ≠ x := fun e => by subst e; rw [ht] at this; simp at this
    simp only
    rw [upd_ne _ _ e]
    exact this.2
  · intro y
    simp only
    by_cases e : y = x
    · subst e; rw [upd_same, ← h.disp y, ht]; simp
    · rw [upd_ne _ _ e]; exact h.disp y

/-- A looper is told to exit. -/
theorem Inv.exit (h : Inv s P B S J) {x : Nat} {o : Obj} (ho : s.obj x = some o) :
    Inv { s with obj := upd s.obj x (some { o with exit := true }) } P B S J where
  cp := h.cp
  cb := h.cb
  cs := h.cs
  once := h.once
  fresh := by
    intro y hy
    have h1 := h.fresh y hy
    have e : y ≠ x := fun e => by subst e; rw [ho] at h1; cases h1.2
    simp only
    rw [upd_ne _ _ e]
    exact h1
  refs := by
    intro y
    have h1 := h.refs y
    simp only [refsOf, thr] at h1 ⊢
    by_cases e : y = x
    · subst e; rw [upd_same]; rw [ho] at h1; exact h1
    · rw [upd_ne _ _ e]; exact h1
  pos := by
    intro y o'
    simp only
    by_cases e : y = x
    · subst e; rw [upd_same]; intro h1; cases h1; exact h.pos y o ho
    · rw [upd_ne _ _ e]; exact h.pos y o'
  limit := h.limit
  was := h.was
  exits := by
    intro y o' hy
    simp only
    by_cases e : y = x
    · subst e; rw [upd_same]; intro h1; cases h1; rfl
    · rw [upd_ne _ _ e]; exact h.exits y o' hy
  ipc := by
    intro y o'
    simp only
    by_cases e : y = x
    · subst e; rw [upd_same]; intro h1; cases h1; exact fun hi => ⟨rfl, (h.ipc y o ho hi).2⟩
    · rw [upd_ne _ _ e]; exact h.ipc y o'
  disp := h.disp

theorem setExit_some {obj : Nat → Option Obj} {l : List Nat} {x : Nat} {o : Obj}
    (h : setExit obj l x = some o) : ∃ o', obj x = some o' ∧ o.refs = o'.refs ∧ o.ipc = o'.ipc ∧
      (x ∈ l → o.exit = true) ∧ (o'.exit = true → o.exit = true) := by
  simp only [setExit] at h
  split at h
  · rename_i hc
    cases hx : obj x with
    | none => rw [hx] at h; cases h
    | some o' =>
      rw [hx] at h
      cases h
      exact ⟨o', rfl, rfl, rfl, fun _ => rfl, fun _ => rfl⟩
  · rename_i hc
    refine ⟨o, h, rfl, rfl, ?_, id⟩
    intro hm
    simp at hc
    exact absurd hm hc

theorem setExit_refs {obj : Nat → Option Obj} {l : List Nat} {x : Nat} :
    (setExit obj l x).map (·.refs) = (obj x).map (·.refs) := by
  simp only [setExit]
  split
  · cases obj x <;> rfl
  · rfl

/-- Everything there is in the lists is going to be stopped. -/
theorem Inv.collect (h : Inv s P B [] []) {t : Nat → Thread} {b : Option Nat}
    (hg : ∀ x, (t x).refs = (s.thread x).refs) (hf : ∀ x, s.thread x = .gone → t x = .gone)
    (hc : ∀ x, t x ≠ .blocked true ∧ t x ≠ .finishing true)
    (hi : ∀ x o, s.obj x = some o → o.ipc = false →
      (t x = .gone ∨ t x = .loop ∨ t x = .disposing ∨ t x = .leaving ∨ t x = .last))
    (hd : ∀ x, t x = .disposing ↔ b = some x) :
    ∃ s', State.collect { s with thread := t } b = .ok s' ∧
      Inv s' [] [] (B.reverse ++ P.reverse) [] := by
  have h1 := h.walkP
  have h2 := h.walkB
  have h3 := h.aliveP
  have h4 := h.aliveB
  have hA := stopAll_chain (next := s.next) (l := P) (A := []) (acc := none) rfl h.dp (by simp)
  have hB := stopAll_chain (l := B) hA.1 h.db (by
    intro x hx
    have := ((h.disj (x := x)).2 hx).1
    simpa using this)
  simp only [State.walk] at h1 h2
  simp only [State.alive] at h3 h4
  simp only [State.collect, State.walk, State.alive, h1, h2, h3, h4, and_self, if_true]
  refine ⟨_, rfl, ⟨rfl, rfl, ⟨?_, rfl⟩, ?_, ?_, ?_, ?_, by simp, ?_, ?_, ?_, ?_⟩⟩
  · have := hB.1
    simpa using this
  · intro x
    have := h.once x
    simp only [lists, List.count_append, List.count_reverse, List.count_nil] at this ⊢
    omega
  · intro x hx
    have := h.fresh x hx
    refine ⟨hf x this.1, ?_⟩
    simp only [setExit, this.2]
    simp
  · intro x
    have := h.refs x
    simp only [refsOf, thr, lists, List.count_append, List.count_reverse, List.count_nil, setExit_refs, hg] at this ⊢
    omega
  · intro x o ho
    obtain ⟨o', ho', hr, _⟩ := setExit_some ho
    rw [hr]
    exact h.pos x o' ho'
  · intro x hx
    rcases hx with hx | hx
    · exact absurd hx (hc x).1
    · exact absurd hx (hc x).2
  · intro x o hx ho
    obtain ⟨o', ho', _, _, he, _⟩ := setExit_some ho
    refine he ?_
    simp only [List.count_append, List.count_reverse, List.count_nil] at hx
    rcases Nat.eq_zero_or_pos (B.count x) with h0 | h0
    · exact List.mem_append_left _ (List.count_pos_iff.1 (by omega))
    · exact List.mem_append_right _ (List.count_pos_iff.1 h0)
  · intro x o ho hip
    obtain ⟨o', ho', _, h5, _, h6⟩ := setExit_some ho
    rw [h5] at hip
    exact ⟨h6 (h.ipc x o' ho' hip).1, hi x o' ho' hip⟩
  · exact hd

end

section
variable {s : State} {P B S J : List Nat}

/-- A reference is dropped, after the state has become `s0`. -/
theorem unref_after {s0 : State} {x : Nat} {P' B' S' J' : List Nat} {l : Label}
    (hcp : Chain s0.next s0.primary P') (hcb : Chain s0.next s0.blocked B') (hcs : Stopping s0.next s0.stop S' J')
    (hon : ∀ x, lists P' B' S' J' x ≤ 1) (hfr : ∀ x, s0.n ≤ x → s0.thread x = .gone ∧ s0.obj x = none)
    (hrf : ∀ y, refsOf s0 y = lists P' B' S' J' y + thr s0 y + s0.temps.count y + if y = x then 1 else 0)
    (hps : ∀ x o, s0.obj x = some o → 0 < o.refs) (hlm : P'.length ≤ 5)
    (hws : ∀ x, s0.thread x = .blocked true ∨ s0.thread x = .finishing true → x ∈ B')
    (hex : ∀ x o, 0 < S'.count x + J'.count x → s0.obj x = some o → o.exit = true)
    (hip : ∀ x o, s0.obj x = some o → o.ipc = false → o.exit = true ∧
      (s0.thread x = .gone ∨ s0.thread x = .loop ∨ s0.thread x = .disposing ∨ s0.thread x = .leaving ∨ s0.thread x = .last))
    (hdi : ∀ x, s0.thread x = .disposing ↔ s0.stop.who = some x)
    (hgd : Healthy s l → Good s P → Good s0 P') :
    ∃ s', s0.unref x = .ok s' ∧ After s P l s' := by
  obtain ⟨s', h1, h2, h3, _, h5, h6, h7⟩ := unref_inv hcp hcb hcs hon hfr hrf hps hlm hws hex hip hdi
  exact ⟨s', h1, P', B', S', J', h2, fun ha hg => (hgd ha hg).mono h5 h6 h3 h7⟩

theorem step_release (h : Inv s P B S J) {x : Nat} (hx : x ∈ s.temps) :
    ∃ s', State.unref { s with temps := s.temps.erase x } x = .ok s' ∧ After s P (.release x) s' := by
  refine unref_after (P' := P) h.cp h.cb h.cs h.once h.fresh ?_ h.pos h.limit h.was h.exits h.ipc h.disp
    (fun _ hg => hg.mono rfl rfl rfl (fun y o ho => ⟨o, ho, rfl⟩))
  intro y
  have h1 := h.refs y
  have h2 := count_erase_mem hx y
  simp only [refsOf, thr] at h1 ⊢
  omega

theorem step_last (h : Inv s P B S J) {x : Nat} (hx : s.thread x = .last) :
    ∃ s', State.unref { s with thread := upd s.thread x .gone } x = .ok s' ∧ After s P (.last x) s' := by
  refine unref_after (P' := P) h.cp h.cb h.cs h.once ?_ ?_ h.pos h.limit ?_ h.exits ?_ ?_
    (fun _ hg => hg.go ?_ ?_)
  · intro y hy
    have h1 := h.fresh y hy
    refine ⟨?_, h1.2⟩
    simp only
    by_cases e : y = x
    · subst e; rw [upd_same]
    · rw [upd_ne _ _ e]; exact h1.1
  · intro y
    have h1 := h.refs y
    simp only [refsOf, thr] at h1 ⊢
    by_cases e : y = x
    · subst e
      rw [upd_same]
      rw [hx] at h1
      simp only [Thread.refs, if_true] at h1 ⊢
      omega
    · rw [upd_ne _ _ e]; simp only [if_neg e]; exact h1
  · intro y
    simp only
    by_cases e : y = x
    · subst e; rw [upd_same]; simp
    · rw [upd_ne _ _ e]; exact h.was y
  · intro y o ho hi
    have h1 := h.ipc y o ho hi
    refine ⟨h1.1, ?_⟩
    simp only
    by_cases e : y = x
    · subst e; rw [upd_same]; exact .inl rfl
    · rw [upd_ne _ _ e]; exact h1.2
  · intro y
    simp only
    by_cases e : y = x
    · subst e; rw [upd_same, ← h.disp y, hx]; simp
    · rw [upd_ne _ _ e]; exact h.disp y
  · intro hp
    have := hg.serv x hp
    rw [hx] at this
    simp at this
  · intro o _ _; simp

/-- A looper which is going to exit removes itself from the list of blocked loopers. -/
theorem step_unblocked (h : Inv s P B S J) {x : Nat} (ht : s.thread x = .leaving) (hx : x ∈ B)
    {next' : Nat → Option Nat} {p' : Option Nat} (hc : Chain next' p' (B.erase x))
    (hn : ∀ y, y ∉ B → next' y = s.next y) :
    ∃ s', State.unref { s with thread := upd s.thread x .last, next := next', blocked := p' } x = .ok s' ∧
      After s P (.remove x) s' := by
  have hl := h.go (x := x) (t := .last) (by simp [ht]) (by simp) (by simp [ht]) (by simp) (by simp) (by simp)
  refine unref_after (P' := P) (B' := B.erase x) (S' := S) (J' := J) ?_ hc ?_ ?_ hl.fresh ?_ h.pos h.limit ?_ h.exits hl.ipc hl.disp
    (fun _ hg => ?_)
  · exact chain_congr (fun y hy => hn y ((h.disj (x := y)).1 hy).1) h.cp
  · exact h.cs.congr (fun y hy => hn y (fun hb => ((h.disj (x := y)).2 hb).2.1 hy))
  · intro y
    have h1 := h.once y
    have h2 := count_erase_mem hx y
    simp only [lists] at h1 ⊢
    omega
  · intro y
    have h1 := hl.refs y
    have h2 := count_erase_mem hx y
    simp only [refsOf, thr, lists] at h1 ⊢
    omega
  · intro y hy
    refine (List.mem_erase_of_ne ?_).2 (hl.was y hy)
    intro e
    subst e
    simp only [upd_same] at hy
    simp at hy
  · have := hg.go (x := x) (t := .last) (by
      intro hp
      have := hg.serv x hp
      rw [ht] at this
      simp at this) (by simp)
    exact this.mono rfl rfl rfl (fun y o ho => ⟨o, ho, rfl⟩)

/-- A looper which is going to exit removes itself from the list of primary loopers. -/
theorem step_unprimary (h : Inv s P B S J) {x : Nat} (ht : s.thread x = .leaving) (hx : x ∈ P)
    {next' : Nat → Option Nat} {p' : Option Nat} (hc : Chain next' p' (P.erase x))
    (hn : ∀ y, y ∉ P → next' y = s.next y) :
    ∃ s', State.unref { s with thread := upd s.thread x .last, next := next', primary := p' } x = .ok s' ∧
      After s P (.remove x) s' := by
  have hl := h.go (x := x) (t := .last) (by simp [ht]) (by simp) (by simp [ht]) (by simp) (by simp) (by simp)
  refine unref_after (P' := P.erase x) (B' := B) (S' := S) (J' := J) hc ?_ ?_ ?_ hl.fresh ?_ h.pos ?_ hl.was h.exits hl.ipc hl.disp
    (fun _ hg => ?_)
  · exact chain_congr (fun y hy => hn y ((h.disj (x := y)).2 hy).1) h.cb
  · exact h.cs.congr (fun y hy => hn y (fun hb => ((h.disj (x := y)).1 hb).2.1 hy))
  · intro y
    have h1 := h.once y
    have h2 := count_erase_mem hx y
    simp only [lists] at h1 ⊢
    omega
  · intro y
    have h1 := hl.refs y
    have h2 := count_erase_mem hx y
    simp only [refsOf, thr, lists] at h1 ⊢
    omega
  · have := h.limit
    have h2 := List.length_erase_le (a := x) (l := P)
    omega
  · have := hg.serv x hx
    rw [ht] at this
    simp at this

theorem step_remove (h : Inv s P B S J) {x : Nat} (ht : s.thread x = .leaving) :
    ∃ s', step s (.remove x) = .ok s' ∧ After s P (.remove x) s' := by
  obtain ⟨o, ho⟩ := h.thread (x := x) (by simp [ht])
  have h1 := h.walkP
  have h2 := h.walkB
  have h3 := h.aliveP
  have h4 := h.aliveB
  simp only [State.walk] at h1 h2
  simp only [State.alive] at h3 h4
  have hgo : After s P (.remove x) { s with thread := upd s.thread x .last } :=
    h.goes (by simp [ht]) (by simp) (by simp [ht]) (by simp) (by simp) (by simp)
      (fun _ hg hp => by
        have := hg.serv x hp
        rw [ht] at this
        simp at this)
      (by simp)
  simp only [step, if_pos ht, ho]
  by_cases hi : o.ipc
  · rw [if_pos hi]
    simp only [State.walk, State.alive, h1, h2, h3, h4, and_self, if_true]
    by_cases hb : x ∈ B
    · obtain ⟨n', p', hr, hc, hn⟩ := removeFrom_some h.cb hb h.db (f := s.n + 1) (by have := h.lb; omega)
      simp only [hr]
      exact step_unblocked h ht hb hc hn
    · rw [removeFrom_none h.cb hb]
      simp only
      by_cases hp : x ∈ P
      · obtain ⟨n', p', hr, hc, hn⟩ := removeFrom_some h.cp hp h.dp (f := s.n + 1) (by have := h.lp; omega)
        simp only [hr]
        exact step_unprimary h ht hp hc hn
      · rw [removeFrom_none h.cp hp]
        exact ⟨_, rfl, hgo⟩
  · rw [if_neg hi]
    exact ⟨_, rfl, hgo⟩

theorem step_block (h : Inv s P B S J) {x : Nat} {ok : Bool} (ht : s.thread x = .waiting) :
    ∃ s', step s (.block x ok) = .ok s' ∧ After s P (.block x ok) s' := by
  have h1 := h.walkP
  have h3 := h.aliveP
  simp only [State.walk] at h1
  simp only [State.alive] at h3
  simp only [step, if_pos ht, State.walk, State.alive, h1, h3, if_true]
  have hip : ∀ o, s.obj x = some o → o.ipc = false → False := by
    intro o ho hi
    have := (h.ipc x o ho hi).2
    rw [ht] at this
    simp at this
  by_cases hp : x ∈ P
  · obtain ⟨n', p', hr, hc, hn⟩ := removeFrom_some h.cp hp h.dp (f := s.n + 1) (by have := h.lp; omega)
    simp only [hr]
    have hI := h.block hp ht hc hn
    have hsx : Good s P → ∀ o, s.obj x = some o → o.exit = false := fun hg o ho => hg.stay x o hp ho
    have hw : Good s P → ∀ y o, s.obj y = some o → o.exit = true →
        upd s.thread x (.blocked true) y ≠ .blocked true ∧ upd s.thread x (.blocked true) y ≠ .finishing true := by
      intro hg y o ho he
      by_cases e : y = x
      · subst e
        rw [hsx hg o ho] at he
        cases he
      · rw [upd_ne _ _ e]
        exact hg.was y o ho he
    by_cases hc2 : p' = none ∧ ok = true
    · rw [if_pos hc2]
      refine ⟨_, rfl, ?_⟩
      have he : P.erase x = [] := by rw [hc2.1] at hc; exact chain_none hc
      rw [he] at hI
      refine ⟨_, _, _, _, hI.create, fun _ hg => ?_⟩
      exact Good.create hg.idle (hw hg)
    · rw [if_neg hc2]
      refine ⟨_, rfl, _, _, _, _, hI, fun ha hg => ⟨hg.idle, ?_, ?_, ?_, hw hg⟩⟩
      · intro _ he
        rw [he] at hc
        exact hc2 ⟨hc, ha⟩
      · intro y hy
        have e : y ≠ x := fun e => not_mem_erase h.dp (e ▸ hy)
        simp only
        rw [upd_ne _ _ e]
        exact hg.serv y (List.mem_of_mem_erase hy)
      · exact fun y o hy => hg.stay y o (List.mem_of_mem_erase hy)
  · rw [removeFrom_none h.cp hp]
    exact ⟨_, rfl, h.goes (by simp [ht]) (by simp) (by simp [ht]) (by simp) (by simp)
      (fun o ho hi => (hip o ho hi).elim) (fun _ _ hx => absurd hx hp) (by simp)⟩

theorem step_back (h : Inv s P B S J) {x : Nat} (ht : s.thread x = .finishing true) :
    ∃ s', step s (.back x) = .ok s' ∧ After s P (.back x) s' := by
  have h1 := h.walkP
  have h2 := h.walkB
  have h3 := h.aliveP
  have h4 := h.aliveB
  simp only [State.walk] at h1 h2
  simp only [State.alive] at h3 h4
  obtain ⟨o, ho⟩ := h.thread (x := x) (by simp [ht])
  have hi : o.ipc = true := by
    cases hi : o.ipc with
    | true => rfl
    | false =>
      have := (h.ipc x o ho hi).2
      rw [ht] at this
      simp at this
  have hx : x ∈ B := h.was x (.inr ht)
  have hxp : x ∉ P := ((h.disj (x := x)).2 hx).1
  simp only [step, ht, ho, State.walk, State.alive, h1, h2, h3, h4, hi, and_self, if_true, maxPrimary]
  by_cases hl : 5 ≤ P.length
  · rw [if_pos hl]
    refine ⟨_, rfl, P, B, S, J, ?_, fun _ hg => ⟨hg.idle, hg.some, ?_, ?_, ?_⟩⟩
    · have hgo := h.go (x := x) (t := .reading) (by simp [ht]) (by simp) (by simp [ht]) (by simp) (by simp)
        (fun o' ho' hi' => by rw [ho] at ho'; cases ho'; rw [hi] at hi'; cases hi')
      have hex := hgo.exit (o := o) ho
      rw [hi] at hex
      exact hex
    · intro y hy
      have e : y ≠ x := fun e => hxp (e ▸ hy)
      simp only
      rw [upd_ne _ _ e]
      exact hg.serv y hy
    · intro y o' hy
      have e : y ≠ x := fun e => hxp (e ▸ hy)
      simp only
      rw [upd_ne _ _ e]
      exact hg.stay y o' hy
    · intro y o'
      simp only
      by_cases e : y = x
      · subst e; rw [upd_same, upd_same]; simp
      · rw [upd_ne _ _ e, upd_ne _ _ e]; exact hg.was y o'
  · rw [if_neg hl]
    obtain ⟨n', p', hr, hc, hn⟩ := removeFrom_some h.cb hx h.db (f := s.n + 1) (by have := h.lb; omega)
    simp only [hr, Option.getD_some]
    refine ⟨_, rfl, _, _, _, _, h.back ht (by omega) hc hn, fun _ hg => ⟨hg.idle, by simp, ?_, ?_, ?_⟩⟩
    · intro y hy
      simp only
      by_cases e : y = x
      · subst e; rw [upd_same]; simp
      · rw [upd_ne _ _ e]
        rcases List.mem_cons.1 hy with hy | hy
        · exact absurd hy e
        · exact hg.serv y hy
    · intro y o' hy ho'
      rcases List.mem_cons.1 hy with e | hy
      · subst e
        cases he : o'.exit with
        | false => rfl
        | true => exact absurd ht (hg.was y o' ho' he).2
      · exact hg.stay y o' hy ho'
    · intro y o' ho' he
      simp only
      by_cases e : y = x
      · subst e; rw [upd_same]; simp
      · rw [upd_ne _ _ e]; exact hg.was y o' ho' he

theorem step_stop (h : Inv s P B S J) {b : Option Nat} (hc : Calm s (.stop b)) :
    step s (.stop b) = .no ∨ ∃ s', step s (.stop b) = .ok s' ∧ After s P (.stop b) s' := by
  have hcs := h.cs
  have hdi := h.disp
  cases hs : s.stop with
  | list _ _ _ => exact .inl (by simp only [step, hs])
  | join _ _ _ _ => exact .inl (by simp only [step, hs])
  | idle =>
    rw [hs] at hcs hdi
    obtain ⟨rfl, rfl⟩ := hcs
    cases b with
    | none =>
      right
      obtain ⟨s', h1, h2⟩ := h.collect (t := s.thread) (b := none) (fun _ => rfl) (fun _ h => h) hc
        (fun x o ho hi => (h.ipc x o ho hi).2) hdi
      refine ⟨s', ?_, _, _, _, _, h2, fun ha => ha.elim⟩
      simp only [step, hs]
      exact h1
    | some b =>
      by_cases ht : s.thread b = .reading
      · right
        obtain ⟨s', h1, h2⟩ := h.collect (t := upd s.thread b .disposing) (b := some b) (by
            intro x
            by_cases e : x = b
            · subst e; rw [upd_same, ht]; rfl
            · rw [upd_ne _ _ e]) (by
            intro x hx
            have e : x ≠ b := fun e => by subst e; rw [ht] at hx; cases hx
            rw [upd_ne _ _ e]
            exact hx) (by
            intro x
            by_cases e : x = b
            · subst e; rw [upd_same]; simp
            · rw [upd_ne _ _ e]; exact hc x) (by
            intro x o ho hi
            have := (h.ipc x o ho hi).2
            have e : x ≠ b := fun e => by subst e; rw [ht] at this; simp at this
            rw [upd_ne _ _ e]
            exact this) (by
            intro x
            by_cases e : x = b
            · subst e; rw [upd_same]; simp
            · rw [upd_ne _ _ e, hdi x]
              simp [Stop.who, Ne.symm e])
        refine ⟨s', ?_, _, _, _, _, h2, fun ha => ha.elim⟩
        simp only [step, hs, if_pos ht]
        exact h1
      · exact .inl (by simp only [step, hs, if_neg ht])

theorem step_pop (h : Inv s P B S J) :
    step s .pop = .no ∨ ∃ s', step s .pop = .ok s' ∧ After s P .pop s' := by
  have hcs := h.cs
  have hdi := h.disp
  cases hs : s.stop with
  | idle => exact .inl (by simp only [step, hs])
  | join _ _ _ _ => exact .inl (by simp only [step, hs])
  | list b a t =>
    rw [hs] at hcs hdi
    cases t with
    | none => exact .inl (by simp only [step, hs])
    | some x =>
      right
      obtain ⟨hch, rfl⟩ := hcs
      cases S with
      | nil => cases hch
      | cons y S =>
        obtain ⟨hy, hch⟩ := hch
        cases hy
        obtain ⟨o, ho, _⟩ := h.alive (x := x) (by simp only [lists, List.count_cons_self]; omega)
        simp only [step, hs, ho]
        have hx := h.once x
        simp only [lists, List.count_cons_self, List.count_nil] at hx
        have hxp : x ∉ P := List.count_eq_zero.1 (by omega)
        have hxb : x ∉ B := List.count_eq_zero.1 (by omega)
        have hxs : x ∉ S := List.count_eq_zero.1 (by omega)
        have hl : ∀ y, lists P B S [x] y = lists P B (x :: S) [] y := by
          intro y
          simp only [lists, List.count_cons, List.count_nil]
          omega
        refine ⟨_, rfl, P, B, S, [x], ⟨(chain_upd hxp).2 h.cp, (chain_upd hxb).2 h.cb, ⟨(chain_upd hxs).2 hch, rfl⟩,
          fun y => by rw [hl]; exact h.once y, h.fresh, fun y => by rw [hl]; exact h.refs y, h.pos, h.limit, h.was,
          ?_, h.ipc, hdi⟩, fun _ hg => by have := hg.idle; rw [hs] at this; cases this⟩
        intro y o' hy
        refine h.exits y o' ?_
        simp only [List.count_cons, List.count_nil] at hy ⊢
        omega

theorem step_joined (h : Inv s P B S J) :
    step s .joined = .no ∨ ∃ s', step s .joined = .ok s' ∧ After s P .joined s' := by
  have hcs := h.cs
  have hdi := h.disp
  cases hs : s.stop with
  | idle => exact .inl (by simp only [step, hs])
  | list _ _ _ => exact .inl (by simp only [step, hs])
  | join b a t x =>
    rw [hs] at hcs hdi
    obtain ⟨hch, rfl⟩ := hcs
    by_cases hb : b = some x ∨ s.thread x = .gone
    · right
      obtain ⟨o, ho, _⟩ := h.alive (x := x) (by simp only [lists, List.count_cons_self]; omega)
      simp only [step, hs, if_pos hb, ho]
      have he : o.exit = true := h.exits x o (by simp only [List.count_cons_self]; omega) ho
      have ht : s.thread x = .gone ∨ s.thread x = .disposing := by
        rcases hb with hb | hb
        · exact .inr ((hdi x).2 hb)
        · exact .inl hb
      refine unref_after (P' := P) (B' := B) (S' := S) (J' := []) h.cp h.cb ⟨hch, rfl⟩ ?_ ?_ ?_ ?_ h.limit h.was ?_ ?_ hdi
        (fun _ hg => by have := hg.idle; rw [hs] at this; cases this)
      · intro y
        have := h.once y
        simp only [lists, List.count_nil] at this ⊢
        omega
      · intro y hy
        have h1 := h.fresh y hy
        refine ⟨h1.1, ?_⟩
        have e : y ≠ x := fun e => by subst e; rw [ho] at h1; cases h1.2
        simp only
        rw [upd_ne _ _ e]
        exact h1.2
      · intro y
        have h1 := h.refs y
        have h2 : (upd s.obj x (some { o with ipc := false }) y).map (·.refs) = (s.obj y).map (·.refs) := by
          by_cases e : y = x
          · subst e; rw [upd_same, ho]; rfl
          · rw [upd_ne _ _ e]
        simp only [refsOf, thr, lists, List.count_cons, List.count_nil, beq_iff_eq, eq_comm (a := x), h2] at h1 ⊢
        omega
      · intro y o'
        simp only
        by_cases e : y = x
        · subst e; rw [upd_same]; intro h1; cases h1; exact h.pos y o ho
        · rw [upd_ne _ _ e]; exact h.pos y o'
      · intro y o' hy
        simp only
        by_cases e : y = x
        · subst e; rw [upd_same]; intro h1; cases h1; exact he
        · rw [upd_ne _ _ e]
          refine h.exits y o' ?_
          simp only [List.count_nil] at hy
          omega
      · intro y o'
        simp only
        by_cases e : y = x
        · subst e
          rw [upd_same]
          intro h1 _
          cases h1
          refine ⟨he, ?_⟩
          rcases ht with ht | ht <;> simp [ht]
        · rw [upd_ne _ _ e]; exact h.ipc y o'
    · exact .inl (by simp only [step, hs, if_neg hb])

theorem step_again (h : Inv s P B S J) (hc : Calm s .again) :
    step s .again = .no ∨ ∃ s', step s .again = .ok s' ∧ After s P .again s' := by
  have hcs := h.cs
  have hdi := h.disp
  cases hs : s.stop with
  | idle => exact .inl (by simp only [step, hs])
  | join _ _ _ _ => exact .inl (by simp only [step, hs])
  | list b a t =>
    rw [hs] at hcs hdi
    cases t with
    | some x => exact .inl (by simp only [step, hs])
    | none =>
      right
      obtain ⟨hch, rfl⟩ := hcs
      have := chain_none hch
      subst this
      have hg0 : ∀ {Q : Prop}, Good s P → Q := fun hg => by have := hg.idle; rw [hs] at this; cases this
      cases a with
      | true =>
        obtain ⟨s', h1, h2⟩ := h.collect (t := s.thread) (b := b) (fun _ => rfl) (fun _ h => h) hc
          (fun x o ho hi => (h.ipc x o ho hi).2) hdi
        refine ⟨s', ?_, _, _, _, _, h2, fun _ => hg0⟩
        simp only [step, hs, if_true]
        exact h1
      | false =>
        simp only [step, hs]
        refine ⟨_, rfl, P, B, [], [], ?_, fun _ => hg0⟩
        cases b with
        | none => exact ⟨h.cp, h.cb, ⟨rfl, rfl⟩, h.once, h.fresh, h.refs, h.pos, h.limit, h.was, h.exits, h.ipc, hdi⟩
        | some b =>
          have ht : s.thread b = .disposing := (hdi b).2 rfl
          refine ⟨h.cp, h.cb, ⟨rfl, rfl⟩, h.once, ?_, ?_, h.pos, h.limit, ?_, h.exits, ?_, ?_⟩
          · intro y hy
            have h1 := h.fresh y hy
            have e : y ≠ b := fun e => by subst e; rw [ht] at h1; cases h1.1
            simp only
            rw [upd_ne _ _ e]
            exact h1
          · intro y
            have h1 := h.refs y
            have h2 : (upd s.thread b .loop y).refs = (s.thread y).refs := by
              by_cases e : y = b
              · subst e; rw [upd_same, ht]; rfl
              · rw [upd_ne _ _ e]
            simp only [refsOf, thr, h2] at h1 ⊢
            exact h1
          · intro y
            simp only
            by_cases e : y = b
            · subst e; rw [upd_same]; simp
            · rw [upd_ne _ _ e]; exact h.was y
          · intro y o ho hi
            have h1 := h.ipc y o ho hi
            refine ⟨h1.1, ?_⟩
            simp only
            by_cases e : y = b
            · subst e; rw [upd_same]; simp
            · rw [upd_ne _ _ e]; exact h1.2
          · intro y
            simp only [Stop.who]
            by_cases e : y = b
            · subst e; rw [upd_same]; simp
            · rw [upd_ne _ _ e, hdi y]; simp [Stop.who, Ne.symm e]

/-- One step. -/
theorem step_ok (h : Inv s P B S J) {l : Label} (hc : Calm s l) :
    step s l = .no ∨ ∃ s', step s l = .ok s' ∧ After s P l s' := by
  have hip : ∀ x, (s.thread x = .starting ∨ s.thread x = .reading ∨ s.thread x = .waiting ∨
      (∃ w, s.thread x = .blocked w) ∨ ∃ w, s.thread x = .finishing w) →
      ∀ o, s.obj x = some o → o.ipc = false → False := by
    intro x ht o ho hi
    have := (h.ipc x o ho hi).2
    rcases ht with ht | ht | ht | ⟨w, ht⟩ | ⟨w, ht⟩ <;> (rw [ht] at this; simp at this)
  cases l with
  | check ok =>
    right
    simp only [step]
    by_cases hc : s.primary = none ∧ ok = true
    · rw [if_pos hc]
      have hp := h.cp
      rw [hc.1] at hp
      have := chain_none hp
      subst this
      exact ⟨_, rfl, _, _, _, _, h.create, fun _ hg => Good.create hg.idle hg.was⟩
    · rw [if_neg hc]
      exact ⟨_, rfl, _, _, _, _, h, fun _ hg => hg⟩
  | release x =>
    simp only [step]
    split
    · rename_i hx; exact .inr (step_release h hx)
    · exact .inl rfl
  | start x ok =>
    simp only [step]
    split
    · rename_i ht
      obtain ⟨o, ho⟩ := h.thread (x := x) (by simp [ht])
      simp only [ho]
      refine .inr ⟨_, rfl, h.goes (by simp [ht]) (by cases ok <;> simp) (by simp [ht]) (by cases ok <;> simp)
        (by cases ok <;> simp) (by cases ok <;> simp) (fun ha _ _ => ?_) (by cases ok <;> simp)⟩
      rw [show ok = true from ha]; simp
    · exact .inl rfl
  | poll x =>
    simp only [step]
    split
    · rename_i ht
      obtain ⟨o, ho⟩ := h.thread (x := x) (by simp [ht])
      simp only [ho]
      split
      · exact .inl rfl
      · rename_i he
        refine .inr ⟨_, rfl, h.goes (by simp [ht]) (by simp) (by simp [ht]) (by simp) (by simp) (fun o' ho' hi => ?_)
          (fun _ _ _ => by simp) (by simp)⟩
        rw [ho] at ho'
        cases ho'
        exact absurd (h.ipc x o ho hi).1 he
    · exact .inl rfl
  | idle x =>
    simp only [step]
    split
    · rename_i ht
      exact .inr ⟨_, rfl, h.goes (by simp [ht]) (by simp) (by simp [ht]) (by simp) (by simp) (by simp)
        (fun _ _ _ => by simp) (by simp)⟩
    · exact .inl rfl
  | begin x =>
    simp only [step]
    split
    · rename_i ht
      obtain ⟨o, ho⟩ := h.thread (x := x) (by simp [ht])
      have hi : o.ipc = true := by
        cases hi : o.ipc with
        | true => rfl
        | false => exact (hip x (.inr (.inl ht)) o ho hi).elim
      simp only [ho, hi, if_true]
      exact .inr ⟨_, rfl, h.goes (by simp [ht]) (by simp) (by simp [ht]) (by simp) (by simp)
        (fun o ho hi => (hip x (.inr (.inl ht)) o ho hi).elim) (fun _ _ _ => by simp) (by simp)⟩
    · exact .inl rfl
  | done x =>
    simp only [step]
    split
    · rename_i ht
      exact .inr ⟨_, rfl, h.goes (by simp [ht]) (by simp) (by simp [ht]) (by simp) (by simp)
        (fun o ho hi => (hip x (.inr (.inr (.inl ht))) o ho hi).elim) (fun _ _ _ => by simp) (by simp)⟩
    · exact .inl rfl
  | block x ok =>
    by_cases ht : s.thread x = .waiting
    · exact .inr (step_block h ht)
    · exact .inl (by simp only [step, if_neg ht])
  | unblock x =>
    simp only [step]
    split
    · rename_i w ht
      refine .inr ⟨_, rfl, h.goes (by simp [ht]) (by simp) (by simp [ht]) (by simp) (fun hw => ?_)
        (fun o ho hi => (hip x (.inr (.inr (.inr (.inl ⟨w, ht⟩)))) o ho hi).elim) (fun _ hg hx => ?_)
        (fun hg o ho he => ?_)⟩
      · refine h.was x (.inl ?_)
        rw [ht]
        simp at hw
        rw [hw]
      · have := hg.serv x hx
        rw [ht] at this
        simp at this
      · have := hg.was x o ho he
        rw [ht] at this
        simp at this ⊢
        exact this
    · exact .inl rfl
  | back x =>
    cases ht : s.thread x with
    | finishing w =>
      right
      cases w with
      | true => exact step_back h ht
      | false =>
        simp only [step, ht]
        exact ⟨_, rfl, h.goes (by simp [ht]) (by simp) (by simp [ht]) (by simp) (by simp)
          (fun o ho hi => (hip x (.inr (.inr (.inr (.inr ⟨_, ht⟩)))) o ho hi).elim) (fun _ _ _ => by simp) (by simp)⟩
    | _ => exact .inl (by simp only [step, ht])
  | leave x =>
    simp only [step]
    split
    · rename_i ht
      refine .inr ⟨_, rfl, h.goes (by simp [ht]) (by simp) (by simp [ht]) (by simp) (by simp) (by simp)
        (fun ha hg hx => ?_) (by simp)⟩
      obtain ⟨o, ho, he⟩ := ha
      rw [hg.stay x o hx ho] at he
      cases he
    · exact .inl rfl
  | remove x =>
    by_cases ht : s.thread x = .leaving
    · exact .inr (step_remove h ht)
    · exact .inl (by simp only [step, if_neg ht])
  | last x =>
    simp only [step]
    split
    · rename_i ht; exact .inr (step_last h ht)
    · exact .inl rfl
  | stop b => exact step_stop h hc
  | pop => exact step_pop h
  | joined => exact step_joined h
  | again => exact step_again h hc

end

/-- As long as the loopers are stopped when none of them is blocked. -/
theorem reach_inv {s : State} (h : ReachIf step Calm {} s) : ∃ P B S J, Inv s P B S J := by
  induction h with
  | init => exact ⟨_, _, _, _, Inv.init⟩
  | step l _ hc hs ih =>
    obtain ⟨P, B, S, J, hi⟩ := ih
    rcases step_ok hi hc with h1 | ⟨s', h1, P', B', S', J', h2, _⟩
    · rw [h1] at hs; cases hs
    · rw [h1] at hs; cases hs; exact ⟨_, _, _, _, h2⟩

theorem reach_good {s : State} (h : ReachIf step Healthy {} s) :
    ∃ P B S J, Inv s P B S J ∧ Good s P := by
  induction h with
  | init =>
    exact ⟨_, _, _, _, Inv.init, rfl, fun h => by simp at h, fun x hx => by simp at hx,
      fun x o hx => by simp at hx, fun x o ho => by cases ho⟩
  | @step s0 _ l _ ha hs ih =>
    obtain ⟨P, B, S, J, hi, hg⟩ := ih
    have hc : Calm s0 l := by
      cases l with
      | stop b => exact ha.elim
      | again => simp only [step, hg.idle] at hs; cases hs
      | _ => trivial
    rcases step_ok hi hc with h1 | ⟨s', h1, P', B', S', J', h2, h3⟩
    · rw [h1] at hs; cases hs
    · rw [h1] at hs; cases hs; exact ⟨_, _, _, _, h2, h3 ha hg⟩

end Gb.Loopers
