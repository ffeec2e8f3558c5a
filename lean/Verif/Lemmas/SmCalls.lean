import Verif.Spec.SmCalls
import Verif.Lemmas.AsyncFacts
import Verif.Lemmas.Proxy
/-
Asynchronous calls to the service manager.
-/
set_option autoImplicit false

namespace Gb.SmCalls

open Async (Before After Facts)
open Buffers (total total_congr le_total)
open Proxy (total_upd_of total_new)

theorem call_append (p : Nat) (log evs : List Ev) :
    call p (log ++ evs) = evs.foldl (fun o e => o.bind (·.next p e)) (call p log) := by
  simp [call, List.foldl_append]

theorem array_append (n : Nat) (log evs : List Ev) :
    array n (log ++ evs) = evs.foldl (fun o e => o.bind (·.next n e)) (array n log) := by
  simp [array, List.foldl_append]

/-- The events which have something to do with calls. -/
def Ev.who : Ev → Option Nat
  | .asked p _ _ | .cancelled p | .performed p _ _ | .told p _ | .freed p => some p
  | _ => none

theorem call_other {p : Nat} {evs : List Ev} (h : ∀ e ∈ evs, e.who ≠ some p) (log : List Ev) : call p (log ++ evs) = call p log := by
  rw [call_append]
  generalize call p log = o
  induction evs generalizing o with
  | nil => rfl
  | cons e evs ih =>
    rw [List.foldl_cons, ih (fun e' he => h e' (by simp [he]))]
    have := h e (by simp)
    cases o with
    | none => rfl
    | some c => cases e <;> simp [Ev.who] at this <;> simp [Call.next, this]

/-- The lists which have something to do with the event. -/
def Ev.lists : Ev → Option Nat
  | .performed _ _ r | .told _ r => r.names
  | .kept n | .released n => some n
  | _ => none

theorem array_other {n : Nat} {evs : List Ev} (h : ∀ e ∈ evs, e.lists ≠ some n) (log : List Ev) :
    array n (log ++ evs) = array n log := by
  rw [array_append]
  generalize array n log = o
  induction evs generalizing o with
  | nil => rfl
  | cons e evs ih =>
    rw [List.foldl_cons, ih (fun e' he => h e' (by simp [he]))]
    have := h e (by simp)
    cases o with
    | none => rfl
    | some c => cases e <;> simp [Ev.lists] at this <;> simp [Arr.next, this]

/-! ### Calls -/

def Fits (d : Data) : Option Result → Bool → Prop
  | none, told => told = false ∧ d.res = {}
  | some x, false => d.res = x
  | some x, true => d.res = { x with names := none }

structure CallOk (s : State) (p : Nat) : Prop where
  same : s.data p = none ↔ s.tx.txs p = none
  new : s.tx.calls ≤ p → call p s.log = some .new
  gone : p < s.tx.calls → s.data p = none → call p s.log = some .gone
  live : ∀ d t, s.data p = some d → s.tx.txs p = some t → ∃ r told, call p s.log = some (.live d.what r told t.cancelled) ∧
    (Before s.tx p → r = none) ∧ (After s.tx p → told = false ∧ (t.cancelled = false → r ≠ none)) ∧ Fits d r told

theorem CallOk.other {s s' : State} {q : Nat} (h : CallOk s q) (hd : s'.data q = s.data q) (ht : s'.tx.txs q = s.tx.txs q)
    (hc : s'.tx.calls = s.tx.calls) (hb : Before s'.tx q → Before s.tx q) (ha : After s'.tx q → After s.tx q) {evs : List Ev}
    (hl : s'.log = s.log ++ evs) (he : ∀ e ∈ evs, e.who ≠ some q) : CallOk s' q := by
  have hcall : call q s'.log = call q s.log := by rw [hl]; exact call_other he _
  constructor
  · rw [hd, ht]; exact h.same
  · rw [hc, hcall]; exact h.new
  · rw [hc, hd, hcall]; exact h.gone
  · intro d t h1 h2
    rw [hd] at h1
    rw [ht] at h2
    obtain ⟨r, told, a, b, c, f⟩ := h.live d t h1 h2
    exact ⟨r, told, by rw [hcall]; exact a, fun x => b (hb x), fun x => c (ha x), f⟩

/-! ### Lists of names -/

structure Arrs (s : State) : Prop where
  own : ∀ p d n, s.data p = some d → d.res.names = some n → n < s.narrays ∧ s.arrays n = true ∧ array n s.log = some (.ours p false)
  ours : ∀ n, s.arrays n = true → n < s.narrays ∧ ∃ p d, s.data p = some d ∧ d.res.names = some n
  alt : ∀ n, s.narrays ≤ n → array n s.log = some .absent
  done : ∀ n, s.arrays n = false → array n s.log = some .absent ∨ array n s.log = some .theirs ∨ array n s.log = some .freed

/-- Nothing happens to the lists. -/
theorem Arrs.same {s s' : State} (h : Arrs s) {evs : List Ev} (hl : s'.log = s.log ++ evs) (he : ∀ e ∈ evs, e.lists = none)
    (ha : s'.arrays = s.arrays) (hn : s'.narrays = s.narrays)
    (h1 : ∀ p d n, s'.data p = some d → d.res.names = some n → ∃ d', s.data p = some d' ∧ d'.res.names = some n)
    (h2 : ∀ p d n, s.data p = some d → d.res.names = some n → ∃ d', s'.data p = some d' ∧ d'.res.names = some n) : Arrs s' := by
  have harr : ∀ n, array n s'.log = array n s.log := by
    intro n
    rw [hl]
    exact array_other (fun e hm => by rw [he e hm]; simp) _
  constructor
  · intro p d n hd hr
    obtain ⟨d', a, b⟩ := h1 p d n hd hr
    rw [hn, ha, harr]
    exact h.own p d' n a b
  · intro n hx
    rw [ha] at hx
    rw [hn]
    obtain ⟨hlt, p, d, a, b⟩ := h.ours n hx
    obtain ⟨d', a', b'⟩ := h2 p d n a b
    exact ⟨hlt, p, d', a', b'⟩
  · intro n; rw [hn, harr]; exact h.alt n
  · intro n; rw [ha, harr]; exact h.done n

/-! ### References -/

def refsOf (r : Ref) : Option Data → Nat
  | none => 0
  | some d => d.holds.count r

structure Refs (s : State) : Prop where
  held : ∀ r, s.held r = total (fun p => refsOf r (s.data p)) s.tx.calls
  bal : ∀ r, s.log.count (.ref r) = s.log.count (.unref r) + s.held r
  lt : ∀ p d, s.data p = some d → p < s.tx.calls

theorem count_ref_map (l : List Ref) (r : Ref) : (l.map Ev.ref).count (.ref r) = l.count r := by
  induction l with
  | nil => rfl
  | cons a l ih => simp [List.count_cons, ih]

theorem count_unref_map (l : List Ref) (r : Ref) : (l.map Ev.unref).count (.unref r) = l.count r := by
  induction l with
  | nil => rfl
  | cons a l ih => simp [List.count_cons, ih]

theorem count_unref_ref (l : List Ref) (r : Ref) : (l.map Ev.ref).count (.unref r) = 0 := by
  induction l with
  | nil => rfl
  | cons a l ih => simp [List.count_cons, ih]

theorem count_ref_unref (l : List Ref) (r : Ref) : (l.map Ev.unref).count (.ref r) = 0 := by
  induction l with
  | nil => rfl
  | cons a l ih => simp [List.count_cons, ih]

/-- Is it a reference, or one less? -/
def Ev.plain : Ev → Bool
  | .ref _ | .unref _ => false
  | _ => true

theorem count_plain {evs : List Ev} (h : ∀ e ∈ evs, e.plain = true) (r : Ref) : evs.count (.ref r) = 0 ∧ evs.count (.unref r) = 0 := by
  constructor
  · refine List.count_eq_zero.2 fun hm => ?_
    have := h _ hm
    cases this
  · refine List.count_eq_zero.2 fun hm => ?_
    have := h _ hm
    cases this

theorem Refs.use {s : State} (h : Refs s) {p : Nat} {d : Data} (hd : s.data p = some d) (r : Ref) : d.holds.count r ≤ s.held r := by
  rw [h.held]
  have := le_total (f := fun p => refsOf r (s.data p)) (h.lt p d hd)
  simpa [hd, refsOf] using this

theorem Refs.used {s : State} (h : Refs s) {p : Nat} {d : Data} (hd : s.data p = some d) : ∀ r ∈ d.holds, 0 < s.held r := by
  intro r hr
  have := h.use hd r
  have := List.count_pos_iff.2 hr
  omega

/-- Nothing happens to the references. -/
theorem Refs.same {s s' : State} (h : Refs s) {evs : List Ev} (hl : s'.log = s.log ++ evs) (he : ∀ e ∈ evs, e.plain = true)
    (hh : s'.held = s.held) (hc : s'.tx.calls = s.tx.calls) (hd : ∀ p, (s'.data p).map Data.holds = (s.data p).map Data.holds) : Refs s' := by
  have hr : ∀ r p, refsOf r (s'.data p) = refsOf r (s.data p) := by
    intro r p
    have := hd p
    cases h1 : s'.data p <;> cases h2 : s.data p <;> simp [h1, h2] at this <;> simp [refsOf, this]
  constructor
  · intro r
    rw [hh, hc, h.held]
    exact total_congr fun p _ => (hr r p).symm
  · intro r
    obtain ⟨a, b⟩ := count_plain he r
    rw [hl, hh, List.count_append, List.count_append, a, b]
    have := h.bal r
    omega
  · intro p d hp
    rw [hc]
    have := hd p
    cases h2 : s.data p with
    | none => simp [hp, h2] at this
    | some d' => exact h.lt p d' h2

structure Inv (s : State) : Prop where
  facts : Facts s.tx
  calls : ∀ p, CallOk s p
  arrs : Arrs s
  refs : Refs s

theorem Inv.init : Inv {} := by
  refine ⟨Facts.of_reach Reach.init, ?_, ?_, ?_⟩
  · intro p
    constructor <;> simp [call]
  · constructor <;> simp [array]
  · constructor <;> simp [Buffers.total]

theorem Inv.data {s : State} (h : Inv s) {p : Nat} {t : Async.Tx} (ht : s.tx.txs p = some t) : ∃ d, s.data p = some d := by
  cases hd : s.data p with
  | some d => exact ⟨d, rfl⟩
  | none => rw [(h.calls p).same.1 hd] at ht; cases ht

/-- Only the transactions move. -/
theorem Inv.moves {s : State} (h : Inv s) {l : Async.Label} {tx : Async.State} (hs : Async.step s.tx l = .ok tx)
    (ht : tx.txs = s.tx.txs) (hc : tx.calls = s.tx.calls) (hb : ∀ q, Before tx q → Before s.tx q)
    (ha : ∀ q, After tx q → After s.tx q ∨ (Before s.tx q ∧ ∃ t, s.tx.txs q = some t ∧ t.cancelled = true)) :
    Inv { s with tx := tx } := by
  refine ⟨h.facts.step hs, ?_, ?_, ?_⟩
  · intro q
    have hq := h.calls q
    constructor
    · show s.data q = none ↔ tx.txs q = none
      rw [ht]; exact hq.same
    · show tx.calls ≤ q → _
      rw [hc]; exact hq.new
    · show q < tx.calls → _
      rw [hc]; exact hq.gone
    · intro d t h1 (h2 : tx.txs q = some t)
      rw [ht] at h2
      obtain ⟨r, told, a, b, c, f⟩ := hq.live d t h1 h2
      refine ⟨r, told, a, fun x => b (hb q x), fun x => ?_, f⟩
      rcases ha q x with x | ⟨x, t', y, z⟩
      · exact c x
      · rw [h2] at y
        cases y
        have := b x
        subst this
        exact ⟨f.1, fun e => by rw [z] at e; cases e⟩
  · exact h.arrs.same (evs := []) (by simp) (by simp) rfl rfl (fun p d n a b => ⟨d, a, b⟩) (fun p d n a b => ⟨d, a, b⟩)
  · exact h.refs.same (evs := []) (by simp) (by simp) rfl hc (fun _ => rfl)

theorem Inv.ask {s : State} (h : Inv s) {tx : Async.State} (hs : Async.step s.tx .submit = .ok tx) (sm : Nat) (w : What) :
    Inv ({ s.take (Data.holds { sm := sm, what := w }) with
      tx := tx, data := upd s.data s.tx.calls (some { sm := sm, what := w }) }.see [.asked s.tx.calls sm w]) := by
  obtain ⟨⟨id, htx⟩, hc, hb, ha, _⟩ := Async.submit_facts hs
  have hlog : ({ s.take (Data.holds { sm := sm, what := w }) with
      tx := tx, data := upd s.data s.tx.calls (some { sm := sm, what := w }) }.see [.asked s.tx.calls sm w]).log =
      s.log ++ ((Data.holds { sm := sm, what := w }).map Ev.ref ++ [.asked s.tx.calls sm w]) := by
    simp [State.see, State.take]
  have hnone : s.data s.tx.calls = none := (h.calls _).same.2 (h.facts.tab.fresh _ (Nat.le_refl _))
  refine ⟨h.facts.step hs, ?_, ?_, ?_⟩
  · intro q
    have hq := h.calls q
    by_cases hqc : q = s.tx.calls
    · subst hqc
      have hcall : call s.tx.calls (s.log ++ ((Data.holds { sm := sm, what := w }).map Ev.ref ++ [.asked s.tx.calls sm w])) =
          some (.live w none false false) := by
        rw [← List.append_assoc, call_append, call_other (by simp [Ev.who]), hq.new (Nat.le_refl _)]
        simp [Call.next]
      constructor
      · simp [State.see, htx, upd_same]
      · intro hle
        simp only [State.see, State.take, hc] at hle
        omega
      · intro _ hn
        simp [State.see, upd_same] at hn
      · intro d t h1 h2
        simp only [State.see, htx, upd_same] at h1 h2
        cases h1
        cases h2
        refine ⟨none, false, ?_, fun _ => rfl, fun hx => ?_, rfl, rfl⟩
        · rw [hlog]; exact hcall
        · have hx : After s.tx s.tx.calls := (ha _).1 hx
          obtain ⟨t, ht⟩ := h.facts.alive (.inr (.inl hx))
          rw [h.facts.tab.fresh _ (Nat.le_refl _)] at ht
          cases ht
    · have hcall : call q (s.log ++ ((Data.holds { sm := sm, what := w }).map Ev.ref ++ [.asked s.tx.calls sm w])) = call q s.log := by
        refine call_other ?_ _
        intro e he
        rcases List.mem_append.1 he with he | he
        · simp only [List.mem_map] at he
          obtain ⟨_, _, rfl⟩ := he
          simp [Ev.who]
        · simp only [List.mem_singleton] at he
          subst he
          simp [Ev.who]
          exact fun e => hqc e.symm
      constructor
      · simp only [State.see, htx, upd_ne _ _ hqc]; exact hq.same
      · intro hle
        simp only [State.see, State.take, hc] at hle
        rw [hlog, hcall]
        exact hq.new (by omega)
      · intro hle hn
        simp only [State.see, State.take, hc] at hle
        simp only [State.see, upd_ne _ _ hqc] at hn
        rw [hlog, hcall]
        exact hq.gone (by omega) hn
      · intro d t h1 h2
        simp only [State.see, htx, upd_ne _ _ hqc] at h1 h2
        obtain ⟨r, told, a, b, c, f⟩ := hq.live d t h1 h2
        refine ⟨r, told, by rw [hlog, hcall]; exact a, fun x => ?_, fun x => c ((ha q).1 x), f⟩
        rcases (hb q).1 x with x | x
        · exact b x
        · exact absurd x hqc
  · refine h.arrs.same hlog ?_ rfl rfl ?_ ?_
    · intro e he
      rcases List.mem_append.1 he with he | he
      · simp only [List.mem_map] at he
        obtain ⟨_, _, rfl⟩ := he
        rfl
      · simp only [List.mem_singleton] at he
        subst he
        rfl
    · intro p d n h1 h2
      by_cases hp : p = s.tx.calls
      · subst hp
        simp only [State.see, upd_same] at h1
        cases h1
        cases h2
      · simp only [State.see, upd_ne _ _ hp] at h1
        exact ⟨d, h1, h2⟩
    · intro p d n h1 h2
      have hp : p ≠ s.tx.calls := by rintro rfl; rw [hnone] at h1; cases h1
      exact ⟨d, by simp only [State.see, upd_ne _ _ hp]; exact h1, h2⟩
  · constructor
    · intro r
      show s.held r + (Data.holds { sm := sm, what := w }).count r =
        total (fun p => refsOf r (upd s.data s.tx.calls (some { sm := sm, what := w }) p)) tx.calls
      rw [hc, total_new, h.refs.held]
      rfl
    · intro r
      rw [hlog]
      show _ = _ + (s.held r + (Data.holds { sm := sm, what := w }).count r)
      have := h.refs.bal r
      simp only [List.count_append, count_ref_map, count_unref_ref]
      simp
      omega
    · intro p d hp
      show p < tx.calls
      rw [hc]
      by_cases hpc : p = s.tx.calls
      · omega
      · simp only [State.see, upd_ne _ _ hpc] at hp
        have := h.refs.lt p d hp
        omega

/-- Nothing happens, apart from this. -/
theorem Inv.refused {s : State} (h : Inv s) (w : What) : Inv (s.see [.refused w]) := by
  refine ⟨h.facts, fun q => ?_, ?_, ?_⟩
  · exact (h.calls q).other rfl rfl rfl id id (evs := [.refused w]) rfl (by simp [Ev.who])
  · exact h.arrs.same (evs := [.refused w]) rfl (by simp [Ev.lists]) rfl rfl (fun p d n a b => ⟨d, a, b⟩) (fun p d n a b => ⟨d, a, b⟩)
  · exact h.refs.same (evs := [.refused w]) rfl (by simp [Ev.plain]) rfl rfl (fun _ => rfl)

theorem Inv.cancel {s : State} (h : Inv s) {id p : Nat} {tx : Async.State} {t : Async.Tx} (hs : Async.step s.tx (.cancel id) = .ok tx)
    (hc : tx.calls = s.tx.calls) (hb : ∀ q, Before tx q ↔ Before s.tx q) (ha : ∀ q, After tx q ↔ After s.tx q)
    (ht : s.tx.txs p = some t) (htx : tx.txs = upd s.tx.txs p (some { t with cancelled := true })) :
    Inv ({ s with tx := tx }.see [.cancelled p]) := by
  refine ⟨h.facts.step hs, fun q => ?_, ?_, ?_⟩
  · by_cases hq : q = p
    · subst hq
      have hp := h.calls q
      obtain ⟨d, hd⟩ := h.data ht
      obtain ⟨r, told, a, b, c, f⟩ := hp.live d t hd ht
      constructor
      · simp [State.see, htx, upd_same, hd]
      · intro hle
        simp only [State.see, hc] at hle
        rw [hp.new hle] at a
        cases a
      · intro _ hn
        simp [State.see, hd] at hn
      · intro d' t' h1 h2
        simp only [State.see, htx, upd_same] at h1 h2
        rw [hd] at h1
        cases h1
        cases h2
        refine ⟨r, told, ?_, fun x => b ((hb q).1 x), fun x => ⟨(c ((ha q).1 x)).1, by simp⟩, f⟩
        simp only [State.see, call_append, a]
        simp [Call.next]
    · refine (h.calls q).other rfl ?_ hc (hb q).1 (ha q).1 (evs := [.cancelled p]) rfl ?_
      · simp only [State.see, htx]
        rw [upd_ne _ _ hq]
      · simp [Ev.who]
        exact fun e => hq e.symm
  · exact h.arrs.same (evs := [.cancelled p]) rfl (by simp [Ev.lists]) rfl rfl (fun p d n a b => ⟨d, a, b⟩) (fun p d n a b => ⟨d, a, b⟩)
  · exact h.refs.same (evs := [.cancelled p]) rfl (by simp [Ev.plain]) rfl hc (fun _ => rfl)

end Gb.SmCalls
