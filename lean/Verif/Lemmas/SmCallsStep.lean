import Verif.Lemmas.SmCalls
/-
Asynchronous calls to the service manager, step by step.
-/
set_option autoImplicit false

namespace Gb.SmCalls

open Async (Before After Facts)
open Buffers (total total_congr le_total)
open Proxy (total_upd_of total_new)

theorem result_names {n : Nat} {w : What} {r : Reply} {x : Result} (h : result n w r = some x) : x.names = none ∨ x.names = some n := by
  cases w <;> cases r <;> simp [result] at h <;> subst h <;> simp

theorem holds_count (d : Data) (x : Result) (r : Ref) (hd : d.res.obj = none) :
    (Data.holds { d with res := x }).count r = d.holds.count r + (objRefs x.obj).count r := by
  simp only [Data.holds, hd, List.count_cons, List.count_append]
  simp [objRefs]
  omega

theorem drop_ok {s : State} {l : List Ref} (h : ∀ r ∈ l, l.count r ≤ s.held r) :
    s.drop l = .ok { s with held := fun r => s.held r - l.count r, log := s.log ++ l.map .unref } := if_pos h

theorem Inv.executed {s : State} (h : Inv s) {p : Nat} {tx : Async.State} (hs : Async.step s.tx (.executed p) = .ok tx)
    {d : Data} (hd : s.data p = some d) {rep : Reply} {x : Result} (hx : result s.narrays d.what rep = some x) :
    Inv ({ s.take (objRefs x.obj) with
      tx := tx
      arrays := if x.names = some s.narrays then upd s.arrays s.narrays true else s.arrays
      narrays := s.narrays + 1
      data := upd s.data p (some { d with res := x }) }.see [.performed p d.what x]) := by
  obtain ⟨hbp, htx, hc, hb, ha, _⟩ := Async.executed_facts h.facts hs
  obtain ⟨t, ht⟩ := h.facts.alive (.inl hbp)
  obtain ⟨r0, told0, hcall, hr0, _, hf⟩ := (h.calls p).live d t hd ht
  have hr0 := hr0 hbp
  subst hr0
  obtain ⟨rfl, hres⟩ := hf
  have hlog : ({ s.take (objRefs x.obj) with
      tx := tx
      arrays := if x.names = some s.narrays then upd s.arrays s.narrays true else s.arrays
      narrays := s.narrays + 1
      data := upd s.data p (some { d with res := x }) }.see [.performed p d.what x]).log =
      s.log ++ ((objRefs x.obj).map Ev.ref ++ [.performed p d.what x]) := by
    simp [State.see, State.take]
  have hwho : ∀ q, q ≠ p → ∀ e ∈ (objRefs x.obj).map Ev.ref ++ [Ev.performed p d.what x], e.who ≠ some q := by
    intro q hq e he
    rcases List.mem_append.1 he with he | he
    · simp only [List.mem_map] at he
      obtain ⟨_, _, rfl⟩ := he
      simp [Ev.who]
    · simp only [List.mem_singleton] at he
      subst he
      simp [Ev.who]
      exact fun e => hq e.symm
  refine ⟨h.facts.step hs, fun q => ?_, ?_, ?_⟩
  · by_cases hq : q = p
    · subst hq
      have hnew : call q (s.log ++ ((objRefs x.obj).map Ev.ref ++ [.performed q d.what x])) =
          some (.live d.what (some x) false t.cancelled) := by
        rw [← List.append_assoc, call_append, call_other (by simp [Ev.who]), hcall]
        simp [Call.next]
      constructor
      · simp [State.see, State.take, htx, ht, upd_same]
      · intro hle
        simp only [State.see, State.take, hc] at hle
        rw [(h.calls q).new hle] at hcall
        cases hcall
      · intro _ hn
        simp [State.see, upd_same] at hn
      · intro d' t' h1 h2
        simp only [State.see, State.take, htx, upd_same] at h1 h2
        cases h1
        rw [ht] at h2
        cases h2
        exact ⟨some x, false, by rw [hlog]; exact hnew, fun y => absurd rfl ((hb q).1 y).2, fun _ => ⟨rfl, by simp⟩, rfl⟩
    · refine (h.calls q).other ?_ (by simp only [State.see, State.take, htx]) hc (fun y => ((hb q).1 y).1) (fun y => ?_) hlog (hwho q hq)
      · simp only [State.see, State.take]
        rw [upd_ne _ _ hq]
      · rcases (ha q).1 y with y | y
        · exact y
        · exact absurd y hq
  · have harr : ∀ n, n ≠ s.narrays → array n (s.log ++ ((objRefs x.obj).map Ev.ref ++ [.performed p d.what x])) = array n s.log := by
      intro n hn
      refine array_other ?_ _
      intro e he
      rcases List.mem_append.1 he with he | he
      · simp only [List.mem_map] at he
        obtain ⟨_, _, rfl⟩ := he
        simp [Ev.lists]
      · simp only [List.mem_singleton] at he
        subst he
        simp only [Ev.lists]
        rcases result_names hx with h0 | h0 <;> rw [h0] <;> simp
        exact fun e => hn e.symm
    have harr0 : array s.narrays (s.log ++ ((objRefs x.obj).map Ev.ref ++ [.performed p d.what x])) =
        if x.names = some s.narrays then some (.ours p false) else some .absent := by
      rw [← List.append_assoc, array_append, array_other (by simp [Ev.lists]), h.arrs.alt _ (Nat.le_refl _)]
      simp only [List.foldl_cons, List.foldl_nil, Option.bind_some, Arr.next]
    have hdata : ∀ q d' n, upd s.data p (some { d with res := x }) q = some d' → d'.res.names = some n →
        (q = p ∧ n = s.narrays ∧ x.names = some s.narrays) ∨ (q ≠ p ∧ s.data q = some d') := by
      intro q d' n h1 h2
      by_cases hq : q = p
      · subst hq
        rw [upd_same] at h1
        cases h1
        rcases result_names hx with h0 | h0
        · simp only [h0] at h2; cases h2
        · simp only [h0] at h2; cases h2; exact .inl ⟨rfl, rfl, h0⟩
      · rw [upd_ne _ _ hq] at h1
        exact .inr ⟨hq, h1⟩
    constructor
    · intro q d' n h1 h2
      rw [hlog]
      rcases hdata q d' n h1 h2 with ⟨rfl, rfl, h3⟩ | ⟨hq, h3⟩
      · rw [harr0]
        simp only [State.see, State.take, h3, if_true, upd_same]
        exact ⟨by omega, trivial, trivial⟩
      · obtain ⟨a, b, c⟩ := h.arrs.own q d' n h3 h2
        rw [harr n (by omega)]
        refine ⟨?_, ?_, c⟩
        · simp only [State.see, State.take]; omega
        · simp only [State.see, State.take]
          split
          · rw [upd_ne _ _ (by omega)]; exact b
          · exact b
    · intro n hn
      have hn : (if x.names = some s.narrays then upd s.arrays s.narrays true else s.arrays) n = true := hn
      have hold : s.arrays n = true → n < s.narrays + 1 ∧ ∃ q d', upd s.data p (some { d with res := x }) q = some d' ∧ d'.res.names = some n := by
        intro hn
        obtain ⟨hlt, q, d', a, b⟩ := h.arrs.ours n hn
        have hq : q ≠ p := by
          rintro rfl
          rw [hd] at a
          cases a
          rw [hres] at b
          cases b
        exact ⟨by omega, q, d', by rw [upd_ne _ _ hq]; exact a, b⟩
      split at hn
      · rename_i h0
        by_cases hnn : n = s.narrays
        · subst hnn
          refine ⟨?_, p, { d with res := x }, ?_, h0⟩
          · simp only [State.see, State.take]; omega
          · simp only [State.see, State.take, upd_same]
        · rw [upd_ne _ _ hnn] at hn
          exact hold hn
      · exact hold hn
    · intro n hn
      simp only [State.see, State.take] at hn
      rw [hlog, harr n (by omega)]
      exact h.arrs.alt n (by omega)
    · intro n hn
      have hn : (if x.names = some s.narrays then upd s.arrays s.narrays true else s.arrays) n = false := hn
      rw [hlog]
      by_cases hnn : n = s.narrays
      · subst hnn
        rw [harr0]
        split at hn
        · rw [upd_same] at hn; cases hn
        · rename_i h0
          rw [if_neg h0]
          exact .inl rfl
      · rw [harr n hnn]
        refine h.arrs.done n ?_
        split at hn
        · rwa [upd_ne _ _ hnn] at hn
        · exact hn
  · constructor
    · intro r
      show s.held r + (objRefs x.obj).count r = total (fun q => refsOf r (upd s.data p (some { d with res := x }) q)) tx.calls
      rw [hc]
      have h1 := total_upd_of (refsOf r) s.data (some { d with res := x }) (h.refs.lt p d hd)
      have h2 := holds_count d x r (by rw [hres])
      rw [← h.refs.held, hd] at h1
      simp only [refsOf] at h1
      rw [h2] at h1
      simp only [refsOf]
      omega
    · intro r
      rw [hlog]
      show _ = _ + (s.held r + (objRefs x.obj).count r)
      have := h.refs.bal r
      simp only [List.count_append, count_ref_map, count_unref_ref]
      simp
      omega
    · intro q d' hq
      show q < tx.calls
      rw [hc]
      by_cases hqp : q = p
      · subst hqp; exact h.refs.lt q d hd
      · have hq : upd s.data p (some { d with res := x }) q = some d' := hq
        rw [upd_ne _ _ hqp] at hq
        exact h.refs.lt q d' hq

/-- The callback has been called, and the list doesn't belong to us any longer, either because the callback has kept it or because
it has been freed. -/
theorem Inv.told {s s' : State} (h : Inv s) {p : Nat} {tx : Async.State} (hs : Async.step s.tx (.done p) = .ok tx)
    {t : Async.Tx} (ht : s.tx.txs p = some t) (hcn : t.cancelled = false) {d : Data} (hd : s.data p = some d) {evs : List Ev}
    (htx' : s'.tx = tx) (hdata : s'.data = upd s.data p (some { d with res := { d.res with names := none } }))
    (hheld : s'.held = s.held) (hnarr : s'.narrays = s.narrays) (hlog : s'.log = s.log ++ (.told p d.res :: evs))
    (hevs : (d.res.names = none ∧ evs = [] ∧ s'.arrays = s.arrays) ∨
      ∃ n, d.res.names = some n ∧ (evs = [.kept n] ∨ evs = [.released n]) ∧ s'.arrays = upd s.arrays n false) : Inv s' := by
  obtain ⟨hap, htx, hc, hb, ha, _⟩ := Async.done_facts h.facts hs
  obtain ⟨r0, told0, hcall, _, hr0, hf⟩ := (h.calls p).live d t hd ht
  obtain ⟨rfl, hr1⟩ := hr0 hap
  obtain ⟨x, rfl⟩ := Option.ne_none_iff_exists'.1 (hr1 hcn)
  have hres : d.res = x := hf
  have hwho0 : ∀ q, ∀ e ∈ evs, e.who ≠ some q := by
    intro q e he
    rcases hevs with ⟨_, h1, _⟩ | ⟨n, _, h1 | h1, _⟩ <;> subst h1 <;> simp at he <;> subst he <;> simp [Ev.who]
  have hwho : ∀ q, q ≠ p → ∀ e ∈ Ev.told p d.res :: evs, e.who ≠ some q := by
    intro q hq e he
    rcases List.mem_cons.1 he with he | he
    · subst he
      simp [Ev.who]
      exact fun e => hq e.symm
    · exact hwho0 q e he
  refine ⟨by rw [htx']; exact h.facts.step hs, fun q => ?_, ?_, ?_⟩
  · by_cases hq : q = p
    · subst hq
      have hnew : call q s'.log = some (.live d.what (some x) true t.cancelled) := by
        rw [hlog, show s.log ++ (Ev.told q d.res :: evs) = (s.log ++ [Ev.told q d.res]) ++ evs by simp, call_other (hwho0 q),
          call_append, hcall]
        simp [Call.next, hcn, hres]
      constructor
      · simp [hdata, htx', htx, ht, upd_same]
      · intro hle
        rw [htx', hc] at hle
        rw [(h.calls q).new hle] at hcall
        cases hcall
      · intro _ hn
        simp [hdata, upd_same] at hn
      · intro d' t' h1 h2
        rw [hdata, upd_same] at h1
        rw [htx', htx, ht] at h2
        cases h1
        cases h2
        refine ⟨some x, true, hnew, fun y => ?_, fun y => ?_, ?_⟩
        · rw [htx'] at y
          exact absurd hap (h.facts.notAfter ((hb q).1 y))
        · rw [htx'] at y
          exact absurd rfl ((ha q).1 y).2
        · simp [Fits, hres]
    · refine (h.calls q).other ?_ (by rw [htx', htx]) (by rw [htx', hc]) (fun y => ?_) (fun y => ?_) hlog (hwho q hq)
      · rw [hdata, upd_ne _ _ hq]
      · rw [htx'] at y; exact (hb q).1 y
      · rw [htx'] at y; exact ((ha q).1 y).1
  · have hdat : ∀ q d' m, s'.data q = some d' → d'.res.names = some m → q ≠ p ∧ s.data q = some d' := by
      intro q d' m h1 h2
      rw [hdata] at h1
      by_cases hq : q = p
      · subst hq
        rw [upd_same] at h1
        cases h1
        cases h2
      · rw [upd_ne _ _ hq] at h1
        exact ⟨hq, h1⟩
    rcases hevs with ⟨h0, rfl, harrs⟩ | ⟨n, h0, he, harrs⟩
    · have harr : ∀ m, array m s'.log = array m s.log := by
        intro m
        rw [hlog]
        exact array_other (by simp [Ev.lists, h0]) _
      constructor
      · intro q d' m h1 h2
        rw [hnarr, harrs, harr]
        exact h.arrs.own q d' m (hdat q d' m h1 h2).2 h2
      · intro m hm
        rw [harrs] at hm
        rw [hnarr]
        obtain ⟨hlt, q, d', a, b⟩ := h.arrs.ours m hm
        have hq : q ≠ p := by
          rintro rfl
          rw [hd] at a
          cases a
          rw [h0] at b
          cases b
        exact ⟨hlt, q, d', by rw [hdata, upd_ne _ _ hq]; exact a, b⟩
      · intro m; rw [hnarr, harr]; exact h.arrs.alt m
      · intro m; rw [harrs, harr]; exact h.arrs.done m
    · obtain ⟨hlt, hown, hours⟩ := h.arrs.own p d n hd h0
      have harr : ∀ m, m ≠ n → array m s'.log = array m s.log := by
        intro m hm
        rw [hlog]
        refine array_other ?_ _
        intro e hme
        have hm' : n ≠ m := fun e => hm e.symm
        rcases List.mem_cons.1 hme with hme | hme
        · subst hme; simp [Ev.lists, h0, hm']
        · rcases he with he | he <;> subst he <;> simp at hme <;> subst hme <;> simp [Ev.lists, hm']
      have harrn : array n s'.log = some .theirs ∨ array n s'.log = some .freed := by
        rw [hlog, array_append, hours]
        rcases he with he | he <;> subst he <;> simp [Arr.next, h0]
      constructor
      · intro q d' m h1 h2
        obtain ⟨hq, h3⟩ := hdat q d' m h1 h2
        obtain ⟨a, b, c⟩ := h.arrs.own q d' m h3 h2
        have hm : m ≠ n := by
          rintro rfl
          rw [hours] at c
          cases c
          exact hq rfl
        rw [hnarr, harrs, harr m hm, upd_ne _ _ hm]
        exact ⟨a, b, c⟩
      · intro m hm
        rw [harrs] at hm
        rw [hnarr]
        have hmn : m ≠ n := by rintro rfl; rw [upd_same] at hm; cases hm
        rw [upd_ne _ _ hmn] at hm
        obtain ⟨hlt, q, d', a, b⟩ := h.arrs.ours m hm
        have hq : q ≠ p := by
          rintro rfl
          rw [hd] at a
          cases a
          rw [h0] at b
          cases b
          exact hmn rfl
        exact ⟨hlt, q, d', by rw [hdata, upd_ne _ _ hq]; exact a, b⟩
      · intro m hm
        rw [hnarr] at hm
        rw [harr m (by omega)]
        exact h.arrs.alt m hm
      · intro m hm
        by_cases hmn : m = n
        · subst hmn; exact .inr harrn
        · rw [harrs, upd_ne _ _ hmn] at hm
          rw [harr m hmn]
          exact h.arrs.done m hm
  · refine h.refs.same hlog ?_ hheld (by rw [htx', hc]) ?_
    · intro e he
      rcases List.mem_cons.1 he with he | he
      · subst he; rfl
      · rcases hevs with ⟨_, h1, _⟩ | ⟨n, _, h1 | h1, _⟩ <;> subst h1 <;> simp at he <;> subst he <;> rfl
    · intro q
      rw [hdata]
      by_cases hq : q = p
      · subst hq
        rw [upd_same, hd]
        simp [Data.holds]
      · rw [upd_ne _ _ hq]

/-- The data is freed. -/
theorem Inv.freed {s s' : State} (h : Inv s) {p : Nat} {tx : Async.State} (hs : Async.step s.tx (.free p) = .ok tx)
    {d : Data} (hd : s.data p = some d) {evs : List Ev}
    (htx' : s'.tx = tx) (hdata : s'.data = upd s.data p none)
    (hheld : s'.held = fun r => s.held r - d.holds.count r) (hnarr : s'.narrays = s.narrays)
    (hlog : s'.log = s.log ++ (evs ++ (d.holds.map .unref ++ [.freed p])))
    (hevs : (d.res.names = none ∧ evs = [] ∧ s'.arrays = s.arrays) ∨
      ∃ n, d.res.names = some n ∧ evs = [.released n] ∧ s'.arrays = upd s.arrays n false) : Inv s' := by
  obtain ⟨⟨t, ht⟩, hfin, htx, hc, hb, ha, _⟩ := Async.free_facts h.facts hs
  obtain ⟨r0, told0, hcall, _, _, _⟩ := (h.calls p).live d t hd ht
  have hwho0 : ∀ q, ∀ e ∈ evs ++ d.holds.map Ev.unref, e.who ≠ some q := by
    intro q e he
    rcases List.mem_append.1 he with he | he
    · rcases hevs with ⟨_, h1, _⟩ | ⟨n, _, h1, _⟩ <;> subst h1 <;> simp at he
      subst he
      simp [Ev.who]
    · simp only [List.mem_map] at he
      obtain ⟨_, _, rfl⟩ := he
      simp [Ev.who]
  have hlog2 : s'.log = (s.log ++ (evs ++ d.holds.map Ev.unref)) ++ [.freed p] := by rw [hlog]; simp
  refine ⟨by rw [htx']; exact h.facts.step hs, fun q => ?_, ?_, ?_⟩
  · by_cases hq : q = p
    · subst hq
      have hnew : call q s'.log = some .gone := by
        rw [hlog2, call_append, call_other (hwho0 q), hcall]
        simp [Call.next]
      constructor
      · simp [hdata, htx', htx, upd_same]
      · intro hle
        rw [htx', hc] at hle
        rw [(h.calls q).new hle] at hcall
        cases hcall
      · intro _ _; exact hnew
      · intro d' t' h1 h2
        rw [hdata, upd_same] at h1
        cases h1
    · refine (h.calls q).other ?_ ?_ (by rw [htx', hc]) (fun y => ?_) (fun y => ?_) hlog ?_
      · rw [hdata, upd_ne _ _ hq]
      · rw [htx', htx, upd_ne _ _ hq]
      · rw [htx'] at y; exact (hb q).1 y
      · rw [htx'] at y; exact (ha q).1 y
      · intro e he
        rw [← List.append_assoc] at he
        rcases List.mem_append.1 he with he | he
        · exact hwho0 q e he
        · simp only [List.mem_singleton] at he
          subst he
          simp [Ev.who]
          exact fun e => hq e.symm
  · have hdat : ∀ q d' m, s'.data q = some d' → d'.res.names = some m → q ≠ p ∧ s.data q = some d' := by
      intro q d' m h1 h2
      rw [hdata] at h1
      by_cases hq : q = p
      · subst hq
        rw [upd_same] at h1
        cases h1
      · rw [upd_ne _ _ hq] at h1
        exact ⟨hq, h1⟩
    have hrest : ∀ m, ∀ e ∈ d.holds.map Ev.unref ++ [Ev.freed p], e.lists ≠ some m := by
      intro m e he
      rcases List.mem_append.1 he with he | he
      · simp only [List.mem_map] at he
        obtain ⟨_, _, rfl⟩ := he
        simp [Ev.lists]
      · simp only [List.mem_singleton] at he
        subst he
        simp [Ev.lists]
    have harr0 : ∀ m, array m s'.log = array m (s.log ++ evs) := by
      intro m
      rw [hlog, ← List.append_assoc]
      exact array_other (hrest m) _
    rcases hevs with ⟨h0, rfl, harrs⟩ | ⟨n, h0, rfl, harrs⟩
    · have harr : ∀ m, array m s'.log = array m s.log := by intro m; rw [harr0]; simp
      constructor
      · intro q d' m h1 h2
        rw [hnarr, harrs, harr]
        exact h.arrs.own q d' m (hdat q d' m h1 h2).2 h2
      · intro m hm
        rw [harrs] at hm
        rw [hnarr]
        obtain ⟨hlt, q, d', a, b⟩ := h.arrs.ours m hm
        have hq : q ≠ p := by
          rintro rfl
          rw [hd] at a
          cases a
          rw [h0] at b
          cases b
        exact ⟨hlt, q, d', by rw [hdata, upd_ne _ _ hq]; exact a, b⟩
      · intro m; rw [hnarr, harr]; exact h.arrs.alt m
      · intro m; rw [harrs, harr]; exact h.arrs.done m
    · obtain ⟨hlt, hown, hours⟩ := h.arrs.own p d n hd h0
      have harr : ∀ m, m ≠ n → array m s'.log = array m s.log := by
        intro m hm
        have hm' : n ≠ m := fun e => hm e.symm
        rw [harr0]
        exact array_other (by simp [Ev.lists, hm']) _
      have harrn : array n s'.log = some .freed := by
        rw [harr0, array_append, hours]
        simp [Arr.next]
      constructor
      · intro q d' m h1 h2
        obtain ⟨hq, h3⟩ := hdat q d' m h1 h2
        obtain ⟨a, b, c⟩ := h.arrs.own q d' m h3 h2
        have hm : m ≠ n := by
          rintro rfl
          rw [hours] at c
          cases c
          exact hq rfl
        rw [hnarr, harrs, harr m hm, upd_ne _ _ hm]
        exact ⟨a, b, c⟩
      · intro m hm
        rw [harrs] at hm
        rw [hnarr]
        have hmn : m ≠ n := by rintro rfl; rw [upd_same] at hm; cases hm
        rw [upd_ne _ _ hmn] at hm
        obtain ⟨hlt, q, d', a, b⟩ := h.arrs.ours m hm
        have hq : q ≠ p := by
          rintro rfl
          rw [hd] at a
          cases a
          rw [h0] at b
          cases b
          exact hmn rfl
        exact ⟨hlt, q, d', by rw [hdata, upd_ne _ _ hq]; exact a, b⟩
      · intro m hm
        rw [hnarr] at hm
        rw [harr m (by omega)]
        exact h.arrs.alt m hm
      · intro m hm
        by_cases hmn : m = n
        · subst hmn; exact .inr (.inr harrn)
        · rw [harrs, upd_ne _ _ hmn] at hm
          rw [harr m hmn]
          exact h.arrs.done m hm
  · have hle := fun r => h.refs.use hd r
    have hev : ∀ e ∈ evs ++ [Ev.freed p], e.plain = true := by
      intro e he
      rcases List.mem_append.1 he with he | he
      · rcases hevs with ⟨_, h1, _⟩ | ⟨n, _, h1, _⟩ <;> subst h1 <;> simp at he
        subst he
        rfl
      · simp only [List.mem_singleton] at he
        subst he
        rfl
    constructor
    · intro r
      rw [htx', hc, hheld, hdata]
      have h1 := total_upd_of (refsOf r) s.data none (h.refs.lt p d hd)
      rw [← h.refs.held, hd] at h1
      simp only [refsOf] at h1
      have := hle r
      simp only [refsOf]
      omega
    · intro r
      obtain ⟨a, b⟩ := count_plain hev r
      simp only [List.count_append] at a b
      rw [hlog, hheld]
      have := h.refs.bal r
      have := hle r
      simp only [List.count_append, count_ref_unref, count_unref_map]
      omega
    · intro q d' hq
      rw [htx', hc]
      rw [hdata] at hq
      by_cases hqp : q = p
      · subst hqp; rw [upd_same] at hq; cases hq
      · rw [upd_ne _ _ hqp] at hq
        exact h.refs.lt q d' hq

theorem step_inv {s : State} (h : Inv s) (l : Label) : step s l ≠ .ub ∧ ∀ s', step s l = .ok s' → Inv s' := by
  cases l with
  | ask self func w =>
    cases self with
    | none => exact ⟨by simp [step], fun s' e => by simp only [step] at e; cases e; exact h.refused w⟩
    | some sm =>
      simp only [step]
      split
      · cases hs : Async.step s.tx .submit with
        | no => exact ⟨by simp, fun s' e => by cases e⟩
        | ub => exact absurd hs (h.facts.safe _)
        | ok tx => exact ⟨by simp, fun s' e => by cases e; exact h.ask hs sm w⟩
      · exact ⟨by simp, fun s' e => by cases e; exact h.refused w⟩
  | exec p =>
    simp only [step]
    cases hs : Async.step s.tx (.exec p) with
    | no => exact ⟨by simp, fun s' e => by cases e⟩
    | ub => exact absurd hs (h.facts.safe _)
    | ok tx =>
      obtain ⟨hbp, htx, hc, hb, ha, _⟩ := Async.exec_facts h.facts hs
      obtain ⟨t, ht⟩ := h.facts.alive (.inl hbp)
      obtain ⟨d, hd⟩ := h.data ht
      simp only [hd]
      rw [if_pos (h.refs.used hd)]
      exact ⟨by simp, fun s' e => by cases e; exact h.moves hs htx hc (fun q => (hb q).1) (fun q hq => .inl ((ha q).1 hq))⟩
  | executed p r =>
    simp only [step]
    cases hs : Async.step s.tx (.executed p) with
    | no => exact ⟨by simp, fun s' e => by cases e⟩
    | ub => exact absurd hs (h.facts.safe _)
    | ok tx =>
      obtain ⟨hbp, _⟩ := Async.executed_facts h.facts hs
      obtain ⟨t, ht⟩ := h.facts.alive (.inl hbp)
      obtain ⟨d, hd⟩ := h.data ht
      simp only [hd]
      rw [if_pos (h.refs.used hd)]
      split
      · exact ⟨by simp, fun s' e => by cases e⟩
      · rename_i x hx
        refine ⟨by simp, fun s' e => ?_⟩
        cases e
        exact h.executed hs hd hx
  | done p keep =>
    simp only [step]
    cases hs : Async.step s.tx (.done p) with
    | no => exact ⟨by simp, fun s' e => by cases e⟩
    | ub => exact absurd hs (h.facts.safe _)
    | ok tx =>
      obtain ⟨hap, htx, hc, hb, ha, _⟩ := Async.done_facts h.facts hs
      obtain ⟨t, ht⟩ := h.facts.alive (.inr (.inl hap))
      obtain ⟨d, hd⟩ := h.data ht
      simp only [ht, hd]
      split
      · exact ⟨by simp, fun s' e => by
          cases e; exact h.moves hs htx hc (fun q => (hb q).1) (fun q hq => .inl ((ha q).1 hq).1)⟩
      · rename_i hcn
        have hcn : t.cancelled = false := by simpa using hcn
        rw [if_pos (h.refs.used hd)]
        split
        · rename_i h0
          refine ⟨by simp, fun s' e => ?_⟩
          cases e
          refine h.told hs ht hcn hd (evs := []) rfl ?_ rfl rfl rfl (.inl ⟨h0, rfl, rfl⟩)
          have : { d with res := { d.res with names := none } } = d := by
            cases d with
            | mk sm what res => cases res; simp at h0; subst h0; rfl
          rw [this]
          funext q
          by_cases hq : q = p
          · subst hq; rw [upd_same]; exact hd
          · rw [upd_ne _ _ hq]; rfl
        · rename_i n h0
          obtain ⟨_, hown, _⟩ := h.arrs.own p d n hd h0
          have hown' : ({ s with tx := tx }.see [.told p d.res]).arrays n = true := hown
          rw [if_pos hown']
          cases keep with
          | true =>
            refine ⟨by simp [Out.andThen], fun s' e => ?_⟩
            simp only [if_true, Out.andThen] at e
            cases e
            exact h.told hs ht hcn hd (evs := [.kept n]) rfl rfl rfl rfl (by simp [State.see]) (.inr ⟨n, h0, .inl rfl, rfl⟩)
          | false =>
            simp only [Bool.false_eq_true, if_false, State.release]
            rw [if_pos hown']
            refine ⟨by simp [Out.andThen], fun s' e => ?_⟩
            simp only [Out.andThen] at e
            cases e
            exact h.told hs ht hcn hd (evs := [.released n]) rfl rfl rfl rfl (by simp [State.see]) (.inr ⟨n, h0, .inr rfl, rfl⟩)
  | free p =>
    simp only [step]
    cases hs : Async.step s.tx (.free p) with
    | no => exact ⟨by simp, fun s' e => by cases e⟩
    | ub => exact absurd hs (h.facts.safe _)
    | ok tx =>
      obtain ⟨⟨t, ht⟩, _⟩ := Async.free_facts h.facts hs
      obtain ⟨d, hd⟩ := h.data ht
      simp only [hd]
      have hle := fun r (_ : r ∈ d.holds) => h.refs.use hd r
      cases h0 : d.res.names with
      | none =>
        simp only [State.release, Out.andThen, State.drop]
        rw [if_pos hle]
        refine ⟨by simp, fun s' e => ?_⟩
        cases e
        exact h.freed hs hd (evs := []) rfl rfl rfl rfl (by simp [State.see]) (.inl ⟨h0, rfl, rfl⟩)
      | some n =>
        obtain ⟨_, hown, _⟩ := h.arrs.own p d n hd h0
        simp only [State.release]
        rw [if_pos hown]
        simp only [Out.andThen]
        rw [drop_ok (s := State.see { s with arrays := upd s.arrays n false } [.released n]) hle]
        refine ⟨by simp, fun s' e => ?_⟩
        cases e
        exact h.freed hs hd (evs := [.released n]) rfl rfl rfl rfl (by simp [State.see]) (.inr ⟨n, h0, rfl, rfl⟩)
  | cancel id =>
    simp only [step]
    cases hs : Async.step s.tx (.cancel id) with
    | no => exact ⟨by simp, fun s' e => by cases e⟩
    | ub => exact absurd hs (h.facts.safe _)
    | ok tx =>
      obtain ⟨hc, _, hb, ha, hm⟩ := Async.cancel_facts h.facts hs
      cases hf : s.tx.table.find? (fun e => e.1 = id) with
      | none =>
        rw [hf] at hm
        exact ⟨by simp, fun s' e => by
          cases e; exact h.moves hs hm hc (fun q => (hb q).1) (fun q hq => .inl ((ha q).1 hq))⟩
      | some e =>
        obtain ⟨i, p⟩ := e
        rw [hf] at hm
        obtain ⟨t, ht, htx⟩ := hm
        exact ⟨by simp, fun s' e => by cases e; exact h.cancel hs hc hb ha ht htx⟩
  | check p =>
    simp only [step]
    cases hs : Async.step s.tx (.check p) with
    | no => exact ⟨by simp, fun s' e => by cases e⟩
    | ub => exact absurd hs (h.facts.safe _)
    | ok tx =>
      refine ⟨by simp, fun s' e => ?_⟩
      cases e
      obtain ⟨hbp, htx, hc, _, ⟨⟨t, ht, htc⟩, hb, ha⟩ | ⟨hb, ha⟩⟩ := Async.check_facts h.facts hs
      · refine h.moves hs htx hc (fun q hq => ((hb q).1 hq).1) (fun q hq => ?_)
        rcases (ha q).1 hq with hq | hq
        · exact .inl hq
        · subst hq; exact .inr ⟨hbp, t, ht, htc⟩
      · exact h.moves hs htx hc (fun q => (hb q).1) (fun q hq => .inl ((ha q).1 hq))
  | post p =>
    simp only [step]
    cases hs : Async.step s.tx (.post p) with
    | no => exact ⟨by simp, fun s' e => by cases e⟩
    | ub => exact absurd hs (h.facts.safe _)
    | ok tx =>
      obtain ⟨htx, hc, _, hb, ha⟩ := Async.post_facts h.facts hs
      exact ⟨by simp, fun s' e => by cases e; exact h.moves hs htx hc (fun q => (hb q).1) (fun q hq => .inl ((ha q).1 hq))⟩
  | flush p =>
    simp only [step]
    cases hs : Async.step s.tx (.flush p) with
    | no => exact ⟨by simp, fun s' e => by cases e⟩
    | ub => exact absurd hs (h.facts.safe _)
    | ok tx =>
      obtain ⟨_, htx, hc, hb, ha⟩ := Async.flush_facts h.facts hs
      exact ⟨by simp, fun s' e => by cases e; exact h.moves hs htx hc (fun q => (hb q).1) (fun q hq => .inl ((ha q).1 hq).1)⟩

theorem reach_inv {s : State} (h : Reach step {} s) : Inv s :=
  h.invariant Inv.init fun _ l _ hi hs => (step_inv hi l).2 _ hs

end Gb.SmCalls
