import Verif.Lemmas.Oneway
/-
C88. One-way calls to an object are handled one at a time, and in the order in which they were made.
-/
set_option autoImplicit false

namespace Gb.C88
open Oneway

/-- C88: if all one-way transactions to the object have data, its handler is called for them in the order in which they were sent, and
not before the previous one has been dealt with (which is when the handler returns or, if it has blocked the request, when the
request is completed); no matter how many loopers there are, when they have to exit, and how long the application keeps the
requests and buffers. Missing: transactions without data, see `C88_fails_order` and `C88_fails_overlap`. -/
theorem C88_order_partial {s : State} {node : Nat} (h : ReachIf step (Full node) {} s) : InOrder node s.log :=
  (Inv.reach h).seen.order

/-- How many times the handler has been called for the transaction. -/
def starts (i : Nat) (log : List Ev) : Nat := log.countP fun e => match e with | .started j _ => j == i | _ => false

/-- How many times it has been done with it. -/
def ends (i : Nat) (log : List Ev) : Nat := log.countP fun e => match e with | .ended j => j == i | _ => false

theorem free_work (s : State) (i k : Nat) : ((s.free i).tx k).work = (s.tx k).work := by
  simp only [State.free, State.put]
  split <;> simp only [upd] <;> grind

/-- The numbers match what has become of the transaction. -/
def Counted (s : State) : Prop :=
  ∀ k, starts k s.log = (if (s.tx k).work.begun then 1 else 0) ∧ ends k s.log = (if (s.tx k).work = .ended then 1 else 0)

theorem Counted.free {s : State} (h : Counted s) (i : Nat) : Counted (s.free i) := by
  intro k
  rw [free_log, free_work]
  exact h k

theorem Counted.settle {s : State} (h : Counted s) (i : Nat) : Counted (s.settle i) := by
  simp only [State.settle]
  split
  · exact h
  · have h1 : Counted (if (s.tx i).work = .blocked then
        { s.put i { s.tx i with work := .ended } with log := s.log ++ [.ended i] } else s) := by
      split
      · rename_i hb
        intro k
        have := h k
        simp only [State.put, upd, starts, ends, List.countP_append, List.countP_cons, List.countP_nil] at this ⊢
        grind [Work.begun]
      · exact h
    split
    · exact h1.free i
    · exact h1

theorem Counted.put {s : State} (h : Counted s) (i : Nat) (t : Tx) (hw : t.work.begun = (s.tx i).work.begun)
    (hw' : t.work = .ended ↔ (s.tx i).work = .ended) : Counted (s.put i t) := by
  intro k
  rw [put_tx]
  have := h k
  by_cases hk : k = i
  · subst hk
    rw [if_pos rfl, hw]
    simp only [hw']
    exact this
  · rw [if_neg hk]
    exact this

theorem run_if {ok : State → Label → Prop} {s s' : State} (h : ReachIf step ok {} s) :
    ∀ {ls : List Label}, exec step s ls = .ok s' → (∀ l ∈ ls, ∀ t, ok t l) → ReachIf step ok {} s' := by
  intro ls
  induction ls generalizing s with
  | nil => intro he _; cases he; exact h
  | cons l ls ih =>
    intro he hl
    simp only [exec] at he
    split at he
    · rename_i s1 h1
      exact ih (.step l h (hl l (by simp) s) h1) he fun l' hl' => hl l' (by simp [hl'])
    · cases he
    · cases he

/-- There's always an object which nothing has been sent to. -/
theorem unused {s : State} (h : Reach step {} s) : ∃ n, ReachIf step (Full n) {} s := by
  obtain ⟨ls, he⟩ := h
  have key : ∀ ls : List Label, ∃ n, ∀ m, n ≤ m → ∀ l ∈ ls, ∀ t, Full m t l := by
    intro ls
    induction ls with
    | nil => exact ⟨0, by simp⟩
    | cons l ls ih =>
      obtain ⟨n, hn⟩ := ih
      refine ⟨n + (match l with | .send k _ => k + 1 | _ => 0), ?_⟩
      intro m hm l' hl' t
      rcases List.mem_cons.mp hl' with rfl | hl'
      · cases l' <;> simp only [Full]
        intro h
        simp only at hm
        omega
      · exact hn m (by omega) l' hl' t
  obtain ⟨n, hn⟩ := key ls
  exact ⟨n, run_if .init he (hn n (Nat.le_refl n))⟩

/-- C88: for each transaction the handler is called at most once, and is done with it at most once, not before it has been
called. -/
theorem C88_once {s : State} (h : Reach step {} s) (i : Nat) : starts i s.log ≤ 1 ∧ ends i s.log ≤ starts i s.log := by
  obtain ⟨n, hr⟩ := unused h
  have key : Counted s := by
    clear h
    induction hr with
    | init => exact fun k => by simp [starts, ends, Work.begun]
    | @step s s' l hr hok hs ih =>
      have hv := Inv.reach hr
      have log1 : ∀ (j : Nat) (t : Tx) (e : Ev), (e = .started j (s.tx j).node ∧ (s.tx j).work.begun = false ∧ t.work.begun = true ∧ t.work ≠ .ended ∨
          e = .ended j ∧ (s.tx j).work.begun = true ∧ (s.tx j).work ≠ .ended ∧ t.work = .ended) →
          Counted { s.put j t with log := s.log ++ [e] } := by
        intro j t e hj k
        have := ih k
        simp only [State.put, upd, starts, ends, List.countP_append, List.countP_cons, List.countP_nil] at this ⊢
        rcases hj with ⟨rfl, h1, h2, h3⟩ | ⟨rfl, h1, h2, h3⟩
        · by_cases hk : k = j
          · subst hk
            have h4 : (s.tx k).work ≠ .ended := by intro h; rw [h] at h1; cases h1
            simp_all
          · simp [hk, Ne.symm hk]; exact this
        · by_cases hk : k = j
          · subst hk
            simp_all [Work.begun]
          · simp [hk, Ne.symm hk]; exact this
      cases l with
      | send m e =>
        have h0 := (hv.loc s.sent).fresh (.inl ((hv.glob.unsent _).mp (Nat.le_refl _)))
        simp only [step, Out.ok.injEq] at hs
        subst hs
        split
        · exact ih.put s.sent { node := m, empty := e, kern := .waiting } (by rw [h0.2.2.2.2]) (by rw [h0.2.2.2.2])
        · exact ih.put s.sent { node := m, empty := e, kern := .queued } (by rw [h0.2.2.2.2]) (by rw [h0.2.2.2.2])
      | take j =>
        simp only [step] at hs
        split at hs <;> cases hs
        have h1 := ih.put j { s.tx j with kern := .delivered, looper := true } rfl Iff.rfl
        split
        · exact h1.free j
        · exact h1
      | direct j =>
        simp only [step] at hs
        split at hs <;> cases hs
        rename_i hc
        exact log1 j { s.tx j with work := .running true } _ (.inl ⟨rfl, by rw [hc.2]; rfl, rfl, by simp⟩)
      | begin j =>
        simp only [step] at hs
        split at hs
        case isFalse => cases hs
        case isTrue hc =>
          split at hs <;> cases hs
          exact log1 j { s.tx j with work := .running false } _ (.inl ⟨rfl, by rw [hc]; rfl, rfl, by simp⟩)
      | ret j =>
        simp only [step] at hs
        split at hs <;> cases hs
        rename_i own hc
        exact log1 j { s.tx j with work := .ended } _ (.inr ⟨rfl, by rw [hc]; rfl, by rw [hc]; simp, rfl⟩)
      | complete j =>
        simp only [step] at hs
        split at hs <;> cases hs
        rename_i hc
        exact log1 j { s.tx j with work := .ended } _ (.inr ⟨rfl, by rw [hc.1]; rfl, by rw [hc.1]; simp, rfl⟩)
      | schedule j =>
        simp only [step] at hs
        split at hs <;> cases hs
        rename_i hc
        exact ih.put j { s.tx j with work := .scheduled, tx := true } (by rw [hc.2]; rfl) (by rw [hc.2]; simp)
      | refuse j =>
        simp only [step] at hs
        split at hs <;> cases hs
        rename_i hc
        exact ih.put j { s.tx j with work := .refused } (by rw [hc.2]; rfl) (by rw [hc.2]; simp)
      | block j =>
        simp only [step] at hs
        split at hs <;> cases hs
        rename_i hc
        exact (ih.put j { s.tx j with work := .blocked, tx := false } (by rw [hc]; rfl) (by rw [hc]; simp)).settle j
      | cancel j =>
        simp only [step] at hs
        split at hs <;> cases hs
        rename_i hc
        exact (ih.put j { s.tx j with work := .cancelled, tx := false } (by rw [hc]; rfl) (by rw [hc]; simp)).settle j
      | fin j =>
        simp only [step] at hs
        split at hs <;> cases hs
        exact (ih.put j { s.tx j with tx := false } rfl Iff.rfl).settle j
      | leave j =>
        simp only [step] at hs
        split at hs <;> cases hs
        exact (ih.put j { s.tx j with looper := false, parts := (s.tx j).parts + 1 } rfl Iff.rfl).settle j
      | hold j =>
        simp only [step] at hs
        split at hs <;> cases hs
        exact ih.put j { s.tx j with held := (s.tx j).held + 1 } rfl Iff.rfl
      | drop j =>
        simp only [step] at hs
        split at hs <;> cases hs
        exact (ih.put j { s.tx j with held := (s.tx j).held - 1 } rfl Iff.rfl).settle j
      | holdPart j =>
        simp only [step] at hs
        split at hs <;> cases hs
        exact ih.put j { s.tx j with parts := (s.tx j).parts + 1 } rfl Iff.rfl
      | dropPart j =>
        simp only [step] at hs
        split at hs <;> cases hs
        exact (ih.put j { s.tx j with parts := (s.tx j).parts - 1 } rfl Iff.rfl).settle j
  obtain ⟨a, b⟩ := key i
  rw [a, b]
  cases (s.tx i).work <;> simp [Work.begun]

theorem waits {n : Nat} {s : State} {i : Nat} (h : Inv n s) (hn : (s.tx i).node = n) (hw : (s.tx i).kern = .waiting) :
    ∃ j, j < i ∧ (s.tx j).node = n ∧ (s.tx j).kern.flying = true := by
  obtain ⟨hg, -, -⟩ := h
  have hb : s.busy n = true := by
    cases hb : s.busy n
    · have h1 := hg.idle hb
      have h2 := (hg.mem n i).mpr ⟨hw, hn⟩
      rw [h1] at h2
      cases h2
    · rfl
  obtain ⟨j, h1, h2⟩ := hg.busy.mp hb
  refine ⟨j, ?_, h1, h2⟩
  rcases Nat.lt_trichotomy j i with h3 | h3 | h3
  · exact h3
  · subst h3; rw [hw] at h2; cases h2
  · have := hg.before j i h1 hn h2 h3
    rw [hw] at this
    cases this

/-- C88: a transaction which the kernel doesn't deliver yet waits for another one to the same object, which was sent earlier and
which either can be read by any looper or is still referred to by someone. So no transaction is left waiting when those
before it are gone. -/
theorem C88_waits {s : State} {i : Nat} (h : ReachIf step (Full (s.tx i).node) {} s) (hw : (s.tx i).kern = .waiting) :
    ∃ j, j < i ∧ (s.tx j).node = (s.tx i).node ∧
      ((s.tx j).kern = .queued ∧ (∃ s', step s (.take j) = .ok s') ∨ (s.tx j).kern = .delivered ∧ Referred (s.tx j)) := by
  obtain ⟨j, hji, h1, h2⟩ := waits (Inv.reach h) rfl hw
  have hl := (Inv.reach h).loc
  refine ⟨j, hji, h1, ?_⟩
  cases hk : (s.tx j).kern <;> rw [hk] at h2 <;> simp only [Kern.flying, Bool.false_eq_true] at h2
  · exact .inl ⟨rfl, by simp [step, hk]⟩
  · refine .inr ⟨rfl, ?_⟩
    have := (hl j).kept h1 hk
    simp only [Tx.alive, Bool.or_eq_true, decide_eq_true_eq] at this
    unfold Referred
    grind

theorem served_queued {n : Nat} {s : State} {i : Nat} (h : Inv n s) (hn : (s.tx i).node = n) (hq : (s.tx i).kern = .queued) :
    ∃ ls s', exec step s ls = .ok s' ∧ Usual n i s ls ∧ .started i n ∈ s'.log := by
  have hf := (h.loc i).fresh (.inr (.inr hq))
  have he := (h.loc i).full hn (by rw [hq]; simp)
  have h1 : step s (.take i) = .ok (s.put i { s.tx i with kern := .delivered, looper := true }) := by simp [step, hq, he]
  have h2 : step (s.put i { s.tx i with kern := .delivered, looper := true }) (.schedule i) =
      .ok ((s.put i { s.tx i with kern := .delivered, looper := true }).put i
        { s.tx i with kern := .delivered, looper := true, work := .scheduled, tx := true }) := by
    simp [step, put_tx, hf.2.2.2.2]
  have h3 : ∃ s', step ((s.put i { s.tx i with kern := .delivered, looper := true }).put i
      { s.tx i with kern := .delivered, looper := true, work := .scheduled, tx := true }) (.begin i) = .ok s' ∧
        .started i n ∈ s'.log := by
    simp [step, put_tx, hn]
  obtain ⟨s', h3, h4⟩ := h3
  refine ⟨[.take i, .schedule i, .begin i], s', by simp only [exec, h1, h2, h3], ?_, h4⟩
  simp only [Usual, h1, h2, h3, and_true]
  exact ⟨⟨i, Nat.le_refl i, hn, rfl⟩, ⟨i, Nat.le_refl i, by simp [put_tx, hn], rfl⟩, ⟨i, Nat.le_refl i, by simp [put_tx, hn], rfl⟩⟩

/-- C88: each call can be handled, unless the application has blocked the request of an earlier one and then dropped it (see
`C27_fails_dropped`): all that's needed is that those before it are dealt with and let go of. -/
theorem C88_served {s : State} {i : Nat} (h : ReachIf step (Full (s.tx i).node) {} s) (hc : Completable (s.tx i).node s)
    (hk : (s.tx i).kern = .waiting ∨ (s.tx i).kern = .queued) :
    ∃ ls s', exec step s ls = .ok s' ∧ Usual (s.tx i).node i s ls ∧ .started i (s.tx i).node ∈ s'.log := by
  have key : ∀ m n {s : State}, Inv n s → (s.tx i).node = n → Completable n s → ((s.tx i).kern = .waiting ∨ (s.tx i).kern = .queued) →
      (∀ j, (s.tx j).node = n → (s.tx j).kern.flying = true → i - j ≤ m) →
      ∃ ls s', exec step s ls = .ok s' ∧ Usual n i s ls ∧ .started i n ∈ s'.log := by
    intro m n
    induction m with
    | zero =>
      intro s h hn hc hk hm
      rcases hk with hk | hk
      · obtain ⟨j, h1, h2, h3⟩ := waits h hn hk
        have := hm j h2 h3
        omega
      · exact served_queued h hn hk
    | succ m ih =>
      intro s h hn hc hk hm
      rcases hk with hk | hk
      · obtain ⟨j, h1, h2, h3⟩ := waits h hn hk
        -- the one which is delivered has been, or is, taken by a looper
        have taken : ∃ ls s1, exec step s ls = .ok s1 ∧ Usual n i s ls ∧ Inv n s1 ∧ (s1.tx j).kern = .delivered ∧ (s1.tx j).node = n ∧
            ((s1.tx j).work = .blocked → 0 < (s1.tx j).held) ∧ ∀ k, k ≠ j → s1.tx k = s.tx k := by
          cases hq : (s.tx j).kern <;> rw [hq] at h3 <;> simp only [Kern.flying, Bool.false_eq_true] at h3
          · have he := (h.loc j).full h2 (by rw [hq]; simp)
            have hf := (h.loc j).fresh (.inr (.inr hq))
            have h4 : step s (.take j) = .ok (s.put j { s.tx j with kern := .delivered, looper := true }) := by simp [step, hq, he]
            refine ⟨[.take j], _, by simp only [exec, h4], ?_, h.step (l := .take j) trivial h4, by simp [put_tx], by simp [put_tx, h2], ?_, ?_⟩
            · simp only [Usual, h4, and_true]
              exact ⟨j, by omega, h2, rfl⟩
            · simp [put_tx, hf.2.2.2.2]
            · intro k hk; rw [put_tx, if_neg hk]
          · exact ⟨[], s, rfl, trivial, h, hq, h2, hc j h2, fun _ _ => rfl⟩
        obtain ⟨ls1, s1, a1, a2, a3, a4, a5, a6, a7⟩ := taken
        obtain ⟨ls2, s2, b1, b2, b3, b4, b5, b6, b7⟩ := finish (i := i) (j := j) (by omega) _ a3 a5 a4 a6 (Nat.le_refl _)
        have mv : ∀ k, k ≠ j → Moved (s.tx k) (s2.tx k) := fun k hk => by rw [← a7 k hk]; exact b7 k hk
        have hn2 : (s2.tx i).node = n := by rw [(mv i (by omega)).1]; exact hn
        have hk2 : (s2.tx i).kern = .waiting ∨ (s2.tx i).kern = .queued := by
          rcases (mv i (by omega)).2 with h5 | h5
          · rw [h5, hk]; simp
          · exact .inr h5.2
        have hc2 : Completable n s2 := by
          intro k h4 h5
          by_cases hkj : k = j
          · subst hkj; exact b6 h5
          · rw [(mv k hkj).1] at h4 h5 ⊢
            exact hc k h4 h5
        obtain ⟨ls3, s3, c1, c2, c3⟩ := ih b3 hn2 hc2 hk2 (by
          intro k h4 h5
          have hkj : k ≠ j := by rintro rfl; rw [b4] at h5; cases h5
          have h6 : (s.tx k).node = n := by rw [(mv k hkj).1] at h4; exact h4
          have h7 := (mv k hkj).2
          rcases Nat.lt_or_gt_of_ne hkj with h8 | h8
          · have := h.glob.before j k h2 h6 h3 h8
            grind [Kern.flying]
          · have := hm j h2 h3
            omega)
        have e1 : exec step s (ls1 ++ ls2) = .ok s2 := by rw [exec_append, a1]; exact b1
        refine ⟨ls1 ++ ls2 ++ ls3, s3, by rw [exec_append, e1]; exact c1, ?_, c3⟩
        exact Usual.append e1 (Usual.append a1 a2 b2) c2
      · exact served_queued h hn hk
  exact key i _ (Inv.reach h) rfl hc hk fun j _ _ => by omega

/-- C88: nothing that's been freed is used: the request is there when the handler is called. -/
theorem C88_safe {s : State} (h : Reach step {} s) (l : Label) : step s l ≠ .ub := by
  obtain ⟨n, hr⟩ := unused h
  have hl := (Inv.reach hr).loc
  cases l <;> simp only [step] <;> (repeat' split) <;> simp
  rename_i i h1 h2
  exact h2 ((hl i).sched (.inl h1))

/-! ### What goes wrong -/

/-- Two transactions without data to the object 5, and two loopers. The first transaction is taken by a looper, and freed
at once; so the kernel delivers the second one to the other looper, which happens to be faster. -/
def overtaken : List Label :=
  [.send 5 true, .send 5 true, .take 0, .take 1, .schedule 1, .begin 1, .ret 1, .schedule 0, .begin 0]

/-- The second one is handled first. -/
theorem C88_fails_order : (exec step {} overtaken).holds
    (fun s => decide (s.log = [.started 1 5, .ended 1, .started 0 5])) = true := by decide +kernel

/-- The first one is blocked by the application, a new looper takes the other one. -/
def overlapping : List Label :=
  [.send 5 true, .send 5 true, .take 0, .schedule 0, .begin 0, .hold 0, .block 0, .take 1, .schedule 1, .begin 1]

/-- The handler is called for the second one although the first one isn't completed. -/
theorem C88_fails_overlap : (exec step {} overlapping).holds
    (fun s => decide (s.log = [.started 0 5, .started 1 5])) = true := by decide +kernel

theorem C88_fails_inorder : ¬ InOrder 5 [.started 1 5, .ended 1, .started 0 5] ∧ ¬ InOrder 5 [.started 0 5, .started 1 5] := by
  constructor
  · intro h
    have := h [.started 1 5, .ended 1] 0 [] rfl 1 (by simp)
    simp at this
  · intro h
    have := h [.started 0 5] 1 [] rfl 0 (by simp)
    simp at this

/-! ### Examples -/

/-- Three transactions to an object, and an empty one to another object. The first one is blocked, and completed later. The
application keeps a buffer of the second one, so the third one has to wait for that. -/
def story : List Label :=
  [.send 5 false, .send 5 false, .send 6 true, .take 2, .take 0, .schedule 0, .direct 2, .begin 0, .hold 0, .send 5 false, .block 0,
    .ret 2, .complete 0, .leave 0, .dropPart 0, .drop 0, .take 1, .schedule 1, .begin 1, .holdPart 1, .ret 1, .leave 1, .fin 1,
    .dropPart 1]

theorem story_full : ∀ l ∈ story, ∀ t, Full 5 t l := by
  intro l hl t
  simp only [story, List.mem_cons, List.not_mem_nil, or_false] at hl
  rcases hl with rfl | rfl | rfl | rfl | rfl | rfl | rfl | rfl | rfl | rfl | rfl | rfl | rfl | rfl | rfl | rfl | rfl | rfl | rfl |
    rfl | rfl | rfl | rfl | rfl <;> simp [Full]

/-- `C88_order_partial`, `C88_waits`: the third one (its number is 3) is waiting for the second one. -/
example : ∃ s, ReachIf step (Full 5) {} s ∧ s.log = [.started 2 6, .started 0 5, .ended 2, .ended 0, .started 1 5, .ended 1] ∧
    (s.tx 3).kern = .waiting ∧ (s.tx 3).node = 5 ∧ (s.tx 1).parts = 1 := by
  have hk : (exec step {} story).holds (fun s => decide (s.log = [.started 2 6, .started 0 5, .ended 2, .ended 0, .started 1 5, .ended 1] ∧
    (s.tx 3).kern = .waiting ∧ (s.tx 3).node = 5 ∧ (s.tx 1).parts = 1)) = true := by decide +kernel
  match h : exec step {} story with
  | .ok s =>
    rw [h] at hk
    simp only [Out.holds, decide_eq_true_eq] at hk
    exact ⟨s, run_if .init h story_full, hk⟩
  | .no => rw [h] at hk; cases hk
  | .ub => rw [h] at hk; cases hk

/-- `C88_served`: the first one is blocked, and the second one is waiting. -/
example : ∃ s, ReachIf step (Full (s.tx 1).node) {} s ∧ Completable (s.tx 1).node s ∧ (s.tx 1).kern = .waiting ∧ (s.tx 0).work = .blocked := by
  have hk : (exec step {} (story.take 11)).holds (fun s => decide ((s.tx 1).node = 5 ∧ (s.tx 1).kern = .waiting ∧ (s.tx 0).work = .blocked ∧
    s.sent = 4) && (List.range 4).all fun k => decide ((s.tx k).work ≠ .blocked ∨ 0 < (s.tx k).held)) = true := by decide +kernel
  match h : exec step {} (story.take 11) with
  | .ok s =>
    rw [h] at hk
    simp only [Out.holds, Bool.and_eq_true, List.all_eq_true, List.mem_range, decide_eq_true_eq] at hk
    obtain ⟨hk, hk'⟩ := hk
    have hr : ReachIf step (Full 5) {} s := run_if .init h fun l hl => story_full l (List.mem_of_mem_take hl)
    refine ⟨s, by rw [hk.1]; exact hr, ?_, hk.2.1, hk.2.2.1⟩
    intro k h1 h2
    rw [hk.1] at h1
    by_cases hk4 : k < 4
    · have := hk' k hk4; grind
    · have h3 := ((Inv.reach hr).glob.unsent k).mp (by omega)
      have := ((Inv.reach hr).loc k).fresh (.inl h3)
      rw [this.2.2.2.2] at h2
      cases h2
  | .no => rw [h] at hk; cases hk
  | .ub => rw [h] at hk; cases hk

/-- When the buffer is freed, it's delivered. -/
example : (exec step {} (story ++ [.dropPart 1, .take 3, .schedule 3, .begin 3])).holds
    (fun s => decide (s.log.getLast? = some (.started 3 5))) = true := by decide +kernel

/-- A looper has to exit while the handler is running, and another one is cancelled; the order remains. -/
example : (exec step {} [.send 5 false, .send 5 false, .send 5 false, .take 0, .schedule 0, .begin 0, .leave 0, .dropPart 0, .ret 0,
    .fin 0, .take 1, .schedule 1, .leave 1, .dropPart 1, .cancel 1, .take 2, .schedule 2, .begin 2]).holds
    (fun s => decide (s.log = [.started 0 5, .ended 0, .started 2 5])) = true := by decide +kernel

end Gb.C88
