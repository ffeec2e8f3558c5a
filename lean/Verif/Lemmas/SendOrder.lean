import Verif.Spec.SendOrder
import Verif.Lemmas.Async
/-
Helper lemmas about the order in which calls are sent.
-/
set_option autoImplicit false

namespace Gb.SendOrder

theorem before_snoc (a b e : Ev) (log : List Ev) : Before a b (log ++ [e]) ↔ Before a b log ∨ (a ∈ log ∧ b = e) := by
  constructor
  · rintro ⟨x, y, h, ha, hb⟩
    rcases List.eq_nil_or_concat y with rfl | ⟨y, z, rfl⟩
    · cases hb
    · rw [List.concat_eq_append, ← List.append_assoc] at h
      obtain ⟨h1, h2⟩ := List.append_inj' h rfl
      cases h2
      rw [List.concat_eq_append] at hb
      rcases List.mem_append.1 hb with hb | hb
      · exact .inl ⟨x, y, h1, ha, hb⟩
      · exact .inr ⟨h1 ▸ List.mem_append_left _ ha, List.mem_singleton.1 hb⟩
  · rintro (⟨x, y, h, ha, hb⟩ | ⟨ha, rfl⟩)
    · exact ⟨x, y ++ [e], by rw [h, List.append_assoc], ha, List.mem_append_left _ hb⟩
    · exact ⟨log, [b], rfl, ha, List.mem_singleton.2 rfl⟩

theorem before_nil (a b : Ev) : ¬ Before a b [] := by
  rintro ⟨x, y, h, ha, hb⟩
  cases x with
  | nil => cases ha
  | cons => cases h

theorem before_mem {a b : Ev} {log : List Ev} (h : Before a b log) : a ∈ log ∧ b ∈ log := by
  obtain ⟨x, y, rfl, ha, hb⟩ := h
  exact ⟨List.mem_append_left _ ha, List.mem_append_right _ hb⟩

/-- Whatever the pool does is possible in Model/Async, which doesn't know about the order and the number of threads. -/
theorem step_async {max : Nat} {s s' : State} {l : Label} (hs : step max s l = .ok s') :
    s'.async = s.async ∨ ∃ k, Async.step s.async k = .ok s'.async := by
  cases l with
  | async k =>
    simp only [step] at hs
    split at hs
    · split at hs
      · rename_i t ht
        cases hs
        exact .inr ⟨k, ht⟩
      · cases hs
      · cases hs
    · cases hs
  | send p => simp only [step] at hs; split at hs <;> cases hs; exact .inl rfl
  | sync => simp only [step] at hs; split at hs <;> cases hs; exact .inl rfl
  | syncSent => simp only [step] at hs; split at hs <;> cases hs; exact .inl rfl
  | syncFailed => simp only [step] at hs; split at hs <;> cases hs; exact .inl rfl

theorem reach_async {max : Nat} {s : State} (h : Reach (step max) {} s) : Reach Async.step {} s.async := by
  refine Reach.invariant (P := fun s => Reach Async.step {} s.async) Reach.init ?_ h
  intro s l s' hi hs
  rcases step_async hs with h | ⟨k, hk⟩
  · rw [h]; exact hi
  · exact hi.step hk

/-- Being taken care of by a thread from the pool. -/
def Busy (s : Async.State) (p : Nat) : Prop := p ∈ s.starting ∨ p ∈ s.running ∨ p ∈ s.finished

/-- What's true about the pool. -/
structure Inv (max : Nat) (s : State) : Prop where
  order : ∃ t, t ≤ s.async.calls ∧ s.async.queue = List.range' t (s.async.calls - t) ∧ ∀ p, .taken p ∈ s.log ↔ p < t
  called : ∀ p, .called (.async p) ∈ s.log ↔ p < s.async.calls
  sync : ∀ k, .called (.sync k) ∈ s.log → k < s.syncs
  sorted : ∀ p q, Before (.called (.async p)) (.called (.async q)) s.log → p < q
  pend : ∀ k, s.pending = some k → k < s.syncs ∧ ∀ d, ¬ Before (.called (.sync k)) (.called d) s.log
  over : ∀ p, .over p ∈ s.log → p ∉ s.async.queue ∧ ¬ Busy s.async p ∧ p ∉ s.async.posted ∧ p < s.async.calls
  sent : ∀ p, .sent (.async p) ∈ s.log → .taken p ∈ s.log
  takes : ∀ p q, Before (.taken p) (.taken q) s.log → p < q
  limit : busy s.async ≤ max
  busy : ∀ p, Busy s.async p → .taken p ∈ s.log
  single : max = 1 → ∀ p, Busy s.async p → ∀ q, .taken q ∈ s.log → q ≤ p
  syncSent : ∀ k, .sent (.sync k) ∈ s.log → k < s.syncs ∧ s.pending ≠ some k
  list : ∀ p, p ∈ s.sent → .taken p ∈ s.log ∧ p ∉ s.async.starting

theorem Inv.init (max : Nat) : Inv max {} := by
  refine ⟨⟨0, by simp⟩, ?_, ?_, ?_, ?_, ?_, ?_, ?_, ?_, ?_, ?_, ?_, ?_⟩ <;> simp [before_nil, Busy, SendOrder.busy]

theorem Inv.send {max : Nat} {s : State} (h : Inv max s) (p : Nat) (hp : p ∈ s.async.running) (hn : p ∉ s.async.starting) :
    Inv max { s with sent := p :: s.sent, log := s.log ++ [.sent (.async p)] } := by
  obtain ⟨h1, h2, h3, h4, h5, h6, h7, h8, h9, h10, h11, h12, h13⟩ := h
  refine ⟨?_, ?_, ?_, ?_, ?_, ?_, ?_, ?_, h9, ?_, ?_, ?_, ?_⟩ <;> simp only [before_snoc, List.mem_append, List.mem_singleton] <;> grind [Busy]

theorem Inv.sync' {max : Nat} {s : State} (h : Inv max s) (hp : s.pending = none) :
    Inv max { s with syncs := s.syncs + 1, pending := some s.syncs, log := s.log ++ [.called (.sync s.syncs)] } := by
  obtain ⟨h1, h2, h3, h4, h5, h6, h7, h8, h9, h10, h11, h12, h13⟩ := h
  have hb := fun d => @before_mem (.called (.sync s.syncs)) (.called d) s.log
  refine ⟨?_, ?_, ?_, ?_, ?_, ?_, ?_, ?_, h9, ?_, ?_, ?_, ?_⟩ <;> simp only [before_snoc, List.mem_append, List.mem_singleton] <;> grind [Busy]

theorem Inv.sent' {max : Nat} {s : State} (h : Inv max s) (k : Nat) (hk : s.pending = some k) :
    Inv max { s with pending := none, log := s.log ++ [.sent (.sync k)] } := by
  obtain ⟨h1, h2, h3, h4, h5, h6, h7, h8, h9, h10, h11, h12, h13⟩ := h
  refine ⟨?_, ?_, ?_, ?_, ?_, ?_, ?_, ?_, h9, ?_, ?_, ?_, ?_⟩ <;> simp only [before_snoc, List.mem_append, List.mem_singleton] <;> grind [Busy]

theorem Inv.syncFailed {max : Nat} {s : State} (h : Inv max s) : Inv max { s with pending := none } := by
  obtain ⟨h1, h2, h3, h4, h5, h6, h7, h8, h9, h10, h11, h12, h13⟩ := h
  exact ⟨h1, h2, h3, h4, (by intro k hk; cases hk), h6, h7, h8, h9, h10, h11, (fun k hk => ⟨(h12 k hk).1, by simp⟩), h13⟩

/-- A step which neither the queue nor the log know about. -/
theorem Inv.quiet {max : Nat} {s : State} (h : Inv max s) {t : Async.State} (hq : t.queue = s.async.queue)
    (hc : t.calls = s.async.calls) (hb : ∀ p, Busy t p → Busy s.async p) (hl : SendOrder.busy t ≤ SendOrder.busy s.async)
    (hp : ∀ p, p ∈ t.posted → Busy s.async p ∨ p ∈ s.async.posted) (hst : ∀ p, p ∈ t.starting → p ∈ s.async.starting) : Inv max { s with async := t } := by
  obtain ⟨h1, h2, h3, h4, h5, h6, h7, h8, h9, h10, h11, h12, h13⟩ := h
  refine ⟨?_, ?_, h3, h4, h5, ?_, h7, h8, ?_, ?_, ?_, h12, ?_⟩ <;> simp only [hq, hc]
  · exact h1
  · exact h2
  · grind
  · omega
  · grind
  · grind
  · grind

theorem Inv.submit {max : Nat} {s : State} (h : Inv max s) {t : Async.State} (hp : s.pending = none)
    (hq : t.queue = s.async.queue ++ [s.async.calls])
    (hc : t.calls = s.async.calls + 1) (h1' : t.starting = s.async.starting) (h2' : t.running = s.async.running)
    (h3' : t.finished = s.async.finished) (h4' : t.posted = s.async.posted) :
    Inv max { s with async := t, log := s.log ++ [.called (.async s.async.calls)] } := by
  obtain ⟨⟨u, hu1, hu2, hu3⟩, h2, h3, h4, h5, h6, h7, h8, h9, h10, h11, h12, h13⟩ := h
  refine ⟨⟨u, ?_⟩, ?_, ?_, ?_, ?_, ?_, ?_, ?_, ?_, ?_, ?_, ?_, ?_⟩ <;>
    simp only [hq, hc, Busy, SendOrder.busy, h1', h2', h3', h4', before_snoc, List.mem_append, List.mem_singleton] at *
  · refine ⟨by omega, ?_, by grind⟩
    rw [hu2, show s.async.calls + 1 - u = (s.async.calls - u) + 1 by omega, List.range'_concat]
    congr 2
    omega
  all_goals grind

theorem Inv.check {max : Nat} {s : State} (h : Inv max s) {t : Async.State} {p : Nat}
    (hh : s.async.queue.head? = some p) (hm : SendOrder.busy s.async < max)
    (hq : t.queue = s.async.queue.erase p)
    (hc : t.calls = s.async.calls) (hb : ∀ q, Busy t q ↔ q = p ∨ Busy s.async q)
    (hl : SendOrder.busy t = SendOrder.busy s.async + 1)
    (hp : t.posted = s.async.posted) (hst : ∀ q, q ∈ t.starting → q = p ∨ q ∈ s.async.starting) :
    Inv max { s with async := t, log := s.log ++ [.taken p] } := by
  obtain ⟨⟨u, hu1, hu2, hu3⟩, h2, h3, h4, h5, h6, h7, h8, h9, h10, h11, h12, h13⟩ := h
  have hlt : u < s.async.calls := by
    apply Classical.byContradiction
    intro hn
    rw [hu2, show s.async.calls - u = 0 by omega] at hh
    cases hh
  obtain ⟨n, hn⟩ : ∃ n, s.async.calls - u = n + 1 := ⟨s.async.calls - u - 1, by omega⟩
  rw [hn, List.range'_succ] at hu2
  rw [hu2] at hh hq
  cases hh
  rw [List.erase_cons_head] at hq
  have hz : max = 1 → ∀ q, ¬ Busy s.async q := by
    intro h1 q hb
    have : SendOrder.busy s.async = 0 := by omega
    simp only [SendOrder.busy] at this
    rcases hb with hb | hb | hb <;> have := List.length_pos_of_mem hb <;> omega
  refine ⟨⟨p + 1, ?_⟩, ?_, ?_, ?_, ?_, ?_, ?_, ?_, ?_, ?_, ?_, ?_, ?_⟩ <;>
    simp only [hq, hc, hp, before_snoc, List.mem_append, List.mem_singleton] at *
  · refine ⟨by omega, ?_, by grind⟩
    rw [show s.async.calls - (p + 1) = n by omega]
  all_goals grind

theorem Inv.done {max : Nat} {s : State} (h : Inv max s) {t : Async.State} {p : Nat}
    (ho : p ∉ t.queue ∧ ¬ Busy t p ∧ p ∉ t.posted ∧ p < t.calls)
    (hq : t.queue = s.async.queue)
    (hc : t.calls = s.async.calls) (h1' : t.starting = s.async.starting) (h2' : t.running = s.async.running)
    (h3' : t.finished = s.async.finished) (hp : ∀ q, q ∈ t.posted → q ∈ s.async.posted) :
    Inv max { s with async := t, log := s.log ++ [.over p] } := by
  obtain ⟨⟨u, hu1, hu2, hu3⟩, h2, h3, h4, h5, h6, h7, h8, h9, h10, h11, h12, h13⟩ := h
  refine ⟨⟨u, ?_⟩, ?_, ?_, ?_, ?_, ?_, ?_, ?_, ?_, ?_, ?_, ?_, ?_⟩ <;>
    simp only [hq, hc, Busy, SendOrder.busy, h1', h2', h3', before_snoc, List.mem_append, List.mem_singleton] at *
  · exact ⟨hu1, hu2, by grind⟩
  all_goals grind

theorem Inv.step {max : Nat} {s s' : State} {l : Label} (hr : Reach Async.step {} s.async) (h : Inv max s)
    (hs : step max s l = .ok s') : Inv max s' := by
  cases l with
  | send p =>
    simp only [SendOrder.step] at hs
    split at hs <;> cases hs
    rename_i hp
    refine h.send p hp.1 ?_
    intro hst
    have ha := (Async.inv_reach hr).2 p
    have hsum := ha.sum
    have h1 := Async.count_of_mem hp.1
    have h2 := Async.count_of_mem hst
    split at hsum <;> omega
  | sync =>
    simp only [SendOrder.step] at hs
    split at hs <;> cases hs
    rename_i hp
    exact h.sync' hp
  | syncSent =>
    simp only [SendOrder.step] at hs
    split at hs <;> cases hs
    rename_i hk
    exact h.sent' _ hk
  | syncFailed =>
    simp only [SendOrder.step] at hs
    split at hs <;> cases hs
    exact h.syncFailed
  | async k =>
    simp only [SendOrder.step] at hs
    split at hs
    case isFalse => cases hs
    rename_i hg
    obtain ⟨hm, hg⟩ := hg
    split at hs
    case h_2 => cases hs
    case h_3 => cases hs
    rename_i t ht
    cases hs
    have hr' := hr.step ht
    cases k with
    | submit =>
      have hp := hm rfl
      simp only [Async.step] at ht
      split at ht <;> cases ht
      exact h.submit hp rfl rfl rfl rfl rfl rfl
    | check p =>
      simp only [mayStart, decide_eq_true_eq] at hg
      simp only [Async.step] at ht
      split at ht
      case isFalse => cases ht
      split at ht
      case h_2 => cases ht
      split at ht <;> cases ht
      · refine h.check hg.1 hg.2 rfl rfl ?_ ?_ rfl (by simp +contextual)
        · intro q; simp only [Busy, List.mem_cons]; grind
        · simp only [SendOrder.busy, List.length_cons]; omega
      · refine h.check hg.1 hg.2 rfl rfl ?_ ?_ rfl (by simp +contextual)
        · intro q; simp only [Busy, List.mem_cons]; grind
        · simp only [SendOrder.busy, List.length_cons]; omega
    | done p =>
      have ho : p ∉ t.queue ∧ ¬ Busy t p ∧ p ∉ t.posted ∧ p < t.calls := by
        have hfin : 0 < t.finishing.count p := by
          simp only [Async.step] at ht
          (repeat' split at ht) <;> cases ht <;> simp
        have ha := (Async.inv_reach hr').2 p
        have hsum := ha.sum
        obtain ⟨tx, htx⟩ := Async.alive_of_mem ha (by omega)
        rw [htx] at hsum
        simp only [Option.isSome_some, if_true] at hsum
        refine ⟨?_, ?_, ?_, ?_⟩
        · intro hq; have := Async.count_of_mem hq; omega
        · rintro (hq | hq | hq) <;> have := Async.count_of_mem hq <;> omega
        · intro hq; have := Async.count_of_mem hq; omega
        · apply Classical.byContradiction
          intro hn
          rw [(ha.new (by omega)).1] at htx
          cases htx
      simp only [Async.step] at ht
      split at ht
      case isFalse => cases ht
      split at ht <;> cases ht
      exact h.done ho rfl rfl rfl rfl rfl (fun q hq => List.mem_of_mem_erase hq)
    | exec p =>
      simp only [Async.step] at ht
      split at ht
      case isFalse => cases ht
      rename_i hmem
      split at ht <;> cases ht
      simp only [events, List.append_nil]
      refine h.quiet rfl rfl ?_ ?_ (fun q hq => .inr hq) (fun q hq => List.mem_of_mem_erase hq)
      · intro q; simp only [Busy, List.mem_cons]; intro hq
        have := @List.mem_of_mem_erase _ _ q p s.async.starting
        grind
      · have := List.length_pos_of_mem hmem
        simp only [SendOrder.busy, List.length_cons, List.length_erase_of_mem hmem]; omega
    | executed p =>
      simp only [Async.step] at ht
      split at ht <;> cases ht
      rename_i hmem
      simp only [events, List.append_nil]
      refine h.quiet rfl rfl ?_ ?_ (fun q hq => .inr hq) (fun q hq => hq)
      · intro q; simp only [Busy, List.mem_cons]; intro hq
        have := @List.mem_of_mem_erase _ _ q p s.async.running
        grind
      · have := List.length_pos_of_mem hmem
        simp only [SendOrder.busy, List.length_cons, List.length_erase_of_mem hmem]; omega
    | post p =>
      simp only [Async.step] at ht
      split at ht
      case isFalse => cases ht
      rename_i hmem
      split at ht <;> cases ht
      simp only [events, List.append_nil]
      refine h.quiet rfl rfl ?_ ?_ ?_ (fun q hq => hq)
      · intro q; simp only [Busy]; intro hq
        have := @List.mem_of_mem_erase _ _ q p s.async.finished
        grind
      · simp only [SendOrder.busy, List.length_erase_of_mem hmem]; omega
      · intro q; simp only [Busy, List.mem_cons]; grind
    | free p =>
      simp only [Async.step] at ht
      split at ht
      case isFalse => cases ht
      split at ht <;> cases ht
      simp only [events, List.append_nil]
      exact h.quiet rfl rfl (fun q hq => hq) (Nat.le_refl _) (fun q hq => .inr hq) (fun q hq => hq)
    | cancel id =>
      simp only [Async.step] at ht
      simp only [events, List.append_nil]
      split at ht
      · split at ht <;> cases ht
        exact h.quiet rfl rfl (fun q hq => hq) (Nat.le_refl _) (fun q hq => .inr hq) (fun q hq => hq)
      · cases ht
        exact h
    | flush p =>
      simp only [Async.step] at ht
      split at ht
      case isFalse => cases ht
      split at ht <;> cases ht
      simp only [events, List.append_nil]
      exact h.quiet rfl rfl (fun q hq => hq) (Nat.le_refl _) (fun q hq => .inr (List.mem_of_mem_erase hq)) (fun q hq => hq)

theorem Inv.reach {max : Nat} {s : State} (h : Reach (SendOrder.step max) {} s) : Inv max s := by
  have := Reach.invariant (P := fun s => Reach Async.step {} s.async ∧ Inv max s) ⟨Reach.init, Inv.init max⟩
    (by
      intro s l s' ⟨hr, hi⟩ hs
      refine ⟨?_, hi.step hr hs⟩
      rcases step_async hs with h | ⟨k, hk⟩
      · rw [h]; exact hr
      · exact hr.step hk) h
  exact this.2

/-- What the events say about calls. -/
theorem sent_called {max : Nat} {s : State} (h : Inv max s) {d : Call} (hd : .sent d ∈ s.log) :
    (∃ q, d = .async q ∧ q < s.async.calls) ∨ ∃ k, d = .sync k ∧ k < s.syncs := by
  cases d with
  | async q =>
    obtain ⟨t, ht, _, h3⟩ := h.order
    have := (h3 q).1 (h.sent q hd)
    exact .inl ⟨q, rfl, by omega⟩
  | sync k => exact .inr ⟨k, rfl, (h.syncSent k hd).1⟩

/-- What's added to the log by a step. -/
theorem step_log {max : Nat} {s s' : State} {l : Label} (hs : step max s l = .ok s') :
    s'.log = s.log ∨ (∃ e, s'.log = s.log ++ [e] ∧ ∀ c,
      (e = .called c → c = .async s.async.calls ∨ c = .sync s.syncs) ∧
      (e = .sent c → (∃ p, c = .async p ∧ p ∈ s.async.running) ∨ ∃ k, c = .sync k ∧ s.pending = some k)) := by
  cases l with
  | send p =>
    simp only [step] at hs
    split at hs <;> cases hs
    rename_i hp
    refine .inr ⟨_, rfl, fun c => ⟨(by intro h; cases h), fun h => ?_⟩⟩
    cases h
    exact .inl ⟨p, rfl, hp.1⟩
  | sync =>
    simp only [step] at hs
    split at hs <;> cases hs
    refine .inr ⟨_, rfl, fun c => ⟨fun h => ?_, (by intro h; cases h)⟩⟩
    cases h
    exact .inr rfl
  | syncSent =>
    simp only [step] at hs
    split at hs <;> cases hs
    rename_i k hk
    refine .inr ⟨_, rfl, fun c => ⟨(by intro h; cases h), fun h => ?_⟩⟩
    cases h
    exact .inr ⟨k, rfl, hk⟩
  | syncFailed =>
    simp only [step] at hs
    split at hs <;> cases hs
    exact .inl rfl
  | async k =>
    simp only [step] at hs
    split at hs
    case isFalse => cases hs
    split at hs <;> cases hs
    cases k <;> simp only [events, List.append_nil] <;>
      first
      | exact .inl trivial
      | exact .inr ⟨_, rfl, fun c => by grind⟩

/-- Calls are in order as long as nothing is sent too late. -/
theorem ordered {max : Nat} {s : State} (h : Reach (SendOrder.step max) {} s) (a : Ev) (c d : Call)
    (hl : ∀ s, Reach (SendOrder.step max) {} s → Before a (.called d) s.log → .sent d ∈ s.log →
      (∀ p, c = .async p → p ∉ s.async.running) ∧ ∀ k, c = .sync k → s.pending ≠ some k) :
    Before a (.called d) s.log → ¬ Before (.sent d) (.sent c) s.log := by
  have := Reach.invariant (P := fun s => Reach (SendOrder.step max) {} s ∧
      (Before a (.called d) s.log → ¬ Before (.sent d) (.sent c) s.log)) ⟨Reach.init, fun h => absurd h (before_nil _ _)⟩
    (by
      intro s l s' ⟨hr, hi⟩ hs
      refine ⟨hr.step hs, ?_⟩
      have hinv := Inv.reach hr
      rcases step_log hs with he | ⟨e, he, hc⟩
      · rw [he]; exact hi
      rw [he]
      simp only [before_snoc]
      rintro (h1 | ⟨h1, h2⟩) (h3 | ⟨h3, h4⟩)
      · exact hi h1 h3
      · have h5 := hl s hr h1 h3
        rcases (hc c).2 h4.symm with ⟨p, rfl, hp⟩ | ⟨k, rfl, hk⟩
        · exact h5.1 p rfl hp
        · exact h5.2 k rfl hk
      · rcases sent_called hinv (before_mem h3).1 with ⟨q, rfl, hq⟩ | ⟨k, rfl, hk⟩ <;>
          rcases (hc _).1 h2.symm with h | h <;> cases h <;> omega
      · rw [← h2] at h4
        cases h4) h
  exact this.2

end Gb.SendOrder
