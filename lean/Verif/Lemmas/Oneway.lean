import Verif.Spec.Oneway
/-
Lemmas for C88.
-/
set_option autoImplicit false

namespace Gb.Oneway

/-- Between the kernel's queue and BC_FREE_BUFFER. -/
def Kern.flying : Kern → Bool
  | .queued | .delivered => true
  | _ => false

/-- The handler has been called. -/
def Work.begun : Work → Bool
  | .running _ | .blocked | .ended => true
  | _ => false

/-- The kernel. -/
structure Glob (n : Nat) (s : State) : Prop where
  unsent : ∀ i, s.sent ≤ i ↔ (s.tx i).kern = .unsent
  mem : ∀ m j, j ∈ s.async m ↔ (s.tx j).kern = .waiting ∧ (s.tx j).node = m
  sorted : ∀ m, (s.async m).Pairwise (· < ·)
  busy : s.busy n = true ↔ ∃ i, (s.tx i).node = n ∧ (s.tx i).kern.flying = true
  idle : s.busy n = false → s.async n = []
  before : ∀ i j, (s.tx i).node = n → (s.tx j).node = n → (s.tx i).kern.flying = true → j < i → (s.tx j).kern = .freed
  after : ∀ i j, (s.tx i).node = n → (s.tx j).node = n → (s.tx i).kern.flying = true → i < j →
    (s.tx j).kern = .waiting ∨ (s.tx j).kern = .unsent

/-- A transaction, the last reference to which may be gone. -/
structure Loose (n : Nat) (t : Tx) : Prop where
  fresh : (t.kern = .unsent ∨ t.kern = .waiting ∨ t.kern = .queued) →
    t.looper = false ∧ t.tx = false ∧ t.held = 0 ∧ t.parts = 0 ∧ t.work = .none
  full : t.node = n → t.kern ≠ .unsent → t.empty = false
  gone : t.node = n → t.kern = .freed → t.alive = false ∧ t.parts = 0
  sched : (t.work = .scheduled ∨ t.work = .running false) → t.tx = true
  own : t.work = .running true → t.looper = true
  none : t.work = .none → (t.kern = .delivered ∨ t.kern = .freed) → t.looper = true
  txw : t.tx = true → t.work = .scheduled ∨ t.work = .running false ∨ t.work = .ended

/-- A transaction. -/
structure Loc (n : Nat) (t : Tx) : Prop extends Loose n t where
  kept : t.node = n → t.kern = .delivered → t.alive = true ∨ 0 < t.parts
  blocked : t.work = .blocked → t.alive = true

/-- What has been seen. -/
structure Seen (n : Nat) (s : State) : Prop where
  started : ∀ i m, .started i m ∈ s.log ↔ (s.tx i).node = m ∧ (s.tx i).work.begun = true
  ended : ∀ i, .ended i ∈ s.log ↔ (s.tx i).work = .ended
  order : InOrder n s.log

structure Inv (n : Nat) (s : State) : Prop where
  glob : Glob n s
  loc : ∀ i, Loc n (s.tx i)
  seen : Seen n s

theorem put_tx (s : State) (i : Nat) (t : Tx) (j : Nat) : (s.put i t).tx j = if j = i then t else s.tx j := by
  simp only [State.put, upd]

theorem append_one {α : Type} {l a c : List α} {e x : α} (h : l ++ [e] = a ++ x :: c) :
    (c = [] ∧ a = l ∧ x = e) ∨ ∃ c', c = c' ++ [e] ∧ l = a ++ x :: c' := by
  rcases List.eq_nil_or_concat c with rfl | ⟨c', b, rfl⟩
  · left
    have := List.append_inj' h rfl
    exact ⟨rfl, this.1.symm, by simpa using this.2.symm⟩
  · right
    rw [List.concat_eq_append, show a ++ x :: (c' ++ [b]) = (a ++ x :: c') ++ [b] by simp] at h
    have := List.append_inj' h rfl
    refine ⟨c', ?_, this.1⟩
    simp at this
    rw [List.concat_eq_append, this.2]

theorem Glob.put {n : Nat} {s : State} (h : Glob n s) (i : Nat) (t : Tx) (hk : t.kern = (s.tx i).kern) (hn : t.node = (s.tx i).node)
    (log : List Ev) : Glob n { s.put i t with log := log } := by
  have key : ∀ j, ((s.put i t).tx j).kern = (s.tx j).kern ∧ ((s.put i t).tx j).node = (s.tx j).node := by
    intro j
    rw [put_tx]
    split
    · rename_i hj; subst hj; exact ⟨hk, hn⟩
    · exact ⟨rfl, rfl⟩
  constructor
  · intro j; show _ ↔ ((s.put i t).tx j).kern = _; rw [(key j).1]; exact h.unsent j
  · intro m j; show _ ↔ ((s.put i t).tx j).kern = _ ∧ ((s.put i t).tx j).node = m; rw [(key j).1, (key j).2]; exact h.mem m j
  · exact h.sorted
  · show _ ↔ ∃ j, ((s.put i t).tx j).node = n ∧ ((s.put i t).tx j).kern.flying = true
    simp only [(key _).1, (key _).2]; exact h.busy
  · exact h.idle
  · intro a b
    show ((s.put i t).tx a).node = n → ((s.put i t).tx b).node = n → ((s.put i t).tx a).kern.flying = true → _ → ((s.put i t).tx b).kern = _
    simp only [(key _).1, (key _).2]; exact h.before a b
  · intro a b
    show ((s.put i t).tx a).node = n → ((s.put i t).tx b).node = n → ((s.put i t).tx a).kern.flying = true → _ →
      ((s.put i t).tx b).kern = _ ∨ ((s.put i t).tx b).kern = _
    simp only [(key _).1, (key _).2]; exact h.after a b

theorem Glob.free {n : Nat} {s : State} (h : Glob n s) {i : Nat} (hi : (s.tx i).kern = .delivered) : Glob n (s.free i) := by
  obtain ⟨unsent, mem, sorted, busy, idle, before, after⟩ := h
  simp only [State.free, State.put]
  split
  case h_1 he =>
    constructor <;> simp only [upd] <;> grind [Kern.flying]
  case h_2 j r he =>
    have hj := mem (s.tx i).node j
    have hs := sorted (s.tx i).node
    rw [he] at hj hs
    have hj' := hj.mp (by simp)
    rw [List.pairwise_cons] at hs
    have hr : ∀ k, k ∈ r ↔ (s.tx k).kern = .waiting ∧ (s.tx k).node = (s.tx i).node ∧ k ≠ j := by
      intro k
      have := mem (s.tx i).node k
      rw [he] at this
      have := hs.1 k
      grind
    constructor <;> simp only [upd]
    · grind
    · grind
    · grind
    · grind [Kern.flying]
    · grind
    · grind [Kern.flying]
    · grind [Kern.flying]

theorem free_log (s : State) (i : Nat) : (s.free i).log = s.log := by
  simp only [State.free, State.put]
  split <;> rfl

theorem free_tx {n : Nat} {s : State} (h : Glob n s) {i : Nat} (hi : (s.tx i).kern = .delivered) (k : Nat) :
    (s.free i).tx k = { s.tx k with kern := ((s.free i).tx k).kern } ∧
      ((k ≠ i ∧ ((s.free i).tx k).kern = (s.tx k).kern) ∨ (k = i ∧ ((s.free i).tx k).kern = .freed) ∨
        ((s.tx k).kern = .waiting ∧ ((s.free i).tx k).kern = .queued)) := by
  simp only [State.free, State.put]
  split
  case h_1 =>
    simp only [upd]
    by_cases hk : k = i
    · subst hk; simp
    · simp [hk]
  case h_2 j r he =>
    have hj := (h.mem (s.tx i).node j).mp (by rw [he]; simp)
    simp only [upd]
    by_cases hk : k = j
    · subst hk
      have hji : k ≠ i := by rintro rfl; rw [hi] at hj; cases hj.1
      simp [hji, hj.1]
    · by_cases hk' : k = i
      · subst hk'; simp [hk]
      · simp [hk, hk']

theorem Seen.same {n : Nat} {s s' : State} (h : Seen n s) (hl : s'.log = s.log)
    (ht : ∀ i, (s'.tx i).node = (s.tx i).node ∧ (s'.tx i).work = (s.tx i).work) : Seen n s' := by
  constructor
  · intro i m; rw [hl, (ht i).1, (ht i).2]; exact h.started i m
  · intro i; rw [hl, (ht i).2]; exact h.ended i
  · rw [hl]; exact h.order

theorem InOrder.ended {n : Nat} {log : List Ev} (h : InOrder n log) (i : Nat) : InOrder n (log ++ [.ended i]) := by
  intro a j c he
  rcases append_one he with ⟨-, -, h1⟩ | ⟨c', -, h1⟩
  · cases h1
  · exact h a j c' h1

theorem InOrder.started {n : Nat} {log : List Ev} (h : InOrder n log) (j m : Nat)
    (hj : m = n → ∀ i, .started i n ∈ log → i < j ∧ .ended i ∈ log) : InOrder n (log ++ [.started j m]) := by
  intro a j' c he
  rcases append_one he with ⟨-, rfl, h1⟩ | ⟨c', -, h1⟩
  · cases h1; exact hj rfl
  · exact h a j' c' h1

/-- It has been dealt with. -/
theorem Seen.finish {n : Nat} {s : State} (h : Seen n s) (i : Nat) (t : Tx) (hb : (s.tx i).work.begun = true)
    (hn : t.node = (s.tx i).node) (hw : t.work = .ended) :
    Seen n { s.put i t with log := s.log ++ [.ended i] } := by
  obtain ⟨h1, h2, h3⟩ := h
  constructor
  · intro k m; show _ ↔ ((s.put i t).tx k).node = m ∧ _; simp only [put_tx]; grind [Work.begun]
  · intro k; show _ ↔ ((s.put i t).tx k).work = _; simp only [put_tx]; grind [Work.begun]
  · exact h3.ended i

/-- The handler is called. -/
theorem Seen.begin {n : Nat} {s : State} (hg : Glob n s) (hl : ∀ i, Loc n (s.tx i)) (h : Seen n s) (i : Nat) (t : Tx)
    (hb : (s.tx i).work = .none ∨ (s.tx i).work = .scheduled) (ha : (s.tx i).alive = true)
    (hn : t.node = (s.tx i).node) (hw : t.work.begun = true) (hw' : t.work ≠ .ended) :
    Seen n { s.put i t with log := s.log ++ [.started i (s.tx i).node] } := by
  obtain ⟨h1, h2, h3⟩ := h
  constructor
  · intro k m; show _ ↔ ((s.put i t).tx k).node = m ∧ _; simp only [put_tx]; grind [Work.begun]
  · intro k; show _ ↔ ((s.put i t).tx k).work = _; simp only [put_tx]; grind [Work.begun]
  · refine h3.started _ _ ?_
    intro hm k hk
    obtain ⟨k1, k2⟩ := (h1 k n).mp hk
    have hki : k ≠ i := by rintro rfl; rcases hb with hb | hb <;> rw [hb] at k2 <;> cases k2
    have li := hl i
    have lk := hl k
    have hdi : (s.tx i).kern = .delivered := by
      have h4 := li.fresh
      have h5 := li.gone hm
      simp only [Tx.alive] at ha h5
      cases hq : (s.tx i).kern <;> simp_all
    have hnk : (s.tx k).kern = .delivered ∨ (s.tx k).kern = .freed := by
      have h4 := lk.fresh
      cases hq : (s.tx k).kern <;> simp_all [Work.begun]
    have hlt : k < i := by
      rcases Nat.lt_or_gt_of_ne hki with h4 | h4
      · exact h4
      · have := hg.after i k hm k1 (by rw [hdi]; rfl) h4
        grind
    refine ⟨hlt, ?_⟩
    have hf := hg.before i k hm k1 (by rw [hdi]; rfl) hlt
    rw [h2]
    have hg' := lk.gone k1 hf
    have c1 := lk.sched
    have c2 := lk.own
    have c3 := lk.blocked
    simp only [Tx.alive] at hg' c3
    cases hq : (s.tx k).work with
    | running own => cases own <;> simp_all
    | _ => simp_all [Work.begun]

theorem Inv.settle {n : Nat} {s : State} {i : Nat} (hg : Glob n s) (hl : ∀ k, k ≠ i → Loc n (s.tx k)) (hi : Loose n (s.tx i))
    (hs : Seen n s) : Inv n (s.settle i) := by
  simp only [State.settle]
  split
  case isTrue ha =>
    refine ⟨hg, ?_, hs⟩
    intro k
    by_cases hk : k = i
    · subst hk
      exact { hi with kept := fun _ _ => .inl ha, blocked := fun _ => ha }
    · exact hl k hk
  case isFalse ha =>
    have step1 : ∃ s1, s1 = (if (s.tx i).work = .blocked then
        { s.put i { s.tx i with work := .ended } with log := s.log ++ [.ended i] } else s) ∧ Glob n s1 ∧
        (∀ k, k ≠ i → s1.tx k = s.tx k) ∧ Seen n s1 ∧ Loose n (s1.tx i) ∧ (s1.tx i).work ≠ .blocked ∧
        (s1.tx i).kern = (s.tx i).kern ∧ (s1.tx i).parts = (s.tx i).parts ∧ (s1.tx i).alive = false := by
      refine ⟨_, rfl, ?_⟩
      split
      case isTrue hb =>
        refine ⟨hg.put i { s.tx i with work := .ended } rfl rfl _, ?_,
          hs.finish i { s.tx i with work := .ended } (by rw [hb]; rfl) rfl rfl, ?_, ?_, ?_, ?_, ?_⟩
        · intro k hk; show (s.put i _).tx k = _; rw [put_tx, if_neg hk]
        all_goals simp only [State.put, upd, if_true]
        · exact ⟨by have := hi.fresh; grind, hi.full, hi.gone, by simp, by simp, by simp, by simp⟩
        · simp
        · simpa [Tx.alive] using ha
      case isFalse hb => exact ⟨hg, fun _ _ => rfl, hs, hi, hb, rfl, rfl, by simpa using ha⟩
    obtain ⟨s1, e1, g1, t1, n1, l1, b1, k1, p1, a1⟩ := step1
    rw [← e1]
    split
    case isTrue hc =>
      have hd : (s1.tx i).kern = .delivered := by rw [k1]; exact hc.2
      refine ⟨g1.free hd, ?_, ?_⟩
      · intro k
        obtain ⟨f1, f2⟩ := free_tx g1 hd k
        have hsame := f1
        generalize hq : ((s1.free i).tx k).kern = q at f1 f2
        rw [f1]
        by_cases hk : k = i
        · subst hk
          obtain ⟨c1, c2, c3, c4, c5, c6, c9⟩ := l1
          have hp : (s1.tx k).parts = 0 := by rw [p1]; exact hc.1
          refine ⟨⟨?_, ?_, ?_, c4, c5, ?_, c9⟩, ?_, ?_⟩ <;> simp only [Tx.alive] at * <;> grind
        · have h0 := hl k hk
          rw [← t1 k hk] at h0
          obtain ⟨⟨c1, c2, c3, c4, c5, c6, c9⟩, c7, c8⟩ := h0
          refine ⟨⟨?_, ?_, ?_, c4, c5, ?_, c9⟩, ?_, c8⟩ <;> simp only [Tx.alive] at * <;> grind
      · refine n1.same (free_log _ _) ?_
        intro k
        rw [(free_tx g1 hd k).1]
        exact ⟨rfl, rfl⟩
    case isFalse hc =>
      refine ⟨g1, ?_, n1⟩
      intro k
      by_cases hk : k = i
      · subst hk
        refine { l1 with kept := ?_, blocked := fun h => absurd h b1 }
        intro _ h2
        rw [k1] at h2
        rw [p1]
        right
        have : (s.tx k).parts ≠ 0 := fun h => hc ⟨h, h2⟩
        omega
      · rw [t1 k hk]; exact hl k hk

theorem Loc.put {n : Nat} {s : State} (h : ∀ k, Loc n (s.tx k)) {i : Nat} {t : Tx} (ht : Loc n t) (k : Nat) :
    Loc n ((s.put i t).tx k) := by
  rw [put_tx]
  split
  · exact ht
  · exact h k

theorem Seen.put {n : Nat} {s : State} (h : Seen n s) (i : Nat) (t : Tx) (hn : t.node = (s.tx i).node)
    (hw : t.work.begun = (s.tx i).work.begun) (hw' : t.work = .ended ↔ (s.tx i).work = .ended) : Seen n (s.put i t) := by
  constructor
  · intro k m
    rw [put_tx]
    split
    · rename_i hk; subst hk; rw [hn, hw]; exact h.started k m
    · exact h.started k m
  · intro k
    rw [put_tx]
    split
    · rename_i hk; subst hk; rw [hw']; exact h.ended k
    · exact h.ended k
  · exact h.order

/-- A reference is dropped. -/
theorem Inv.drop {n : Nat} {s : State} (h : Inv n s) (i : Nat) (t : Tx) (hk : t.kern = (s.tx i).kern) (hn : t.node = (s.tx i).node)
    (hl : Loose n t) (hw : t.work.begun = (s.tx i).work.begun) (hw' : t.work = .ended ↔ (s.tx i).work = .ended) :
    Inv n ((s.put i t).settle i) := by
  refine Inv.settle (h.glob.put i t hk hn s.log) ?_ ?_ (h.seen.put i t hn hw hw')
  · intro k hki
    rw [put_tx, if_neg hki]
    exact h.loc k
  · rw [put_tx, if_pos rfl]
    exact hl

theorem Inv.send {n : Nat} {s : State} (h : Inv n s) {m : Nat} {e : Bool} (he : m = n → e = false) {s' : State}
    (hs : step s (.send m e) = .ok s') : Inv n s' := by
  obtain ⟨hg, hl, hse⟩ := h
  have h0 : (s.tx s.sent).kern = .unsent := (hg.unsent _).mp (Nat.le_refl _)
  have hf := (hl s.sent).fresh (.inl h0)
  simp only [step, Out.ok.injEq] at hs
  have hseen : ∀ (t : Tx), t.work = .none → Seen n (s.put s.sent t) := by
    intro t ht
    obtain ⟨a, b, c⟩ := hse
    constructor
    · intro k m; rw [put_tx]; grind [Work.begun, State.put]
    · intro k; rw [put_tx]; grind [Work.begun, State.put]
    · exact c
  obtain ⟨unsent, mem, sorted, busy, idle, before, after⟩ := hg
  split at hs
  case isTrue hb =>
    subst hs
    refine ⟨?_, ?_, ?_⟩
    · have hlt : ∀ k, k ∈ s.async m → k < s.sent := by
        intro k hk
        have := (mem m k).mp hk
        have := unsent k
        rcases Nat.lt_or_ge k s.sent with h | h
        · exact h
        · grind
      constructor <;> simp only [State.put, upd]
      · intro i; have := unsent i; by_cases hi : i = s.sent
        · subst hi; simp
        · simp only [hi, if_false, ← this]; omega
      · grind
      · intro m'
        have := sorted m'
        split
        · rename_i hm; subst hm
          rw [List.pairwise_append]
          exact ⟨this, by simp, by intro a ha b hb; simp at hb; subst hb; exact hlt a ha⟩
        · exact this
      · grind [Kern.flying]
      · grind
      · grind [Kern.flying]
      · grind [Kern.flying]
    · refine Loc.put hl ⟨⟨?_, ?_, ?_, ?_, ?_, ?_, ?_⟩, ?_, ?_⟩ <;> simp_all
    · exact (hseen _ rfl).same rfl fun _ => ⟨rfl, rfl⟩
  case isFalse hb =>
    subst hs
    refine ⟨?_, ?_, ?_⟩
    · constructor <;> simp only [State.put, upd]
      · intro i; have := unsent i; by_cases hi : i = s.sent
        · subst hi; simp
        · simp only [hi, if_false, ← this]; omega
      · grind
      · exact sorted
      · grind [Kern.flying]
      · grind
      · intro i j
        have h1 := before i j
        have h2 := after i j
        have h3 := unsent j
        have h4 := mem n j
        have h5 : m = n → ∀ k, (s.tx k).node = n → (s.tx k).kern.flying = false := by
          rintro rfl k hk
          cases hq : (s.tx k).kern.flying
          · rfl
          · exact absurd (busy.mpr ⟨k, hk, hq⟩) hb
        have h6 : m = n → s.async n = [] := by rintro rfl; exact idle (by simpa using hb)
        have h7 : m = n → j < s.sent → (s.tx j).node = n → (s.tx j).kern = .freed := by
          intro a b c
          have b1 := h5 a j c
          rw [h6 a] at h4
          have e1 : (s.tx j).kern ≠ .unsent := fun h => absurd (h3.mpr h) (by omega)
          have e2 : (s.tx j).kern ≠ .waiting := fun h => absurd (h4.mpr ⟨h, c⟩) (by simp)
          cases hq : (s.tx j).kern <;> rw [hq] at b1 e1 e2 <;> first | rfl | (exact absurd rfl e1) | (exact absurd rfl e2) | cases b1
        grind [Kern.flying]
      · intro i j
        have h2 := after i j
        have h3 := unsent j
        have h5 : m = n → ∀ k, (s.tx k).node = n → (s.tx k).kern.flying = false := by
          rintro rfl k hk
          cases hq : (s.tx k).kern.flying
          · rfl
          · exact absurd (busy.mpr ⟨k, hk, hq⟩) hb
        grind [Kern.flying]
    · refine Loc.put hl ⟨⟨?_, ?_, ?_, ?_, ?_, ?_, ?_⟩, ?_, ?_⟩ <;> simp_all
    · exact (hseen _ rfl).same rfl fun _ => ⟨rfl, rfl⟩

theorem Inv.take {n : Nat} {s : State} (h : Inv n s) {i : Nat} {s' : State} (hs : step s (.take i) = .ok s') : Inv n s' := by
  simp only [step] at hs
  split at hs
  case isFalse => cases hs
  case isTrue hk =>
    obtain ⟨hg, hl, hse⟩ := h
    have hf := (hl i).fresh (.inr (.inr hk))
    have g1 : Glob n (s.put i { s.tx i with kern := .delivered, looper := true }) := by
      obtain ⟨unsent, mem, sorted, busy, idle, before, after⟩ := hg
      constructor <;> simp only [State.put, upd]
      · grind
      · grind
      · exact sorted
      · grind [Kern.flying]
      · exact idle
      · grind [Kern.flying]
      · grind [Kern.flying]
    have s1 : Seen n (s.put i { s.tx i with kern := .delivered, looper := true }) :=
      hse.put i { s.tx i with kern := .delivered, looper := true } rfl rfl Iff.rfl
    have l1 : ∀ k, Loc n ((s.put i { s.tx i with kern := .delivered, looper := true }).tx k) := by
      have c2 := (hl i).full
      exact Loc.put hl ⟨⟨by simp, by simp; grind, by simp, by simp [hf.2.2.2.2], by simp, by simp, by simp [hf.2.1]⟩, by simp [Tx.alive], by simp [hf.2.2.2.2]⟩
    have hd : ((s.put i { s.tx i with kern := .delivered, looper := true }).tx i).kern = .delivered := by simp [put_tx]
    split at hs
    case isFalse => cases hs; exact ⟨g1, l1, s1⟩
    case isTrue he =>
      cases hs
      have hn : (s.tx i).node ≠ n := fun hc => by
        have := (hl i).full hc (by rw [hk]; simp)
        rw [this] at he
        cases he
      refine ⟨g1.free hd, ?_, ?_⟩
      · intro k
        obtain ⟨f1, f2⟩ := free_tx g1 hd k
        have h0 := l1 k
        generalize hq : (((s.put i { s.tx i with kern := .delivered, looper := true }).free i).tx k).kern = q at f1 f2
        rw [f1]
        by_cases hki : k = i
        · subst hki
          simp only [put_tx, if_true] at h0 f2 ⊢
          obtain ⟨⟨c1, c2, c3, c4, c5, c6, c9⟩, c7, c8⟩ := h0
          refine ⟨⟨?_, ?_, ?_, c4, c5, ?_, c9⟩, ?_, c8⟩ <;> simp only [Tx.alive] at * <;> grind
        · obtain ⟨⟨c1, c2, c3, c4, c5, c6, c9⟩, c7, c8⟩ := h0
          refine ⟨⟨?_, ?_, ?_, c4, c5, ?_, c9⟩, ?_, c8⟩ <;> simp only [Tx.alive] at * <;> grind
      · refine s1.same (free_log _ _) ?_
        intro k
        rw [(free_tx g1 hd k).1]
        exact ⟨rfl, rfl⟩

theorem alive_looper {t : Tx} (h : t.looper = true) : t.alive = true := by simp [Tx.alive, h]

theorem alive_tx {t : Tx} (h : t.tx = true) : t.alive = true := by simp [Tx.alive, h]

theorem Inv.step {n : Nat} {s s' : State} {l : Label} (h : Inv n s) (hok : Full n s l) (hs : step s l = .ok s') : Inv n s' := by
  have hs0 := hs
  cases l with
  | send m e => exact h.send hok hs
  | take i => exact h.take hs
  | direct i =>
    simp only [Oneway.step] at hs
    split at hs <;> cases hs
    rename_i hc
    obtain ⟨⟨c1, c2, c3, c4, c5, c6, c9⟩, c7, c8⟩ := h.loc i
    refine ⟨h.glob.put i { s.tx i with work := .running true } rfl rfl _, Loc.put h.loc ?_,
      Seen.begin h.glob h.loc h.seen i { s.tx i with work := .running true } (.inl hc.2) (alive_looper hc.1) rfl rfl (by simp)⟩
    refine ⟨⟨?_, c2, c3, ?_, ?_, ?_, ?_⟩, c7, ?_⟩ <;> simp only [Tx.alive] at * <;> grind
  | schedule i =>
    simp only [Oneway.step] at hs
    split at hs <;> cases hs
    rename_i hc
    obtain ⟨⟨c1, c2, c3, c4, c5, c6, c9⟩, c7, c8⟩ := h.loc i
    refine ⟨h.glob.put i { s.tx i with work := .scheduled, tx := true } rfl rfl s.log, Loc.put h.loc ?_,
      h.seen.put i { s.tx i with work := .scheduled, tx := true } rfl (by rw [hc.2]; rfl) (by rw [hc.2]; simp)⟩
    refine ⟨⟨?_, c2, ?_, ?_, ?_, ?_, ?_⟩, ?_, ?_⟩ <;> simp only [Tx.alive] at * <;> grind
  | refuse i =>
    simp only [Oneway.step] at hs
    split at hs <;> cases hs
    rename_i hc
    obtain ⟨⟨c1, c2, c3, c4, c5, c6, c9⟩, c7, c8⟩ := h.loc i
    refine ⟨h.glob.put i { s.tx i with work := .refused } rfl rfl s.log, Loc.put h.loc ?_,
      h.seen.put i { s.tx i with work := .refused } rfl (by rw [hc.2]; rfl) (by rw [hc.2]; simp)⟩
    refine ⟨⟨?_, c2, c3, ?_, ?_, ?_, ?_⟩, c7, ?_⟩ <;> simp only [Tx.alive] at * <;> grind
  | begin i =>
    simp only [Oneway.step] at hs
    split at hs
    case isFalse => cases hs
    case isTrue hc =>
      split at hs <;> cases hs
      rename_i ht
      obtain ⟨⟨c1, c2, c3, c4, c5, c6, c9⟩, c7, c8⟩ := h.loc i
      refine ⟨h.glob.put i { s.tx i with work := .running false } rfl rfl _, Loc.put h.loc ?_,
        Seen.begin h.glob h.loc h.seen i { s.tx i with work := .running false } (.inr hc) (alive_tx ht) rfl rfl (by simp)⟩
      refine ⟨⟨?_, c2, c3, ?_, ?_, ?_, ?_⟩, c7, ?_⟩ <;> simp only [Tx.alive] at * <;> grind
  | ret i =>
    simp only [Oneway.step] at hs
    split at hs <;> cases hs
    rename_i own hc
    obtain ⟨⟨c1, c2, c3, c4, c5, c6, c9⟩, c7, c8⟩ := h.loc i
    refine ⟨h.glob.put i { s.tx i with work := .ended } rfl rfl _, Loc.put h.loc ?_,
      h.seen.finish i { s.tx i with work := .ended } (by rw [hc]; rfl) rfl rfl⟩
    refine ⟨⟨?_, c2, c3, ?_, ?_, ?_, ?_⟩, c7, ?_⟩ <;> simp only [Tx.alive] at * <;> grind
  | block i =>
    simp only [Oneway.step] at hs
    split at hs <;> cases hs
    rename_i hc
    obtain ⟨⟨c1, c2, c3, c4, c5, c6, c9⟩, c7, c8⟩ := h.loc i
    refine h.drop i { s.tx i with work := .blocked, tx := false } rfl rfl ?_ (by rw [hc]; rfl) (by rw [hc]; simp)
    refine ⟨?_, c2, ?_, ?_, ?_, ?_, ?_⟩ <;> simp only [Tx.alive] at * <;> grind
  | complete i =>
    simp only [Oneway.step] at hs
    split at hs <;> cases hs
    rename_i hc
    obtain ⟨⟨c1, c2, c3, c4, c5, c6, c9⟩, c7, c8⟩ := h.loc i
    refine ⟨h.glob.put i { s.tx i with work := .ended } rfl rfl _, Loc.put h.loc ?_,
      h.seen.finish i { s.tx i with work := .ended } (by rw [hc.1]; rfl) rfl rfl⟩
    refine ⟨⟨?_, c2, c3, ?_, ?_, ?_, ?_⟩, c7, ?_⟩ <;> simp only [Tx.alive] at * <;> grind
  | fin i =>
    simp only [Oneway.step] at hs
    split at hs <;> cases hs
    rename_i hc
    obtain ⟨⟨c1, c2, c3, c4, c5, c6, c9⟩, c7, c8⟩ := h.loc i
    refine h.drop i { s.tx i with tx := false } rfl rfl ?_ rfl Iff.rfl
    refine ⟨?_, c2, ?_, ?_, ?_, ?_, ?_⟩ <;> simp only [Tx.alive] at * <;> grind
  | leave i =>
    simp only [Oneway.step] at hs
    split at hs <;> cases hs
    rename_i hc
    obtain ⟨⟨c1, c2, c3, c4, c5, c6, c9⟩, c7, c8⟩ := h.loc i
    refine h.drop i { s.tx i with looper := false, parts := (s.tx i).parts + 1 } rfl rfl ?_ rfl Iff.rfl
    refine ⟨?_, c2, ?_, ?_, ?_, ?_, ?_⟩ <;> simp only [Tx.alive] at * <;> grind
  | cancel i =>
    simp only [Oneway.step] at hs
    split at hs <;> cases hs
    rename_i hc
    obtain ⟨⟨c1, c2, c3, c4, c5, c6, c9⟩, c7, c8⟩ := h.loc i
    refine h.drop i { s.tx i with work := .cancelled, tx := false } rfl rfl ?_ (by rw [hc]; rfl) (by rw [hc]; simp)
    refine ⟨?_, c2, ?_, ?_, ?_, ?_, ?_⟩ <;> simp only [Tx.alive] at * <;> grind
  | hold i =>
    simp only [Oneway.step] at hs
    split at hs <;> cases hs
    rename_i hc
    obtain ⟨⟨c1, c2, c3, c4, c5, c6, c9⟩, c7, c8⟩ := h.loc i
    refine ⟨h.glob.put i { s.tx i with held := (s.tx i).held + 1 } rfl rfl s.log, Loc.put h.loc ?_,
      h.seen.put i { s.tx i with held := (s.tx i).held + 1 } rfl rfl Iff.rfl⟩
    refine ⟨⟨?_, c2, ?_, c4, c5, c6, c9⟩, ?_, ?_⟩ <;> simp only [Tx.alive] at * <;> grind
  | drop i =>
    simp only [Oneway.step] at hs
    split at hs <;> cases hs
    rename_i hc
    obtain ⟨⟨c1, c2, c3, c4, c5, c6, c9⟩, c7, c8⟩ := h.loc i
    refine h.drop i { s.tx i with held := (s.tx i).held - 1 } rfl rfl ?_ rfl Iff.rfl
    refine ⟨?_, c2, ?_, c4, c5, c6, c9⟩ <;> simp only [Tx.alive] at * <;> grind
  | holdPart i =>
    simp only [Oneway.step] at hs
    split at hs <;> cases hs
    rename_i hc
    obtain ⟨⟨c1, c2, c3, c4, c5, c6, c9⟩, c7, c8⟩ := h.loc i
    refine ⟨h.glob.put i { s.tx i with parts := (s.tx i).parts + 1 } rfl rfl s.log, Loc.put h.loc ?_,
      h.seen.put i { s.tx i with parts := (s.tx i).parts + 1 } rfl rfl Iff.rfl⟩
    refine ⟨⟨?_, c2, ?_, c4, c5, c6, c9⟩, ?_, ?_⟩ <;> simp only [Tx.alive] at * <;> grind
  | dropPart i =>
    simp only [Oneway.step] at hs
    split at hs <;> cases hs
    rename_i hc
    obtain ⟨⟨c1, c2, c3, c4, c5, c6, c9⟩, c7, c8⟩ := h.loc i
    refine h.drop i { s.tx i with parts := (s.tx i).parts - 1 } rfl rfl ?_ rfl Iff.rfl
    refine ⟨?_, c2, ?_, c4, c5, c6, c9⟩ <;> simp only [Tx.alive] at * <;> grind

/-- Only the kernel changes it. -/
def Moved (t t' : Tx) : Prop := t' = { t with kern := t'.kern } ∧ (t'.kern = t.kern ∨ (t.kern = .waiting ∧ t'.kern = .queued))

theorem Moved.refl (t : Tx) : Moved t t := ⟨rfl, .inl rfl⟩

theorem Moved.trans {a b c : Tx} (h : Moved a b) (h' : Moved b c) : Moved a c := by
  obtain ⟨h1, h2⟩ := h
  obtain ⟨h3, h4⟩ := h'
  refine ⟨?_, by grind⟩
  rw [h3, h1]

theorem free_other {n : Nat} {s : State} (h : Glob n s) {i : Nat} (hi : (s.tx i).kern = .delivered) {k : Nat} (hk : k ≠ i) :
    Moved (s.tx k) ((s.free i).tx k) := by
  obtain ⟨a, b⟩ := free_tx h hi k
  exact ⟨a, by grind⟩

theorem settle_other {n : Nat} {s : State} (h : Glob n s) {i k : Nat} (hk : k ≠ i) : Moved (s.tx k) ((s.settle i).tx k) := by
  simp only [State.settle]
  split
  · exact Moved.refl _
  · have key : ∀ s1 : State, s1 = (if (s.tx i).work = .blocked then
        { s.put i { s.tx i with work := .ended } with log := s.log ++ [.ended i] } else s) →
        Glob n s1 ∧ s1.tx k = s.tx k ∧ (s1.tx i).kern = (s.tx i).kern := by
      intro s1 e
      subst e
      split
      · exact ⟨h.put i { s.tx i with work := .ended } rfl rfl _, by simp [State.put, upd, hk], by simp [State.put, upd]⟩
      · exact ⟨h, rfl, rfl⟩
    obtain ⟨a, b, c⟩ := key _ rfl
    split
    · rename_i hc
      rw [← b]
      exact free_other a (by rw [c]; exact hc.2) hk
    · rw [b]; exact Moved.refl _

theorem settle_self {n : Nat} {s : State} (h : Glob n s) {i : Nat} (hb : (s.tx i).work = .blocked → (s.tx i).alive = true) :
    ((s.settle i).tx i) = { s.tx i with kern := ((s.settle i).tx i).kern } ∧
      (((s.settle i).tx i).kern = (s.tx i).kern ∨ ((s.tx i).kern = .delivered ∧ ((s.settle i).tx i).kern = .freed)) := by
  simp only [State.settle]
  split
  · exact ⟨rfl, .inl rfl⟩
  · rename_i ha
    rw [if_neg (fun hc => ha (hb hc))]
    split
    · rename_i hc
      obtain ⟨a, b⟩ := free_tx h hc.2 i
      exact ⟨a, by grind⟩
    · exact ⟨rfl, .inl rfl⟩

/-- How much is left to do. -/
def todo (t : Tx) : Nat :=
  (match t.work with | .none => 6 | .scheduled => 3 | .running _ => 2 | .blocked => 1 | _ => 0) +
    t.held + t.parts + (if t.looper then 2 else 0) + (if t.tx then 1 else 0)

theorem put_step {n : Nat} {s s' : State} {j : Nat} {t : Tx} {l : Label} (h : Inv n s) (hs : step s l = .ok s') (hl : Full n s l)
    (hs' : s'.tx = (s.put j t).tx) (hn : t.node = (s.tx j).node) (hk : t.kern = (s.tx j).kern) (ht : todo t < todo (s.tx j))
    (hb : t.work = .blocked → 0 < t.held) :
    Inv n s' ∧ todo (s'.tx j) < todo (s.tx j) ∧ (s'.tx j).node = (s.tx j).node ∧ ((s'.tx j).work = .blocked → 0 < (s'.tx j).held) ∧
      ((s'.tx j).kern = (s.tx j).kern ∨ ((s.tx j).kern = .delivered ∧ (s'.tx j).kern = .freed)) ∧ ∀ k, k ≠ j → Moved (s.tx k) (s'.tx k) := by
  refine ⟨h.step hl hs, ?_⟩
  have e : s'.tx j = t := by rw [hs', put_tx, if_pos rfl]
  rw [e]
  refine ⟨ht, hn, hb, .inl hk, ?_⟩
  intro k hkj
  rw [hs', put_tx, if_neg hkj]
  exact Moved.refl _

theorem drop_step {n : Nat} {s : State} {j : Nat} {t : Tx} {l : Label} (h : Inv n s)
    (hs : step s l = .ok ((s.put j t).settle j)) (hl : Full n s l) (hn : t.node = (s.tx j).node) (hk : t.kern = (s.tx j).kern)
    (ht : todo t < todo (s.tx j)) (hb : t.work ≠ .blocked) :
    Inv n ((s.put j t).settle j) ∧ todo (((s.put j t).settle j).tx j) < todo (s.tx j) ∧ (((s.put j t).settle j).tx j).node = (s.tx j).node ∧
      ((((s.put j t).settle j).tx j).work = .blocked → 0 < (((s.put j t).settle j).tx j).held) ∧
      ((((s.put j t).settle j).tx j).kern = (s.tx j).kern ∨ ((s.tx j).kern = .delivered ∧ (((s.put j t).settle j).tx j).kern = .freed)) ∧
      ∀ k, k ≠ j → Moved (s.tx k) (((s.put j t).settle j).tx k) := by
  have hg : Glob n (s.put j t) := h.glob.put j t hk hn s.log
  have e : (s.put j t).tx j = t := by rw [put_tx, if_pos rfl]
  obtain ⟨a, b⟩ := settle_self (i := j) hg (by rw [e]; exact fun h => absurd h hb)
  rw [e] at a b
  generalize hq : (((s.put j t).settle j).tx j).kern = q at a b
  refine ⟨h.step hl hs, ?_, ?_, ?_, ?_, ?_⟩
  · rw [a]; exact ht
  · rw [a]; exact hn
  · rw [a]; exact fun h => absurd h hb
  · rw [← hk]; exact b
  · intro k hkj
    have := settle_other hg (i := j) hkj
    rw [put_tx, if_neg hkj] at this
    exact this

theorem advance {n : Nat} {s : State} (h : Inv n s) {j : Nat} (hn : (s.tx j).node = n) (hd : (s.tx j).kern = .delivered)
    (hb : (s.tx j).work = .blocked → 0 < (s.tx j).held) :
    ∃ l s', step s l = .ok s' ∧ usual j s l ∧ Full n s l ∧ Inv n s' ∧ todo (s'.tx j) < todo (s.tx j) ∧ (s'.tx j).node = (s.tx j).node ∧
      ((s'.tx j).work = .blocked → 0 < (s'.tx j).held) ∧
      ((s'.tx j).kern = (s.tx j).kern ∨ ((s.tx j).kern = .delivered ∧ (s'.tx j).kern = .freed)) ∧ ∀ k, k ≠ j → Moved (s.tx k) (s'.tx k) := by
  obtain ⟨⟨c1, c2, c3, c4, c5, c6, c9⟩, c7, c8⟩ := h.loc j
  -- those who let go of it, once it has been dealt with
  have letgo : ((s.tx j).work = .refused ∨ (s.tx j).work = .ended ∨ (s.tx j).work = .cancelled) →
      ∃ l s', step s l = .ok s' ∧ usual j s l ∧ Full n s l ∧ Inv n s' ∧ todo (s'.tx j) < todo (s.tx j) ∧ (s'.tx j).node = (s.tx j).node ∧
      ((s'.tx j).work = .blocked → 0 < (s'.tx j).held) ∧
      ((s'.tx j).kern = (s.tx j).kern ∨ ((s.tx j).kern = .delivered ∧ (s'.tx j).kern = .freed)) ∧ ∀ k, k ≠ j → Moved (s.tx k) (s'.tx k) := by
    intro hw
    have nb : (s.tx j).work ≠ .blocked := by grind
    cases ht : (s.tx j).tx
    · cases hl : (s.tx j).looper
      · by_cases hh : 0 < (s.tx j).held
        · have hs : step s (.drop j) = .ok ((s.put j { s.tx j with held := (s.tx j).held - 1 }).settle j) := by simp [step, hh]
          exact ⟨_, _, hs, rfl, trivial, drop_step h hs trivial rfl rfl (by simp only [todo]; omega) nb⟩
        · have hp : 0 < (s.tx j).parts := by
            have := c7 hn hd
            simp only [Tx.alive, ht, hl, hh] at this
            simpa using this
          have hs : step s (.dropPart j) = .ok ((s.put j { s.tx j with parts := (s.tx j).parts - 1 }).settle j) := by simp [step, hp]
          exact ⟨_, _, hs, rfl, trivial, drop_step h hs trivial rfl rfl (by simp only [todo]; omega) nb⟩
      · have hs : step s (.leave j) = .ok ((s.put j { s.tx j with looper := false, parts := (s.tx j).parts + 1 }).settle j) := by
          simp only [step]
          rw [if_pos ⟨hl, by grind, by grind⟩]
        exact ⟨_, _, hs, ⟨rfl, hw⟩, trivial, drop_step h hs trivial rfl rfl (by simp [todo, hl]; omega) nb⟩
    · have he : (s.tx j).work = .ended := by have := c9 ht; grind
      have hs : step s (.fin j) = .ok ((s.put j { s.tx j with tx := false }).settle j) := by simp [step, he, ht]
      exact ⟨_, _, hs, rfl, trivial, drop_step h hs trivial rfl rfl (by simp [todo, ht]) nb⟩
  cases hw : (s.tx j).work with
  | none =>
    have hl := c6 hw (.inl hd)
    have hs : step s (.schedule j) = .ok (s.put j { s.tx j with work := .scheduled, tx := true }) := by simp [step, hw, hl]
    exact ⟨_, _, hs, rfl, trivial, put_step h hs trivial rfl rfl rfl (by simp only [todo, hw]; split <;> simp <;> omega) (by simp)⟩
  | refused => exact letgo (by rw [hw]; simp)
  | cancelled => exact letgo (by rw [hw]; simp)
  | ended => exact letgo (by rw [hw]; simp)
  | scheduled =>
    have ht := c4 (.inl hw)
    have hs : step s (.begin j) = .ok { s.put j { s.tx j with work := .running false } with log := s.log ++ [.started j (s.tx j).node] } := by
      simp [step, hw, ht]
    exact ⟨_, _, hs, rfl, trivial, put_step (t := { s.tx j with work := .running false }) h hs trivial rfl rfl rfl (by simp only [todo, hw]; omega) (by simp)⟩
  | running own =>
    have hs : step s (.ret j) = .ok { s.put j { s.tx j with work := .ended } with log := s.log ++ [.ended j] } := by simp [step, hw]
    exact ⟨_, _, hs, rfl, trivial, put_step (t := { s.tx j with work := .ended }) h hs trivial rfl rfl rfl (by simp only [todo, hw]; omega) (by simp)⟩
  | blocked =>
    have hs : step s (.complete j) = .ok { s.put j { s.tx j with work := .ended } with log := s.log ++ [.ended j] } := by
      simp [step, hw, hb hw]
    exact ⟨_, _, hs, rfl, trivial, put_step (t := { s.tx j with work := .ended }) h hs trivial rfl rfl rfl (by simp only [todo, hw]; omega) (by simp)⟩

theorem Usual.append {n i : Nat} {s s1 : State} {a b : List Label} (h : exec step s a = .ok s1) (ha : Usual n i s a) (hb : Usual n i s1 b) :
    Usual n i s (a ++ b) := by
  induction a generalizing s with
  | nil => cases h; exact hb
  | cons l ls ih =>
    simp only [exec] at h
    simp only [Usual, List.cons_append] at ha ⊢
    refine ⟨ha.1, ?_⟩
    split at h
    · rename_i s2 h2
      rw [h2] at ha
      rw [h2]
      exact ih h ha.2
    · cases h
    · cases h

theorem finish {n i j : Nat} (hji : j ≤ i) : ∀ m {s : State}, Inv n s → (s.tx j).node = n → (s.tx j).kern = .delivered →
    ((s.tx j).work = .blocked → 0 < (s.tx j).held) → todo (s.tx j) ≤ m →
    ∃ ls s', exec step s ls = .ok s' ∧ Usual n i s ls ∧ Inv n s' ∧ (s'.tx j).kern = .freed ∧ (s'.tx j).node = n ∧
      ((s'.tx j).work = .blocked → 0 < (s'.tx j).held) ∧ ∀ k, k ≠ j → Moved (s.tx k) (s'.tx k) := by
  intro m
  induction m with
  | zero =>
    intro s h hn hd hb hm
    obtain ⟨l, s', -, -, -, -, h1, -⟩ := advance h hn hd hb
    omega
  | succ m ih =>
    intro s h hn hd hb hm
    obtain ⟨l, s1, a1, a2, -, a4, a5, a6, a7, a8, a9⟩ := advance h hn hd hb
    rcases a8 with a8 | ⟨-, a8⟩
    · obtain ⟨ls, s', b1, b2, b3, b4, b5, b6, b7⟩ := ih a4 (a6.trans hn) (a8.trans hd) a7 (by omega)
      refine ⟨l :: ls, s', by simp only [exec, a1]; exact b1, ?_, b3, b4, b5, b6, fun k hk => (a9 k hk).trans (b7 k hk)⟩
      simp only [Usual, a1]
      exact ⟨⟨j, hji, hn, a2⟩, b2⟩
    · refine ⟨[l], s1, by simp only [exec, a1], ?_, a4, a8, a6.trans hn, a7, a9⟩
      simp only [Usual, a1]
      exact ⟨⟨j, hji, hn, a2⟩, trivial⟩

theorem Inv.init (n : Nat) : Inv n {} := by
  refine ⟨?_, ?_, ?_⟩
  · constructor <;> simp [Kern.flying]
  · intro i; constructor
    · constructor <;> simp
    · simp
    · simp
  · constructor
    · simp [Work.begun]
    · simp
    · intro a j c h; simp at h

theorem Inv.reach {n : Nat} {s : State} (h : ReachIf Oneway.step (Full n) {} s) : Inv n s := by
  induction h with
  | init => exact Inv.init n
  | step l _ hok hs ih => exact ih.step hok hs

end Gb.Oneway
