import Verif.Lemmas.LocalObj
import Verif.Spec.LocalObj
/- What the log of the local object machine says. -/
set_option autoImplicit false

namespace Gb.LocalObj

theorem balance_append (q : Nat) (l : List Ev) (e : Ev) :
    balance q (l ++ [e]) = if e = .new q then 0 else if e = .ran .acquire q then balance q l + 1
      else if e = .ran .release q then balance q l - 1 else balance q l := by
  simp only [balance, List.foldl_append, List.foldl_cons, List.foldl_nil]

theorem count_append (e x : Ev) (l : List Ev) :
    count e (l ++ [x]) = count e l + if x = e then 1 else 0 := by
  simp only [count, List.countP_append, List.countP_cons, List.countP_nil, decide_eq_true_eq, Nat.zero_add]


def State.uq (s : State) (q : Nat) : Nat := s.unrefs.countP fun x => decide (x = (Kind.acquire, q))

def State.tq (s : State) (q : Nat) : Nat :=
  s.tasks.countP fun x => decide (x.kind = .acquire ∧ x.obj = q)

structure LogInv (s : State) (q : Nat) : Prop where
  strong : (strongOf (s.objs q) : Int) = balance q s.log
  acks : count (.handled .acquire q) s.log = count (.ack q) s.log + s.tq q
  credit : count (.ack q) s.log = s.credit q + count (.handled .release q) s.log
  noacq : s.uq q = 0

theorem log_init (q : Nat) : LogInv {} q := by
  refine ⟨?_, ?_, ?_, ?_⟩ <;> simp [strongOf, balance, count, State.tq, State.uq]

theorem LogInv.of_eq {s s' : State} {q : Nat} (h : LogInv s q)
    (h1 : strongOf (s'.objs q) = strongOf (s.objs q)) (h2 : s'.log = s.log)
    (h3 : s'.tq q = s.tq q) (h4 : s'.credit q = s.credit q)
    (h5 : s'.uq q = s.uq q) : LogInv s' q := by
  obtain ⟨a, b, c, d⟩ := h
  exact ⟨by rw [h1, h2]; exact a, by rw [h2, h3]; exact b, by rw [h2, h4]; exact c, by rw [h5]; exact d⟩

/-- Counting references doesn't matter here. -/
theorem LogInv.addRef {s s' : State} {p q : Nat} (hs : s.addRef p = .ok s') (h : LogInv s q) :
    LogInv s' q := by
  obtain ⟨o, ho, h0, rfl⟩ := addRef_ok hs
  refine h.of_eq ?_ rfl rfl rfl rfl
  by_cases hq : q = p
  · subst hq; simp only [upd_same, ho, strongOf]
  · simp only [upd_ne _ _ hq]

theorem LogInv.unref {s s' : State} {p q : Nat} (hs : s.unref p = .ok s') (h : LogInv s q) :
    LogInv s' q := by
  obtain ⟨o, ho, ⟨h0, rfl⟩ | ⟨h0, rfl⟩⟩ := unref_ok hs
  · exact h.of_eq rfl rfl rfl rfl rfl
  · refine h.of_eq ?_ rfl rfl rfl rfl
    by_cases hq : q = p
    · subst hq; simp only [upd_same, ho, strongOf]
    · simp only [upd_ne _ _ hq]

/-- An uninteresting event. -/
theorem LogInv.add {s : State} {q : Nat} {e : Ev} (h : LogInv s q) (h1 : e ≠ .new q)
    (h2 : e ≠ .ran .acquire q) (h3 : e ≠ .ran .release q) (h4 : e ≠ .handled .acquire q)
    (h5 : e ≠ .handled .release q) (h6 : e ≠ .ack q) : LogInv (s.add e) q := by
  obtain ⟨a, b, c, d⟩ := h
  refine ⟨?_, ?_, ?_, ?_⟩
  · simp only [State.add, balance_append, if_neg h1, if_neg h2, if_neg h3]; exact a
  · simp only [State.add, count_append, if_neg h4, if_neg h6]; exact b
  · simp only [State.add, count_append, if_neg h5, if_neg h6]; exact c
  · exact d

theorem log_step {s s' : State} {l : Label} (hi : Inv s) (h : ∀ q, LogInv s q)
    (hs : step s l = .ok s') (q : Nat) : LogInv s' q := by
  have hq := h q
  cases l with
  | new p =>
    simp only [step] at hs
    split at hs
    case isFalse => cases hs
    case isTrue hc =>
      cases hs
      by_cases hp : q = p
      · subst hp
        obtain ⟨a, b, c, d⟩ := hq
        refine ⟨?_, ?_, ?_, ?_⟩
        · simp [State.add, balance_append, upd_same, strongOf]
        · simp only [State.add, count_append, reduceCtorEq, if_false]; exact b
        · simp only [State.add, count_append, reduceCtorEq, if_false]; exact c
        · exact d
      · refine LogInv.add (hq.of_eq ?_ rfl rfl rfl rfl) ?_ ?_ ?_ ?_ ?_ ?_ <;> try (intro h; cases h; done)
        · simp only [upd_ne _ _ hp]
        · intro h; cases h; exact hp rfl
  | ref p =>
    simp only [step] at hs
    split at hs
    · exact LogInv.addRef hs (hq.of_eq rfl rfl rfl rfl rfl)
    · cases hs
  | unref p =>
    simp only [step] at hs
    split at hs
    · exact LogInv.unref hs (hq.of_eq rfl rfl rfl rfl rfl)
    · cases hs
  | getLocal p =>
    simp only [step] at hs
    split at hs
    · exact LogInv.addRef hs (hq.of_eq rfl rfl rfl rfl rfl)
    · cases hs; exact hq
  | handle k p =>
    simp only [step] at hs
    split at hs
    case isFalse => cases hs
    case isTrue hc =>
      split at hs
      · refine LogInv.addRef hs (LogInv.add (hq.of_eq rfl rfl ?_ rfl rfl) ?_ ?_ ?_ ?_ ?_ ?_) <;>
          try (intro h; cases h; done)
        simp [State.tq, List.countP_cons]
      · refine LogInv.addRef hs ?_
        obtain ⟨a, b, c, d⟩ := hq
        refine ⟨?_, ?_, ?_, ?_⟩
        · simp only [State.add, balance_append, reduceCtorEq, if_false]; exact a
        · simp only [State.tq] at b
          simp only [State.add, count_append, Ev.handled.injEq, true_and, State.tq, List.countP_cons,
            reduceCtorEq, if_false, decide_eq_true_eq]
          omega
        · simp only [State.add, count_append, Ev.handled.injEq, reduceCtorEq, false_and, if_false]
          exact c
        · exact d
      · cases hs
        refine LogInv.add (hq.of_eq rfl rfl rfl rfl ?_) ?_ ?_ ?_ ?_ ?_ ?_ <;>
          try (intro h; cases h; done)
        simp [State.uq, List.countP_cons]
      · split at hs
        case isFalse => cases hs
        rename_i hcr
        cases hs
        obtain ⟨a, b, c, d⟩ := hq
        refine ⟨?_, ?_, ?_, ?_⟩
        · simp only [State.add, balance_append, reduceCtorEq, if_false]; exact a
        · simp only [State.tq] at b
          simp only [State.add, count_append, Ev.handled.injEq, State.tq,
            reduceCtorEq, false_and, if_false]
          omega
        · simp only [State.add, count_append, Ev.handled.injEq, true_and, reduceCtorEq, if_false]
          by_cases hp : q = p
          · subst hp
            simp only [upd_same, if_true]; omega
          · have : ¬ p = q := fun e => hp e.symm
            simp only [upd_ne _ _ hp, this, if_false]; omega
        · simp only [State.uq] at d
          simp only [State.add, State.uq, List.countP_cons, Prod.mk.injEq, reduceCtorEq, false_and,
            decide_false, Bool.false_eq_true, if_false]
          exact d
  | cleanup k p =>
    simp only [step] at hs
    split at hs
    case isFalse => cases hs
    rename_i hm
    have hk : ¬ (k = .acquire ∧ p = q) := by
      rintro ⟨rfl, rfl⟩
      have := hq.noacq
      simp only [State.uq, List.countP_eq_zero] at this
      simpa using this _ hm
    refine LogInv.addRef hs (hq.of_eq rfl rfl ?_ rfl ?_)
    · simp only [State.tq, List.countP_cons, decide_eq_true_eq, hk, if_false, Nat.add_zero]
    · have hk' : ¬ (k, p) = (Kind.acquire, q) := fun e => hk (by cases e; exact ⟨rfl, rfl⟩)
      simp only [State.uq, countP_erase_sub _ hm, decide_eq_true_eq, hk', if_false, Nat.sub_zero]
  | put p =>
    simp only [step] at hs
    split at hs
    · exact LogInv.unref hs (hq.of_eq rfl rfl rfl rfl rfl)
    · cases hs
  | run t =>
    simp only [step] at hs
    split at hs
    case isFalse => cases hs
    rename_i hm
    obtain ⟨k, p, r⟩ := t
    obtain rfl : r = false := hm.2
    simp only [runTask] at hs
    split at hs
    case h_1 => cases hs
    rename_i o ho
    -- the number of the callbacks stays the same
    have ht : ((⟨k, p, true⟩ : Task) :: s.tasks.erase ⟨k, p, false⟩).countP
        (fun x => decide (x.kind = .acquire ∧ x.obj = q)) = s.tq q := by
      have := countP_erase (fun x : Task => decide (x.kind = .acquire ∧ x.obj = q)) hm.1
      simp only [decide_eq_true_eq] at this
      simp only [State.tq, List.countP_cons, decide_eq_true_eq]
      exact this
    have ho' : s.objs p = some o := ho
    obtain ⟨a, b, c, d⟩ := hq
    cases k with
    | increfs =>
      cases hs
      refine LogInv.of_eq (s := ({ s with tasks := ⟨.increfs, p, true⟩ :: s.tasks.erase ⟨.increfs, p, false⟩ } : State).add (.ran .increfs p))
        (LogInv.add (LogInv.of_eq ⟨a, b, c, d⟩ rfl rfl ht rfl rfl) ?_ ?_ ?_ ?_ ?_ ?_) ?_ rfl rfl rfl rfl <;>
        try (intro h; cases h; done)
      by_cases hp : q = p
      · subst hp; simp only [State.add, upd_same, ho', strongOf]
      · simp only [State.add, upd_ne _ _ hp]
    | decrefs =>
      cases hs
      refine LogInv.of_eq (s := ({ s with tasks := ⟨.decrefs, p, true⟩ :: s.tasks.erase ⟨.decrefs, p, false⟩ } : State).add (.ran .decrefs p))
        (LogInv.add (LogInv.of_eq ⟨a, b, c, d⟩ rfl rfl ht rfl rfl) ?_ ?_ ?_ ?_ ?_ ?_) ?_ rfl rfl rfl rfl <;>
        try (intro h; cases h; done)
      by_cases hp : q = p
      · subst hp; simp only [State.add, upd_same, ho', strongOf]
      · simp only [State.add, upd_ne _ _ hp]
    | acquire =>
      refine LogInv.addRef hs ⟨?_, ?_, ?_, d⟩
      · by_cases hp : q = p
        · subst hp
          rw [ho'] at a
          simp only [strongOf] at a
          simp only [State.add, balance_append, upd_same, strongOf, reduceCtorEq, if_false, if_true]
          omega
        · have : ¬ p = q := fun e => hp e.symm
          simp only [State.add, balance_append, upd_ne _ _ hp, Ev.ran.injEq, this, reduceCtorEq,
            and_false, if_false]
          exact a
      · simp only [State.add, count_append, reduceCtorEq, if_false, Nat.add_zero, State.tq, ht]
        exact b
      · simp only [State.add, count_append, reduceCtorEq, if_false]
        exact c
    | release =>
      have hst : 0 < o.strong := by
        have h1 := (hi p).credit
        have h2 : 0 < (s.view p).tr := by
          simp only [State.view, State.tr, List.countP_pos_iff]
          exact ⟨_, hm.1, by simp⟩
        have h3 := (view_some ho').2.1
        omega
      simp only [hst, if_true, gt_iff_lt] at hs
      refine LogInv.unref hs ⟨?_, ?_, ?_, d⟩
      · by_cases hp : q = p
        · subst hp
          rw [ho'] at a
          simp only [strongOf] at a
          simp only [State.add, balance_append, upd_same, strongOf, Ev.ran.injEq, reduceCtorEq,
            false_and, if_false, if_true]
          omega
        · have : ¬ p = q := fun e => hp e.symm
          simp only [State.add, balance_append, upd_ne _ _ hp, Ev.ran.injEq, this, reduceCtorEq,
            and_false, if_false]
          exact a
      · simp only [State.add, count_append, reduceCtorEq, if_false, Nat.add_zero, State.tq, ht]
        exact b
      · simp only [State.add, count_append, reduceCtorEq, if_false]
        exact c
  | done t =>
    simp only [step] at hs
    split at hs
    case isFalse => cases hs
    rename_i hm
    obtain ⟨k, p, r⟩ := t
    have he := countP_erase (fun x : Task => decide (x.kind = .acquire ∧ x.obj = q)) hm.1
    simp only [decide_eq_true_eq] at he
    simp only [taskDone] at hs
    cases k with
    | acquire =>
      simp only at hs
      split at hs
      case h_1 => cases hs
      obtain ⟨a, b, c, d⟩ := hq
      simp only [true_and] at he
      refine LogInv.unref hs ⟨?_, ?_, ?_, d⟩
      · simp only [State.add, balance_append, reduceCtorEq, if_false]
        exact a
      · simp only [State.tq] at b
        simp only [State.add, count_append, reduceCtorEq, if_false, Nat.add_zero, State.tq,
          Ev.ack.injEq]
        omega
      · simp only [State.add, count_append, reduceCtorEq, if_false, Nat.add_zero, Ev.ack.injEq]
        by_cases hp : q = p
        · subst hp
          simp only [upd_same, if_true]; omega
        · have : ¬ p = q := fun e => hp e.symm
          simp only [upd_ne _ _ hp, this, if_false]; omega
    | increfs =>
      exact LogInv.unref hs (hq.of_eq rfl rfl (by simpa [State.tq] using he) rfl rfl)
    | decrefs =>
      exact LogInv.unref hs (hq.of_eq rfl rfl (by simpa [State.tq] using he) rfl rfl)
    | release =>
      exact LogInv.unref hs (hq.of_eq rfl rfl (by simpa [State.tq] using he) rfl rfl)
  | dispose p =>
    simp only [step] at hs
    split at hs
    case isFalse => cases hs
    split at hs
    case h_1 => cases hs
    split at hs <;> (cases hs; exact hq.of_eq rfl rfl rfl rfl rfl)
  | settle p =>
    simp only [step] at hs
    split at hs
    case isFalse => cases hs
    split at hs
    case h_1 => cases hs
    rename_i o ho
    split at hs
    case isTrue => cases hs
    split at hs
    all_goals
      cases hs
      refine hq.of_eq ?_ rfl rfl rfl rfl
      by_cases hp : q = p
      · subst hp; simp only [upd_same, ho, strongOf]
      · simp only [upd_ne _ _ hp]
  | invalidate p =>
    simp only [step] at hs
    split at hs
    case isFalse => cases hs
    split at hs
    case h_1 => cases hs
    cases hs; exact hq.of_eq rfl rfl rfl rfl rfl
  | free p =>
    simp only [step] at hs
    split at hs
    case isFalse => cases hs
    rename_i hm
    split at hs
    case h_1 => cases hs
    rename_i o ho
    cases hs
    refine LogInv.add (hq.of_eq ?_ rfl rfl rfl rfl) ?_ ?_ ?_ ?_ ?_ ?_ <;> try (intro h; cases h; done)
    by_cases hp : q = p
    · subst hp
      have h1 := (hi q).refs
      have h2 := (hi q).zero
      have h3 : 0 < (s.view q).dr := by
        simp only [State.view, State.dy, List.countP_pos_iff]
        exact ⟨_, hm, by simp⟩
      have h4 : (s.view q).strong = strongOf (s.objs q) := rfl
      have h5 : strongOf (upd s.objs q none q) = 0 := by simp only [upd_same, strongOf]
      simp only []
      omega
    · simp only [upd_ne _ _ hp]

theorem log_reach {s : State} (h : Reach step {} s) (q : Nat) : LogInv s q :=
  (h.invariant (P := fun s => Inv s ∧ ∀ q, LogInv s q) ⟨inv_init, log_init⟩
    fun _ _ _ hi hs => ⟨inv_step hi.1 hs, log_step hi.1 hi.2 hs⟩).2 q

end Gb.LocalObj
