import Verif.Spec.Exit
/-
Invariants of gbinder_ipc_exit.
-/
set_option autoImplicit false

namespace Gb.Exit

/-- GBinderIpc instances which gbinder_ipc_exit hasn't got to. -/
def Pc.todo : Pc → List Nat
  | .off | .done => []
  | .next t | .pool _ t | .cancel _ _ t | .drop _ _ t | .put _ t => t

/-- Objects referenced by gbinder_ipc_exit. -/
def Pc.held : Pc → List Nat
  | .drop _ all _ => all
  | .put l _ => l
  | _ => []

theorem before_append {a b : List Ev} (h : .exit ∈ a) : before (a ++ b) = before a := by
  induction a with
  | nil => cases h
  | cons e a ih =>
    cases e <;> simp only [List.cons_append, before, List.cons.injEq, true_and] <;>
      first | rfl | (apply ih; simpa using h)

theorem before_all {a : List Ev} (h : .exit ∉ a) : before a = a := by
  induction a with
  | nil => rfl
  | cons e a ih => cases e <;> simp_all [before]

theorem before_exit {a : List Ev} (h : .exit ∉ a) : before (a ++ [.exit]) = a := by
  induction a with
  | nil => rfl
  | cons e a ih => cases e <;> simp_all [before]

/-- Always the case. -/
structure Inv (s : State) : Prop where
  bound : ∀ p, s.calls ≤ p → s.txs p = none
  exitLog : .exit ∈ s.log ↔ s.pc ≠ .off
  destroyed : ∀ p, s.log.count (.destroy p) = if p < s.calls ∧ s.txs p = none then 1 else 0
  obound : ∀ o, s.made ≤ o → s.objs o = none
  freed : ∀ o, s.log.count (.freed o) = if o < s.made ∧ s.objs o = none then 1 else 0
  refs : ∀ o x, s.objs o = some x → x.refs = x.user + x.strong + s.pc.held.count o ∧ 0 < x.refs
  heldLive : ∀ o, o ∈ s.pc.held → s.objs o ≠ none

theorem refAll_ok {l : List Nat} : ∀ {s : State}, (∀ o ∈ l, s.objs o ≠ none) →
    ∃ f, refAll l s = .ok { s with objs := f } ∧
      ∀ o, f o = (s.objs o).map fun x => { x with refs := x.refs + l.count o } := by
  induction l with
  | nil => intro s _; exact ⟨s.objs, rfl, fun o => by cases s.objs o <;> simp⟩
  | cons a l ih =>
    intro s h
    obtain ⟨x, hx⟩ := Option.ne_none_iff_exists'.1 (h a (by simp))
    simp only [refAll, addRef, hx, Out.andThen, Nat.add_zero]
    obtain ⟨f, h1, h2⟩ := ih (s := { s with objs := upd s.objs a (some { x with refs := x.refs + 1 }) }) (by
      intro o ho
      simp only [upd]
      split
      · simp
      · exact h o (by simp [ho]))
    refine ⟨f, h1, fun o => ?_⟩
    rw [h2 o]
    by_cases ho : o = a
    · subst ho; simp [upd, hx]; omega
    · have : ¬a = o := fun e => ho e.symm
      simp [upd, ho, this]

theorem mem_locals {s : State} {i o : Nat} : o ∈ s.locals i ↔ o < s.made ∧ ∃ x, s.objs o = some x ∧ x.ipc = i := by
  simp [State.locals]

theorem mem_table {s : State} {i p : Nat} : p ∈ s.table i ↔ p < s.calls ∧ ∃ x, s.txs p = some x ∧ x.ipc = i := by
  simp [State.table]

theorem not_busy {s : State} {i : Nat} (hb : s.busy i = false) {p : Nat} (hp : p < s.calls) :
    s.txs p ≠ some ⟨i, .pool⟩ := by
  simp [State.busy] at hb
  exact hb p hp

theorem isPerm_mem {a b : List Nat} (h : a.isPerm b = true) (x : Nat) : x ∈ a ↔ x ∈ b :=
  (List.isPerm_iff.1 h).mem_iff

theorem inv_unref {s s' : State} {o user strong : Nat} (h : Inv s) {x : Obj} (hx : s.objs o = some x)
    (hn : x.refs ≤ 1 → s.pc.held.count o = 0) (hu : user + strong = 1) (h1 : user ≤ x.user)
    (h2 : strong ≤ x.strong) (hs : unref s o user strong = .ok s') : Inv s' := by
  obtain ⟨b, el, d, ob, f, r, hl⟩ := h
  have hb := ob o
  simp only [unref, hx] at hs
  split at hs
  · rename_i hr
    cases hs
    refine ⟨b, ?_, ?_, ?_, ?_, ?_, ?_⟩ <;> simp only [State.add]
    · simpa using el
    · intro p; rw [List.count_append, d p]; simp; rfl
    · intro q hq; simp only [upd]; split
      · rfl
      · exact ob q hq
    · intro q
      rw [List.count_append, f q]
      by_cases hq : q = o
      · subst hq
        have : q < s.made := by
          apply Nat.lt_of_not_le; intro hle; rw [hb hle] at hx; cases hx
        simp [upd, hx, this]
      · have : ¬o = q := fun e => hq e.symm
        simp [upd, hq, this]
    · intro q y hy
      simp only [upd] at hy
      split at hy
      · cases hy
      · exact r q y hy
    · intro q hq
      have := hn hr
      simp only [upd]
      split
      · rename_i he; subst he
        exact absurd (List.count_pos_iff.2 hq) (by omega)
      · exact hl q hq
  · rename_i hr
    cases hs
    refine ⟨b, el, d, ?_, ?_, ?_, ?_⟩
    · intro q hq; simp only [upd]; split
      · rename_i he; subst he; rw [ob q hq] at hx; cases hx
      · exact ob q hq
    · intro q
      rw [f q]
      by_cases hq : q = o
      · subst hq; simp [upd, hx]
      · simp [upd, hq]
    · intro q y hy
      simp only [upd] at hy
      split at hy
      · rename_i he; subst he; cases hy
        have := r q x hx
        simp only
        omega
      · exact r q y hy
    · intro q hq
      simp only [upd]
      split
      · simp
      · exact hl q hq

theorem inv_addRef {s s' : State} {o user strong : Nat} (h : Inv s) (hu : user + strong = 1)
    (hs : addRef s o user strong = .ok s') : Inv s' := by
  obtain ⟨b, el, d, ob, f, r, hl⟩ := h
  simp only [addRef] at hs
  split at hs
  · rename_i x hx
    cases hs
    refine ⟨b, el, d, ?_, ?_, ?_, ?_⟩
    · intro q hq; simp only [upd]; split
      · rename_i he; subst he; rw [ob q hq] at hx; cases hx
      · exact ob q hq
    · intro q
      rw [f q]
      by_cases hq : q = o
      · subst hq; simp [upd, hx]
      · simp [upd, hq]
    · intro q y hy
      simp only [upd] at hy
      split at hy
      · rename_i he; subst he; cases hy
        have := r q x hx
        simp only
        omega
      · exact r q y hy
    · intro q hq
      simp only [upd]
      split
      · simp
      · exact hl q hq
  · cases hs

theorem inv_tx {s : State} (h : Inv s) {p : Nat} {tx : Tx} (hp : s.txs p = some tx) (tx' : Tx)
    {e : List Ev} (he : e = [] ∨ e = [.done p]) :
    Inv { s with txs := upd s.txs p (some tx'), log := s.log ++ e } := by
  obtain ⟨b, el, d, ob, f, r, hl⟩ := h
  refine ⟨?_, ?_, ?_, ob, ?_, r, hl⟩
  · intro q hq; simp only [upd]; split
    · rename_i he; subst he; rw [b q hq] at hp; cases hp
    · exact b q hq
  · rcases he with rfl | rfl <;> simpa using el
  · intro q
    have hc : (s.log ++ e).count (.destroy q) = s.log.count (.destroy q) := by
      rcases he with rfl | rfl <;> simp
    simp only
    rw [hc, d q]
    by_cases hq : q = p
    · subst hq; simp [upd, hp]
    · simp [upd, hq]
  · intro o
    have hc : (s.log ++ e).count (.freed o) = s.log.count (.freed o) := by
      rcases he with rfl | rfl <;> simp
    simp only
    rw [hc, f o]

theorem inv_gone {s : State} (h : Inv s) {p : Nat} {tx : Tx} (hp : s.txs p = some tx) :
    Inv { s with txs := upd s.txs p none, log := s.log ++ [.destroy p] } := by
  obtain ⟨b, el, d, ob, f, r, hl⟩ := h
  refine ⟨?_, by simpa using el, ?_, ob, ?_, r, hl⟩
  · intro q hq; simp only [upd]; split
    · rfl
    · exact b q hq
  · intro q
    simp only [List.count_append, d q]
    by_cases hq : q = p
    · subst hq
      have : q < s.calls := by
        apply Nat.lt_of_not_le; intro hle; rw [b q hle] at hp; cases hp
      simp [upd, hp, this]
    · have : ¬p = q := fun e => hq e.symm
      simp [upd, hq, this]
  · intro o; simp only [List.count_append, f o]; simp

/-- Only the program counter changes. -/
theorem inv_pc {s : State} (h : Inv s) {pc : Pc} (h1 : s.pc ≠ .off) (h2 : pc ≠ .off)
    (hh : pc.held = s.pc.held) {hp : Nat → Bool} {cb : Bool} :
    Inv { s with pc := pc, hasPool := hp, callback := cb } := by
  obtain ⟨b, el, d, ob, f, r, hl⟩ := h
  exact ⟨b, by simp [el, h1, h2], d, ob, f, by simpa only [hh] using r, by simpa only [hh] using hl⟩

theorem inv_step {s s' : State} (h : Inv s) (l : Label) (hs : step s l = .ok s') : Inv s' := by
  have hc := h
  obtain ⟨b, el, d, ob, f, r, hl⟩ := hc
  cases l with
  | «open» i =>
    simp only [step] at hs
    split at hs
    · cases hs; exact ⟨b, el, d, ob, f, r, hl⟩
    · cases hs
  | submit i =>
    simp only [step] at hs
    split at hs
    · cases hs
      refine ⟨?_, by simpa [State.add] using el, ?_, ob, ?_, r, hl⟩
      · intro q hq
        simp only [State.add] at hq ⊢
        rw [upd_ne _ _ (by omega)]; exact b q (by omega)
      · intro q
        simp only [State.add, List.count_append, d q]
        by_cases hq : q = s.calls
        · subst hq; simp [upd]
        · have : (q < s.calls + 1) ↔ q < s.calls := by omega
          simp [upd, hq, this]
      · intro o; simp only [State.add, List.count_append, f o]; simp; rfl
    · cases hs
  | finish p =>
    simp only [step] at hs
    split at hs
    · rename_i i hp
      cases hs
      simpa using inv_tx h hp ⟨i, .posted⟩ (e := []) (.inl rfl)
    · cases hs
  | complete p =>
    simp only [step] at hs
    split at hs
    · rename_i i hp
      split at hs
      · cases hs
        exact inv_tx h hp ⟨i, .completing⟩ (e := [.done p]) (.inr rfl)
      · cases hs
    · cases hs
  | destroy p =>
    simp only [step] at hs
    split at hs
    · rename_i i hp
      split at hs
      · cases hs
        exact inv_gone h hp
      · cases hs
    · cases hs
  | newObj i =>
    simp only [step] at hs
    split at hs
    · cases hs
      refine ⟨b, el, d, ?_, ?_, ?_, ?_⟩
      · intro q hq
        simp only at hq ⊢
        rw [upd_ne _ _ (by omega)]; exact ob q (by omega)
      · intro q
        simp only [f q]
        by_cases hq : q = s.made
        · subst hq; simp [upd]
        · have : (q < s.made + 1) ↔ q < s.made := by omega
          simp [upd, hq, this]
      · intro q y hy
        simp only [upd] at hy
        split at hy
        · rename_i he; subst he; cases hy
          have : s.pc.held.count s.made = 0 := by
            apply List.count_eq_zero.2; intro hm; exact hl _ hm (ob _ (Nat.le_refl _))
          simp [this]
        · exact r q y hy
      · intro q hq
        simp only [upd]
        split
        · simp
        · exact hl q hq
    · cases hs
  | ref o =>
    simp only [step] at hs
    split at hs
    · split at hs
      · exact inv_addRef h rfl hs
      · cases hs
    · cases hs
  | unref o =>
    simp only [step] at hs
    split at hs
    · rename_i x hx
      split at hs
      · rename_i hc
        refine inv_unref h hx ?_ rfl (by omega) (by omega) hs
        intro hr; have := r o x hx; omega
      · cases hs
    · cases hs
  | acquire o =>
    simp only [step] at hs
    split at hs
    · split at hs
      · exact inv_addRef h rfl hs
      · cases hs
    · cases hs
  | release o =>
    simp only [step] at hs
    split at hs
    · rename_i x hx
      split at hs
      · rename_i hc
        refine inv_unref h hx ?_ rfl (by omega) (by omega) hs
        intro hr; have := r o x hx; omega
      · cases hs
    · cases hs
  | exit l =>
    simp only [step] at hs
    split at hs
    · rename_i hc
      cases hs
      refine ⟨b, by simp [State.add], ?_, ob, ?_, ?_, ?_⟩
      · intro q; simp only [State.add, List.count_append, d q]; simp; rfl
      · intro q; simp only [State.add, List.count_append, f q]; simp; rfl
      · intro q y hy; have := r q y hy; rw [hc.1] at this; exact this
      · intro q hq; cases hq
    · cases hs
  | next =>
    simp only [step] at hs
    split at hs
    · rename_i hp
      cases hs
      refine ⟨b, ?_, ?_, ob, ?_, ?_, ?_⟩
      · simp [State.add, el, hp]
      · intro q; simp only [State.add, List.count_append, d q]; simp; rfl
      · intro q; simp only [State.add, List.count_append, f q]; simp; rfl
      · intro q y hy; have := r q y hy; rw [hp] at this; exact this
      · intro q hq; cases hq
    · rename_i i todo hp
      cases hs
      exact inv_pc h (by simp [hp]) (by simp) (by simp [hp, Pc.held])
    · cases hs
  | wait keys =>
    simp only [step] at hs
    split at hs
    · rename_i i todo hp
      split at hs
      · cases hs
        exact inv_pc h (by simp [hp]) (by simp) (by simp [hp, Pc.held])
      · cases hs
    · cases hs
  | cancel =>
    simp only [step] at hs
    split at hs
    · rename_i i p keys todo hp
      split at hs
      · cases hs
      · split at hs
        · rename_i j ht
          cases hs
          exact inv_pc (inv_gone h ht) (by simp [hp]) (by simp) (by simp [hp, Pc.held])
        · cases hs
          exact inv_pc h (by simp [hp]) (by simp) (by simp [hp, Pc.held])
        · cases hs
    · cases hs
  | ret =>
    simp only [step] at hs
    split at hs
    · cases hs; exact ⟨b, el, d, ob, f, r, hl⟩
    · cases hs
  | objects l =>
    simp only [step] at hs
    split at hs
    · rename_i i todo hp
      split at hs
      · rename_i hc
        obtain ⟨g, h1, h2⟩ := refAll_ok (l := l) (s := { s with pc := .drop l l todo }) (by
          intro o ho
          obtain ⟨_, x, hx, _⟩ := mem_locals.1 ((isPerm_mem hc.2 o).1 ho)
          simp [hx])
        rw [h1] at hs
        cases hs
        refine ⟨b, by simp [el, hp], d, ?_, ?_, ?_, ?_⟩
        · intro q hq; simp only; rw [h2 q]; simp [ob q hq]
        · intro q
          have : (g q = none) ↔ s.objs q = none := by rw [h2 q]; simp
          simp only [f q, this]
        · intro q y hy
          simp only at hy
          rw [h2 q] at hy
          cases hx : s.objs q with
          | none => simp [hx] at hy
          | some x =>
            simp only [hx, Option.map_some, Option.some.injEq] at hy
            subst hy
            have := r q x hx
            rw [hp] at this
            simp only [Pc.held, List.count_nil] at this ⊢
            omega
        · intro q hq
          simp only
          rw [h2 q]
          obtain ⟨_, x, hx, _⟩ := mem_locals.1 ((isPerm_mem hc.2 q).1 hq)
          simp [hx]
      · cases hs
    · cases hs
  | drop =>
    simp only [step] at hs
    split at hs
    · rename_i all todo hp
      cases hs
      exact inv_pc h (by simp [hp]) (by simp) (by simp [hp, Pc.held])
    · rename_i o objs all todo hp
      split at hs
      · rename_i x hx
        split at hs
        · refine inv_unref h hx ?_ rfl (by omega) (by omega) hs
          intro hr; have := r o x hx; omega
        · cases hs
          exact inv_pc h (by simp [hp]) (by simp) (by simp [hp, Pc.held])
      · cases hs
    · cases hs
  | put =>
    simp only [step] at hs
    split at hs
    · rename_i todo hp
      cases hs
      exact inv_pc h (by simp [hp]) (by simp) (by simp [hp, Pc.held])
    · rename_i o objs todo hp
      simp only [unref] at hs
      split at hs
      · rename_i x hx
        have hr := r o x hx
        rw [hp] at hr
        simp only [Pc.held, List.count_cons, beq_self_eq_true, if_true] at hr
        have hh : ∀ q, q ∈ objs → q ∈ s.pc.held := by simp [hp, Pc.held]; grind
        split at hs
        · cases hs
          have hz : objs.count o = 0 := by omega
          refine ⟨b, by simp [State.add, el, hp], ?_, ?_, ?_, ?_, ?_⟩ <;> simp only [State.add]
          · intro q; rw [List.count_append, d q]; simp; rfl
          · intro q hq; simp only [upd]; split
            · rfl
            · exact ob q hq
          · intro q
            rw [List.count_append, f q]
            by_cases hq : q = o
            · subst hq
              have : q < s.made := by
                apply Nat.lt_of_not_le; intro hle; rw [ob q hle] at hx; cases hx
              simp [upd, hx, this]
            · have : ¬o = q := fun e => hq e.symm
              simp [upd, hq, this]
          · intro q y hy
            simp only [upd] at hy
            split at hy
            · cases hy
            · rename_i hq
              have := r q y hy
              rw [hp] at this
              have hq' : ¬o = q := fun e => hq e.symm
              simpa [Pc.held, List.count_cons, hq'] using this
          · intro q hq
            simp only [Pc.held] at hq
            simp only [upd]
            split
            · rename_i he; subst he
              exact absurd (List.count_pos_iff.2 hq) (by omega)
            · exact hl q (hh q hq)
        · cases hs
          refine ⟨b, by simp [el, hp], d, ?_, ?_, ?_, ?_⟩
          · intro q hq; simp only [upd]; split
            · rename_i he; subst he; rw [ob q hq] at hx; cases hx
            · exact ob q hq
          · intro q
            simp only [f q]
            by_cases hq : q = o
            · subst hq; simp [upd, hx]
            · simp [upd, hq]
          · intro q y hy
            simp only [upd] at hy
            split at hy
            · rename_i he; subst he; cases hy
              simp only [Pc.held]
              omega
            · rename_i hq
              have := r q y hy
              rw [hp] at this
              have hq' : ¬o = q := fun e => hq e.symm
              simpa [Pc.held, List.count_cons, hq'] using this
          · intro q hq
            simp only [Pc.held] at hq
            simp only [upd]
            split
            · simp
            · exact hl q (hh q hq)
      · cases hs
    · cases hs

theorem inv_reach {s : State} (h : Reach step {} s) : Inv s := by
  refine Reach.invariant (P := Inv) ?_ (fun s l s' h => inv_step h l) h
  exact ⟨fun _ _ => rfl, by simp, by simp, fun _ _ => rfl, by simp, by simp, by simp [Pc.held]⟩

/-- gbinder_ipc_exit is going to destroy this transaction. -/
def Pc.dueTx (p i : Nat) : Pc → Prop
  | .off => True
  | .next t | .drop _ _ t | .put _ t => i ∈ t
  | .pool j t => i = j ∨ i ∈ t
  | .cancel _ keys t => p ∈ keys ∨ i ∈ t
  | .done => False

/-- gbinder_ipc_exit is going to drop strong references to this object. -/
def Pc.dueObj (o i : Nat) : Pc → Prop
  | .off => True
  | .next t | .put _ t => i ∈ t
  | .pool j t | .cancel j _ t => i = j ∨ i ∈ t
  | .drop l _ t => o ∈ l ∨ i ∈ t
  | .done => False

/-- The case if the destroy callbacks don't run the event loop during gbinder_ipc_exit. -/
structure Calm (s : State) : Prop where
  ipcTx : s.pc = .off → ∀ p tx, s.txs p = some tx → tx.ipc ∈ s.ipcs
  pools : s.pc = .off → ∀ i, s.hasPool i = true
  number : ∀ p i, .submit p i ∈ s.log → p < s.calls
  running : ∀ p i, s.txs p = some ⟨i, .completing⟩ → .done p ∈ before s.log
  early : ∀ p tx j, .submit p j ∈ before s.log → s.txs p = some tx →
    tx.stage ≠ .lost ∧ (tx.stage = .completing ∨ s.pc.dueTx p tx.ipc)
  keys : ∀ i keys todo, s.pc = .cancel i keys todo → keys.Nodup ∧
    ∀ p ∈ keys, ∃ tx, s.txs p = some tx ∧ tx.stage ≠ .pool ∧ tx.ipc = i
  ipcObj : s.pc = .off → ∀ o x, s.objs o = some x → x.ipc ∈ s.ipcs
  strong : ∀ o x, s.objs o = some x → 0 < x.strong → s.pc.dueObj o x.ipc

theorem before_sub {l : List Ev} {e : Ev} (h : e ∈ before l) : e ∈ l := by
  induction l with
  | nil => cases h
  | cons a l ih => cases a <;> simp_all [before] <;> grind

/-- What is appended to the log doesn't matter if it's neither of these. -/
theorem before_add {s : State} (h : .exit ∈ s.log ↔ s.pc ≠ .off) {e : Ev} (he : e ≠ .exit) :
    before (s.log ++ [e]) = if s.pc = .off then s.log ++ [e] else before s.log := by
  split
  · rename_i hp
    apply before_all
    have := h
    simp only [hp, ne_eq, not_true_eq_false, iff_false] at this
    simp only [List.mem_append, List.mem_singleton, not_or]
    exact ⟨this, fun e' => he e'.symm⟩
  · rename_i hp
    exact before_append (h.2 hp)

theorem before_off {s : State} (h : .exit ∈ s.log ↔ s.pc ≠ .off) (hp : s.pc = .off) : before s.log = s.log := by
  apply before_all
  rw [h]
  simp [hp]

theorem isPerm_nodup {a b : List Nat} (h : a.isPerm b = true) (hb : b.Nodup) : a.Nodup :=
  (List.isPerm_iff.1 h).nodup_iff.2 hb

theorem table_nodup {s : State} {i : Nat} : (s.table i).Nodup :=
  List.Nodup.sublist List.filter_sublist List.nodup_range

/-- The objects change, and nothing else. -/
theorem calm_objs {s : State} (c : Calm s) {f : Nat → Option Obj} {m : Nat} {e : List Ev}
    (hi : .exit ∈ s.log ↔ s.pc ≠ .off) (he : e = [] ∨ ∃ o, e = [.freed o])
    (ho : ∀ o x, f o = some x → (s.pc = .off → x.ipc ∈ s.ipcs) ∧ (0 < x.strong → s.pc.dueObj o x.ipc)) :
    Calm { s with objs := f, made := m, log := s.log ++ e } := by
  have hb : ∀ ev, (∀ o, ev ≠ .freed o) → (ev ∈ before (s.log ++ e) ↔ ev ∈ before s.log) := by
    intro ev hev
    rcases he with rfl | ⟨o, rfl⟩
    · simp
    · rw [before_add hi (by simp)]
      split
      · rename_i hp
        rw [before_off hi hp]
        simp [hev o]
      · rfl
  obtain ⟨c1, c2, c3, c4, c5, c6, c7, c8⟩ := c
  refine ⟨c1, c2, ?_, ?_, ?_, c6, fun hp o x hx => (ho o x hx).1 hp, fun o x hx => (ho o x hx).2⟩
  · intro p i hm
    apply c3 p i
    rcases he with rfl | ⟨o, rfl⟩ <;> simpa using hm
  · intro p i hp
    exact (hb _ (by simp)).2 (c4 p i hp)
  · intro p tx j hs
    exact c5 p tx j ((hb _ (by simp)).1 hs)

theorem calm_unref {s s' : State} {o user strong : Nat} (c : Calm s) (hi : .exit ∈ s.log ↔ s.pc ≠ .off)
    (hs : unref s o user strong = .ok s') : Calm s' := by
  simp only [unref] at hs
  split at hs
  · rename_i x hx
    have c7 := c.ipcObj
    have c8 := c.strong
    split at hs
    · cases hs
      refine calm_objs (m := s.made) c hi (.inr ⟨o, rfl⟩) ?_
      intro q y hy
      simp only [upd] at hy
      split at hy
      · cases hy
      · exact ⟨fun hp => c7 hp q y hy, c8 q y hy⟩
    · cases hs
      have := calm_objs (m := s.made) (e := []) c hi (.inl rfl)
        (f := upd s.objs o (some { x with refs := x.refs - 1, user := x.user - user, strong := x.strong - strong })) (by
        intro q y hy
        simp only [upd] at hy
        split at hy
        · rename_i he
          subst he; cases hy
          exact ⟨fun hp => c7 hp q x hx, fun h0 => c8 q x hx (by simp only at h0; omega)⟩
        · exact ⟨fun hp => c7 hp q y hy, c8 q y hy⟩)
      simpa using this
  · cases hs

theorem calm_step {s s' : State} (c : Calm s) (hi : Inv s) (l : Label) (hn : ¬nested s l)
    (hs : step s l = .ok s') : Calm s' := by
  have hc := c
  obtain ⟨c1, c2, c3, c4, c5, c6, c7, c8⟩ := hc
  cases l with
  | «open» i =>
    simp only [step] at hs
    split at hs
    · cases hs
      exact ⟨fun hp p tx h => List.mem_cons_of_mem _ (c1 hp p tx h), c2, c3, c4, c5, c6,
        fun hp o x h => List.mem_cons_of_mem _ (c7 hp o x h), c8⟩
    · cases hs
  | submit i =>
    simp only [step] at hs
    split at hs
    · rename_i ha
      cases hs
      refine ⟨?_, c2, ?_, ?_, ?_, ?_, c7, c8⟩
      · intro hp p tx h
        simp only [State.add, upd] at hp h ⊢
        split at h
        · cases h; exact ha.2
        · exact c1 hp p tx h
      · intro p j h
        simp only [State.add, List.mem_append, List.mem_singleton, Ev.submit.injEq] at h ⊢
        rcases h with h | h
        · have := c3 p j h; omega
        · omega
      · intro p j h
        simp only [State.add, upd] at h ⊢
        rw [before_add hi.exitLog (by simp)]
        split at h
        · simp only [Option.some.injEq, Tx.mk.injEq] at h
          exfalso; have := h.2; split at this <;> cases this
        · have := c4 p j h
          split
          · rename_i hp
            rw [before_off hi.exitLog hp] at this
            simp [this]
          · exact this
      · intro p tx j h1 h2
        simp only [State.add, upd] at h1 h2 ⊢
        rw [before_add hi.exitLog (by simp)] at h1
        split at h1
        · rename_i hp
          split at h2
          · cases h2
            simp [c2 hp, hp, Pc.dueTx]
          · rename_i hpc
            apply c5 p tx j _ h2
            rw [before_off hi.exitLog hp]
            simp only [List.mem_append, List.mem_singleton, Ev.submit.injEq] at h1
            rcases h1 with h1 | h1
            · exact h1
            · exact absurd h1.1 hpc
        · split at h2
          · rename_i hpc
            have := c3 p j (before_sub h1)
            omega
          · exact c5 p tx j h1 h2
      · intro j keys todo hp
        obtain ⟨k1, k3⟩ := c6 j keys todo hp
        refine ⟨k1, ?_⟩
        intro p hpk
        simp only [State.add, upd]
        split
        · rename_i he
          obtain ⟨tx, ht, _⟩ := k3 p hpk
          rw [he, hi.bound _ (Nat.le_refl _)] at ht; cases ht
        · exact k3 p hpk
    · cases hs
  | finish p =>
    simp only [step] at hs
    split at hs
    · rename_i i hp
      cases hs
      refine ⟨?_, c2, c3, ?_, ?_, ?_, c7, c8⟩
      · intro h0 q tx h
        simp only [upd] at h0 h ⊢
        split at h
        · cases h; have := c1 h0 _ _ hp; exact this
        · exact c1 h0 q tx h
      · intro q j h
        simp only [upd] at h
        split at h
        · cases h
        · exact c4 q j h
      · intro q tx j h1 h2
        simp only [upd] at h2
        split at h2
        · rename_i he
          subst he; cases h2
          have := c5 _ _ j h1 hp
          simp only [reduceCtorEq, ne_eq, not_false_eq_true, false_or, true_and] at this ⊢
          exact this
        · exact c5 q tx j h1 h2
      · intro j keys todo h0
        obtain ⟨k1, k3⟩ := c6 j keys todo h0
        refine ⟨k1, ?_⟩
        intro q hq
        simp only [upd]
        split
        · rename_i he
          subst he
          obtain ⟨tx, ht, hst, _⟩ := k3 q hq
          rw [hp] at ht; cases ht; simp at hst
        · exact k3 q hq
    · cases hs
  | complete p =>
    have h0 : s.pc = .off := Classical.not_not.1 hn
    simp only [step] at hs
    split at hs
    · rename_i i hp
      split at hs
      · cases hs
        refine ⟨?_, c2, ?_, ?_, ?_, ?_, c7, c8⟩
        · intro _ q tx h
          simp only [State.add, upd] at h ⊢
          split at h
          · cases h; have := c1 h0 _ _ hp; exact this
          · exact c1 h0 q tx h
        · intro q j h; exact c3 q j (by simpa [State.add] using h)
        · intro q j h
          simp only [State.add, upd] at h ⊢
          rw [before_add hi.exitLog (by simp), if_pos h0]
          split at h
          · rename_i he; subst he; simp
          · have := before_sub (c4 q j h); simp [this]
        · intro q tx j h1 h2
          simp only [State.add, upd] at h1 h2 ⊢
          rw [before_add hi.exitLog (by simp), if_pos h0] at h1
          have h1' : .submit q j ∈ before s.log := by rw [before_off hi.exitLog h0]; simpa using h1
          split at h2
          · cases h2; simp
          · exact c5 q tx j h1' h2
        · intro j keys todo h; simp only [State.add, h0] at h; cases h
      · cases hs
    · cases hs
  | destroy p =>
    have h0 : s.pc = .off := Classical.not_not.1 hn
    simp only [step] at hs
    split at hs
    · rename_i i hp
      split at hs
      · cases hs
        refine ⟨?_, c2, ?_, ?_, ?_, ?_, c7, c8⟩
        · intro _ q tx h
          simp only [State.add, upd] at h ⊢
          split at h
          · cases h
          · exact c1 h0 q tx h
        · intro q j h; exact c3 q j (by simpa [State.add] using h)
        · intro q j h
          simp only [State.add, upd] at h ⊢
          rw [before_add hi.exitLog (by simp), if_pos h0]
          split at h
          · cases h
          · have := before_sub (c4 q j h); simp [this]
        · intro q tx j h1 h2
          simp only [State.add, upd] at h1 h2 ⊢
          rw [before_add hi.exitLog (by simp), if_pos h0] at h1
          have h1' : .submit q j ∈ before s.log := by rw [before_off hi.exitLog h0]; simpa using h1
          split at h2
          · cases h2
          · exact c5 q tx j h1' h2
        · intro j keys todo h; simp only [State.add, h0] at h; cases h
      · cases hs
    · cases hs
  | newObj i =>
    simp only [step] at hs
    split at hs
    · rename_i ha
      cases hs
      have := calm_objs (m := s.made + 1) (e := []) (f := upd s.objs s.made (some { ipc := i })) c hi.exitLog
        (.inl rfl) (by
        intro q y hy
        simp only [upd] at hy
        split at hy
        · cases hy; simp [ha.2]
        · exact ⟨fun hp => c7 hp q y hy, c8 q y hy⟩)
      simpa using this
    · cases hs
  | ref o =>
    simp only [step] at hs
    split at hs
    · rename_i x hx
      split at hs
      · simp only [addRef, hx] at hs
        cases hs
        have := calm_objs (m := s.made) (e := []) (f := upd s.objs o (some
            { x with refs := x.refs + 1, user := x.user + 1, strong := x.strong + 0 })) c hi.exitLog (.inl rfl) (by
          intro q y hy
          simp only [upd] at hy
          split at hy
          · rename_i he; subst he; cases hy
            exact ⟨fun hp => c7 hp q x hx, c8 q x hx⟩
          · exact ⟨fun hp => c7 hp q y hy, c8 q y hy⟩)
        simpa using this
      · cases hs
    · cases hs
  | unref o =>
    simp only [step] at hs
    split at hs
    · split at hs
      · exact calm_unref c hi.exitLog hs
      · cases hs
    · cases hs
  | acquire o =>
    have h0 : s.pc = .off := Classical.not_not.1 hn
    simp only [step] at hs
    split at hs
    · rename_i x hx
      split at hs
      · simp only [addRef, hx] at hs
        cases hs
        have := calm_objs (m := s.made) (e := []) (f := upd s.objs o (some
            { x with refs := x.refs + 1, user := x.user + 0, strong := x.strong + 1 })) c hi.exitLog (.inl rfl) (by
          intro q y hy
          simp only [upd] at hy
          split at hy
          · rename_i he; subst he; cases hy
            exact ⟨fun hp => c7 hp q x hx, fun _ => by simp [h0, Pc.dueObj]⟩
          · exact ⟨fun hp => c7 hp q y hy, c8 q y hy⟩)
        simpa using this
      · cases hs
    · cases hs
  | release o =>
    simp only [step] at hs
    split at hs
    · split at hs
      · exact calm_unref c hi.exitLog hs
      · cases hs
    · cases hs
  | exit l =>
    simp only [step] at hs
    split at hs
    · rename_i ha
      cases hs
      have h0 := ha.1
      have hb : before (s.log ++ [.exit]) = before s.log := by
        rw [before_off hi.exitLog h0]; apply before_exit; rw [hi.exitLog]; simp [h0]
      refine ⟨by simp [State.add], by simp [State.add], ?_, ?_, ?_, by simp [State.add], by simp [State.add], ?_⟩
      · intro q j h; exact c3 q j (by simpa [State.add] using h)
      · intro q j h; simp only [State.add] at h ⊢; rw [hb]; exact c4 q j h
      · intro q tx j h1 h2
        simp only [State.add] at h1 h2 ⊢
        rw [hb] at h1
        exact ⟨(c5 q tx j h1 h2).1, .inr ((isPerm_mem ha.2 _).2 (c1 h0 q tx h2))⟩
      · intro o x hx _
        exact (isPerm_mem ha.2 _).2 (c7 h0 o x hx)
    · cases hs
  | next =>
    simp only [step] at hs
    split at hs
    · rename_i h0
      cases hs
      have hb : before (s.log ++ [.exited]) = before s.log := by
        rw [before_add hi.exitLog (by simp)]; simp [h0]
      refine ⟨by simp [State.add], by simp [State.add], ?_, ?_, ?_, by simp [State.add], by simp [State.add], ?_⟩
      · intro q j h; exact c3 q j (by simpa [State.add] using h)
      · intro q j h; simp only [State.add] at h ⊢; rw [hb]; exact c4 q j h
      · intro q tx j h1 h2
        simp only [State.add] at h1 h2 ⊢
        rw [hb] at h1
        have := c5 q tx j h1 h2
        simpa [h0, Pc.dueTx] using this
      · intro o x hx h1
        have := c8 o x hx h1
        simp [h0, Pc.dueObj] at this
    · rename_i i todo h0
      cases hs
      refine ⟨by simp, by simp, c3, c4, ?_, by simp, by simp, ?_⟩
      · intro q tx j h1 h2
        have := c5 q tx j h1 h2
        simpa [h0, Pc.dueTx] using this
      · intro o x hx h1
        have := c8 o x hx h1
        simpa [h0, Pc.dueObj] using this
    · cases hs
  | wait keys =>
    simp only [step] at hs
    split at hs
    · rename_i i todo h0
      split at hs
      · rename_i hc
        cases hs
        refine ⟨by simp, by simp, c3, c4, ?_, ?_, by simp, ?_⟩
        · intro q tx j h1 h2
          have := c5 q tx j h1 h2
          simp only [h0, Pc.dueTx] at this ⊢
          refine ⟨this.1, this.2.imp id (Or.imp ?_ id)⟩
          intro hti
          refine (isPerm_mem hc.2 q).2 (mem_table.2 ⟨?_, tx, h2, hti⟩)
          apply Nat.lt_of_not_le; intro hle; rw [hi.bound q hle] at h2; cases h2
        · intro j ks td h
          simp only [Pc.cancel.injEq] at h
          obtain ⟨rfl, rfl, rfl⟩ := h
          refine ⟨isPerm_nodup hc.2 table_nodup, ?_⟩
          intro q hq
          obtain ⟨hlt, tx, ht, hti⟩ := mem_table.1 ((isPerm_mem hc.2 q).1 hq)
          refine ⟨tx, ht, ?_, hti⟩
          intro hst
          apply not_busy hc.1 hlt
          rw [ht]
          rcases tx with ⟨a, b⟩
          simp_all
        · intro o x hx h1
          have := c8 o x hx h1
          simpa [h0, Pc.dueObj] using this
      · cases hs
    · cases hs
  | cancel =>
    simp only [step] at hs
    split at hs
    · rename_i i p keys todo h0
      have ⟨k1, k3⟩ := c6 _ _ _ h0
      split at hs
      · cases hs
      · split at hs
        · rename_i j ht
          cases hs
          have hb : before (s.log ++ [.destroy p]) = before s.log := by
            rw [before_add hi.exitLog (by simp)]; simp [h0]
          refine ⟨by simp [State.add], by simp [State.add], ?_, ?_, ?_, ?_, by simp [State.add], ?_⟩
          · intro q j h; exact c3 q j (by simpa [State.add] using h)
          · intro q j h
            simp only [State.add, upd] at h ⊢
            rw [hb]
            split at h
            · cases h
            · exact c4 q j h
          · intro q tx j h1 h2
            simp only [State.add, upd] at h1 h2 ⊢
            rw [hb] at h1
            split at h2
            · cases h2
            · rename_i hq
              have := c5 q tx j h1 h2
              simpa [h0, Pc.dueTx, hq] using this
          · intro j ks td h
            simp only [State.add, Pc.cancel.injEq] at h
            obtain ⟨rfl, rfl, rfl⟩ := h
            refine ⟨(List.nodup_cons.1 k1).2, ?_⟩
            intro q hq
            simp only [State.add, upd]
            split
            · rename_i he; subst he; exact absurd hq (List.nodup_cons.1 k1).1
            · exact k3 q (by simp [hq])
          · intro o x hx h1
            have := c8 o x hx h1
            simpa [State.add, h0, Pc.dueObj] using this
        · rename_i tx hnp ht
          cases hs
          refine ⟨by simp, by simp, c3, c4, ?_, ?_, by simp, ?_⟩
          · intro q tx' j h1 h2
            have := c5 q tx' j h1 h2
            by_cases hq : q = p
            · subst hq
              rw [ht] at h2; cases h2
              obtain ⟨tx2, h3, h4, h5⟩ := k3 q (by simp)
              rw [ht] at h3; cases h3
              refine ⟨this.1, .inl ?_⟩
              rcases tx with ⟨a, b⟩
              cases b <;> simp_all
            · simpa [h0, Pc.dueTx, hq] using this
          · intro j ks td h
            simp only [Pc.cancel.injEq] at h
            obtain ⟨rfl, rfl, rfl⟩ := h
            exact ⟨(List.nodup_cons.1 k1).2, fun q hq => k3 q (by simp [hq])⟩
          · intro o x hx h1
            have := c8 o x hx h1
            simpa [h0, Pc.dueObj] using this
        · cases hs
    · cases hs
  | ret =>
    simp only [step] at hs
    split at hs
    · cases hs; exact ⟨c1, c2, c3, c4, c5, c6, c7, c8⟩
    · cases hs
  | objects l =>
    simp only [step] at hs
    split at hs
    · rename_i i todo h0
      split at hs
      · rename_i hc
        obtain ⟨g, h1, h2⟩ := refAll_ok (l := l) (s := { s with pc := .drop l l todo }) (by
          intro o ho
          obtain ⟨_, x, hx, _⟩ := mem_locals.1 ((isPerm_mem hc.2 o).1 ho)
          simp [hx])
        rw [h1] at hs
        cases hs
        refine ⟨by simp, by simp, c3, c4, ?_, by simp, by simp, ?_⟩
        · intro q tx j h1 h2
          have := c5 q tx j h1 h2
          simpa [h0, Pc.dueTx] using this
        · intro o x hx h3
          simp only at hx
          rw [h2 o] at hx
          cases hy : s.objs o with
          | none => simp [hy] at hx
          | some y =>
            simp only [hy, Option.map_some, Option.some.injEq] at hx
            subst hx
            have := c8 o y hy h3
            simp only [h0, Pc.dueObj] at this ⊢
            rcases this with h4 | h4
            · left
              refine (isPerm_mem hc.2 o).2 (mem_locals.2 ⟨?_, y, hy, h4⟩)
              apply Nat.lt_of_not_le; intro hle; rw [hi.obound o hle] at hy; cases hy
            · exact .inr h4
      · cases hs
    · cases hs
  | drop =>
    simp only [step] at hs
    split at hs
    · rename_i all todo h0
      cases hs
      refine ⟨by simp, by simp, c3, c4, ?_, by simp, by simp, ?_⟩
      · intro q tx j h1 h2
        have := c5 q tx j h1 h2
        simpa [h0, Pc.dueTx] using this
      · intro o x hx h1
        have := c8 o x hx h1
        simpa [h0, Pc.dueObj] using this
    · rename_i o objs all todo h0
      split at hs
      · rename_i x hx
        split at hs
        · exact calm_unref c hi.exitLog hs
        · rename_i hz
          cases hs
          refine ⟨by simp, by simp, c3, c4, ?_, by simp, by simp, ?_⟩
          · intro q tx j h1 h2
            have := c5 q tx j h1 h2
            simpa [h0, Pc.dueTx] using this
          · intro q y hy h1
            have := c8 q y hy h1
            by_cases hq : q = o
            · subst hq; rw [hx] at hy; cases hy; omega
            · simpa [h0, Pc.dueObj, hq] using this
      · cases hs
    · cases hs
  | put =>
    have hgen : ∀ (pc : Pc) (h : pc ≠ .off ∧ (∀ i k t, pc ≠ .cancel i k t)), pc.todo = s.pc.todo →
        (∃ t, (∃ l, s.pc = .put l t) ∧ (pc = .next t ∨ ∃ l, pc = .put l t)) → Calm { s with pc := pc } := by
      intro pc h _ ⟨t, ⟨l, h0⟩, hpc⟩
      refine ⟨fun h' => absurd h' h.1, fun h' => absurd h' h.1, c3, c4, ?_,
        fun i k t' h' => absurd h' (h.2 i k t'), fun h' => absurd h' h.1, ?_⟩
      · intro q tx j h1 h2
        have := c5 q tx j h1 h2
        rcases hpc with rfl | ⟨l', rfl⟩ <;> simpa [h0, Pc.dueTx] using this
      · intro o x hx h1
        have := c8 o x hx h1
        rcases hpc with rfl | ⟨l', rfl⟩ <;> simpa [h0, Pc.dueObj] using this
    simp only [step] at hs
    split at hs
    · rename_i todo h0
      cases hs
      exact hgen _ (by simp) (by simp [h0, Pc.todo]) ⟨todo, ⟨_, h0⟩, .inl rfl⟩
    · rename_i o objs todo h0
      have hcalm := hgen (.put objs todo) (by simp) (by simp [h0, Pc.todo]) ⟨todo, ⟨_, h0⟩, .inr ⟨_, rfl⟩⟩
      exact calm_unref hcalm (by simp [hi.exitLog, h0]) hs
    · cases hs

theorem calm_reach {s : State} (h : ReachIf step (fun s l => ¬nested s l) {} s) : Calm s := by
  induction h with
  | init =>
    exact ⟨fun _ _ _ h => (nomatch h), fun _ _ => rfl, by simp, by simp, by simp, by simp, by simp, by simp⟩
  | step l hr hn hs ih => exact calm_step ih (inv_reach hr.reach) l hn hs

/-- What is left of the list is a part of it. -/
theorem drop_sub {s : State} (h : Reach step {} s) {objs all todo : List Nat}
    (hp : s.pc = .drop objs all todo) : ∀ o ∈ objs, o ∈ all := by
  refine Reach.invariant (P := fun s => ∀ objs all todo, s.pc = .drop objs all todo → ∀ o ∈ objs, o ∈ all)
    (by simp) ?_ h objs all todo hp
  intro s l s' ih hs
  have hu : ∀ {t t' : State} {o a b : Nat}, unref t o a b = .ok t' → t'.pc = t.pc := by
    intro t t' o a b h
    simp only [unref] at h
    split at h
    · split at h <;> (cases h; rfl)
    · cases h
  have ha : ∀ {t t' : State} {o a b : Nat}, addRef t o a b = .ok t' → t'.pc = t.pc := by
    intro t t' o a b h
    simp only [addRef] at h
    split at h
    · cases h; rfl
    · cases h
  have hr : ∀ (l : List Nat) {t t' : State}, refAll l t = .ok t' → t'.pc = t.pc := by
    intro l
    induction l with
    | nil => intro t t' h; cases h; rfl
    | cons o l ih =>
      intro t t' h
      simp only [refAll, Out.andThen] at h
      split at h
      · rename_i h1; rw [ih h, ha h1]
      · cases h
      · cases h
  intro objs all todo hp
  cases l <;> simp only [step] at hs <;> repeat' split at hs
  all_goals first
    | (cases hs; done)
    | (have h1 := hu hs; rw [hp] at h1; exact ih _ _ _ h1.symm)
    | (have h1 := ha hs; rw [hp] at h1; exact ih _ _ _ h1.symm)
    | (have h1 := hu hs; rw [hp] at h1; simp_all; done)
    | (have h1 := hr _ hs; rw [hp] at h1; simp_all; done)
    | (cases hs; simp_all [State.add]; done)

end Gb.Exit
