import Verif.Lemmas.Exit
/-
C75: when the process exits, gbinder_ipc_exit waits for the asynchronous calls which are being made,
calls the destroy callback of every transaction which isn't finished exactly once, drops the
references to local objects held on behalf of other processes, and returns.

Executions are arbitrary: the process may exit at any point, including while a completion callback is
running, with any number of devices, transactions and objects, and the destroy callbacks may do
anything that the application may do.
-/
set_option autoImplicit false

namespace Gb.C75
open Gb.Exit

/-- The destroy callback is never called twice, no matter what. -/
theorem C75_once {s : State} (h : Reach step {} s) (p : Nat) : s.log.count (.destroy p) ≤ 1 := by
  rw [(inv_reach h).destroyed p]
  split <;> omega

/-- Nor is a local object freed twice. -/
theorem C75_freed_once {s : State} (h : Reach step {} s) (o : Nat) : s.log.count (.freed o) ≤ 1 := by
  rw [(inv_reach h).freed o]
  split <;> omega

/-- Neither freed memory nor a NULL pointer is accessed. Partial: unless a destroy callback runs the
event loop, see `C75_fails_nested`. -/
theorem C75_safe_partial {s : State} (h : ReachIf step (fun s l => ¬nested s l) {} s) (l : Label) :
    step s l ≠ .ub := by
  have hi := inv_reach h.reach
  have hc := calm_reach h
  have ha : ∀ {t : State} {o a b : Nat}, t.objs o ≠ none → addRef t o a b ≠ .ub := by
    intro t o a b ho h
    simp only [addRef] at h
    split at h
    · cases h
    · rename_i hn; exact ho hn
  have hu : ∀ {t : State} {o a b : Nat}, t.objs o ≠ none → unref t o a b ≠ .ub := by
    intro t o a b ho h
    simp only [unref] at h
    split at h
    · split at h <;> cases h
    · rename_i hn; exact ho hn
  intro hs
  cases l <;> simp only [step] at hs <;> repeat' split at hs
  all_goals first
    | (cases hs; done)
    | (rename_i _ _ hx _; refine ha ?_ hs; rw [hx]; simp; done)
    | (rename_i _ _ hx _; refine hu ?_ hs; rw [hx]; simp; done)
    | skip
  · -- cancel
    rename_i hp _ _ hn
    obtain ⟨_, hk⟩ := hc.keys _ _ _ hp
    obtain ⟨tx, ht, _⟩ := hk _ List.mem_cons_self
    rw [ht] at hn; cases hn
  · -- objects
    rename_i l _ i todo hp hl
    obtain ⟨g, h1, _⟩ := refAll_ok (l := l) (s := { s with pc := .drop l l todo }) (by
      intro o ho
      obtain ⟨_, x, hx, _⟩ := mem_locals.1 ((isPerm_mem hl.2 o).1 ho)
      simp [hx])
    rw [h1] at hs; cases hs
  · -- drop
    rename_i o objs all todo hp _ hn
    exact hi.heldLive o (by simpa [hp, Pc.held] using drop_sub h.reach hp o (by simp)) hn
  · -- put
    rename_i o objs todo hp
    exact hu (t := { s with pc := .put objs todo }) (hi.heldLive o (by simp [hp, Pc.held])) hs

/-- When it's over, every transaction which was outstanding when the process decided to exit has been
destroyed exactly once. Partial: it's about those submitted before the exit and not running their
completion callback at that time, and destroy callbacks which don't run the event loop, see
`C75_fails_submit`, `C75_fails_callback`, `C75_fails_open`, `C75_fails_nested`. -/
theorem C75_destroyed_partial {s : State} (h : ReachIf step (fun s l => ¬nested s l) {} s)
    (hd : s.pc = .done) {p : Nat} (hp : Outstanding s.log p) : s.log.count (.destroy p) = 1 := by
  have hi := inv_reach h.reach
  have hc := calm_reach h
  obtain ⟨⟨i, hsub⟩, hdone⟩ := hp
  have hlt := hc.number p i (before_sub hsub)
  rw [hi.destroyed p, if_pos]
  refine ⟨hlt, ?_⟩
  cases ht : s.txs p with
  | none => rfl
  | some tx =>
    exfalso
    obtain ⟨_, h1 | h1⟩ := hc.early p tx i hsub ht
    · rcases tx with ⟨j, st⟩
      simp only at h1
      subst h1
      have h2 := before_sub (hdone (hc.running p j ht))
      have h3 := hi.destroyed p
      rw [if_neg (by simp [ht])] at h3
      exact absurd (List.count_pos_iff.2 h2) (by omega)
    · simp [hd, Pc.dueTx] at h1

/-- When it's over, no local object is referenced on behalf of other processes: those left are
referenced by the application, and the rest have been freed, once. Partial: unless a destroy callback
runs the event loop. -/
theorem C75_objects_partial {s : State} (h : ReachIf step (fun s l => ¬nested s l) {} s)
    (hd : s.pc = .done) {o : Nat} (ho : o < s.made) :
    (s.objs o = none ∧ s.log.count (.freed o) = 1) ∨
    (∃ x, s.objs o = some x ∧ x.strong = 0 ∧ 0 < x.user ∧ s.log.count (.freed o) = 0) := by
  have hi := inv_reach h.reach
  have hc := calm_reach h
  have hf := hi.freed o
  cases hx : s.objs o with
  | none => exact .inl ⟨rfl, by rw [hf, if_pos ⟨ho, hx⟩]⟩
  | some x =>
    refine .inr ⟨x, rfl, ?_⟩
    have h0 : x.strong = 0 := by
      apply Classical.byContradiction
      intro hn
      have := hc.strong o x hx (by omega)
      simp [hd, Pc.dueObj] at this
    have hr := hi.refs o x hx
    simp only [hd, Pc.held, List.count_nil] at hr
    refine ⟨h0, by omega, ?_⟩
    rw [hf, if_neg (by simp [hx])]

/-- It's never stuck: either it can go on, or it waits for an asynchronous call which is being made
by a thread of the pool. Partial: unless a destroy callback runs the event loop. -/
theorem C75_progress_partial {s : State} (h : ReachIf step (fun s l => ¬nested s l) {} s)
    (h0 : s.pc ≠ .off) (hd : s.pc ≠ .done) :
    (∃ l s', l.ofExit = true ∧ step s l = .ok s') ∨
    (∃ i todo p, s.pc = .pool i todo ∧ s.txs p = some ⟨i, .pool⟩ ∧ ∃ s', step s (.finish p) = .ok s') := by
  have hsafe := C75_safe_partial h
  have use : ∀ l, l.ofExit = true → step s l ≠ .no → ∃ l s', l.ofExit = true ∧ step s l = .ok s' := by
    intro l hl hn
    cases hs : step s l with
    | no => exact absurd hs hn
    | ub => exact absurd hs (hsafe l)
    | ok s' => exact ⟨l, s', hl, hs⟩
  have noU : ∀ {t : State} {o a b : Nat}, unref t o a b ≠ .no := by
    intro t o a b h
    simp only [unref] at h
    split at h
    · split at h <;> cases h
    · cases h
  by_cases hcb : s.callback = true
  · exact .inl (use .ret rfl (by simp [step, hcb]))
  · cases hp : s.pc with
    | off => exact absurd hp h0
    | done => exact absurd hp hd
    | next todo =>
      refine .inl (use .next rfl ?_)
      cases todo <;> simp [step, hp]
    | pool i todo =>
      by_cases hb : s.busy i = true
      · right
        simp only [State.busy, List.any_eq_true, List.mem_range, decide_eq_true_eq] at hb
        obtain ⟨p, _, ht⟩ := hb
        exact ⟨i, todo, p, rfl, ht, { s with txs := upd s.txs p (some ⟨i, .posted⟩) }, by simp only [step, ht]⟩
      · refine .inl (use (.wait (s.table i)) rfl ?_)
        have : (s.table i).isPerm (s.table i) = true := List.isPerm_iff.2 (List.Perm.refl _)
        simp [step, hp, hb, this]
    | cancel i keys todo =>
      cases keys with
      | cons p keys =>
        refine .inl (use .cancel rfl ?_)
        intro hs
        simp only [step, hp, hcb, Bool.false_eq_true, if_false] at hs
        split at hs <;> cases hs
      | nil =>
        refine .inl (use (.objects (s.locals i)) rfl ?_)
        have h1 : (s.locals i).isPerm (s.locals i) = true := List.isPerm_iff.2 (List.Perm.refl _)
        obtain ⟨g, h2, _⟩ := refAll_ok (l := s.locals i) (s := { s with pc := .drop (s.locals i) (s.locals i) todo }) (by
          intro o ho
          obtain ⟨_, x, hx, _⟩ := mem_locals.1 ho
          simp [hx])
        intro hs
        simp only [step, hp] at hs
        rw [if_pos ⟨by simpa using hcb, h1⟩, h2] at hs
        cases hs
    | drop objs all todo =>
      refine .inl (use .drop rfl ?_)
      cases objs with
      | nil => simp [step, hp]
      | cons o objs =>
        intro hs
        simp only [step, hp] at hs
        split at hs
        · split at hs
          · exact noU hs
          · cases hs
        · cases hs
    | put objs todo =>
      refine .inl (use .put rfl ?_)
      cases objs with
      | nil => simp [step, hp]
      | cons o objs =>
        intro hs
        simp only [step, hp] at hs
        exact noU hs

/-! ### It returns -/

/-- Strong references left. -/
def strongOf (f : Nat → Option Obj) (o : Nat) : Nat :=
  match f o with
  | some x => x.strong
  | none => 0

/-- Strong references to these objects. -/
def strongs (f : Nat → Option Obj) (l : List Nat) : Nat := (l.map (strongOf f)).sum

/-- How much there's left to do: devices, stages and steps. -/
def rank (s : State) : Nat × Nat × Nat :=
  let cb := if s.callback then 1 else 0
  match s.pc with
  | .off => (0, 0, cb)
  | .done => (0, 0, cb)
  | .next t => (t.length + 1, 0, cb)
  | .pool _ t => (t.length + 1, 4, cb)
  | .cancel _ keys t => (t.length + 1, 3, 2 * keys.length + cb)
  | .drop l _ t => (t.length + 1, 2, strongs s.objs l + l.length + cb)
  | .put l t => (t.length + 1, 1, l.length + cb)

/-- The order of `rank`. -/
def Less : Nat × Nat × Nat → Nat × Nat × Nat → Prop := Prod.Lex (· < ·) (Prod.Lex (· < ·) (· < ·))

theorem less_wf : WellFounded Less :=
  (Prod.lex ⟨_, Nat.lt_wfRel.wf⟩ (Prod.lex ⟨_, Nat.lt_wfRel.wf⟩ ⟨_, Nat.lt_wfRel.wf⟩)).wf

theorem strongs_le {f g : Nat → Option Obj} (h : ∀ o, strongOf g o ≤ strongOf f o) (l : List Nat) :
    strongs g l ≤ strongs f l := by
  induction l with
  | nil => simp [strongs]
  | cons o l ih =>
    have := h o
    simp only [strongs, List.map_cons, List.sum_cons] at ih ⊢
    omega

theorem unref_strong {s s' : State} {o a b : Nat} (hs : unref s o a b = .ok s') :
    s'.pc = s.pc ∧ s'.callback = s.callback ∧ (∀ q, strongOf s'.objs q ≤ strongOf s.objs q) ∧
      (b = 1 → 0 < strongOf s.objs o → strongOf s'.objs o < strongOf s.objs o) := by
  simp only [unref] at hs
  split at hs
  · rename_i x hx
    split at hs
    · cases hs
      refine ⟨rfl, rfl, ?_, ?_⟩
      · intro q; simp only [strongOf, State.add, upd]; split <;> simp_all
      · intro _ h0; simpa [strongOf, State.add, upd] using h0
    · cases hs
      refine ⟨rfl, rfl, ?_, ?_⟩
      · intro q
        by_cases hq : q = o
        · subst hq; simp [strongOf, upd, hx]
        · simp [strongOf, upd, hq]
      · intro hb h0
        simp only [strongOf, hx, upd, if_true] at h0 ⊢
        omega
  · cases hs

theorem less3 {a b c c' : Nat} (h : c < c') : Less (a, b, c) (a, b, c') := .right _ (.right _ h)

theorem less2 {a b b' c c' : Nat} (h : b < b') : Less (a, b, c) (a, b', c') := .right _ (.left _ _ h)

theorem less1 {a a' b b' c c' : Nat} (h : a < a') : Less (a, b, c) (a', b', c') := .left _ _ h

/-- Every step of gbinder_ipc_exit brings it closer to the end. -/
theorem rank_exit {s s' : State} {l : Label} (hl : l.ofExit = true) (h0 : s.pc ≠ .off)
    (hs : step s l = .ok s') : s'.pc ≠ .off ∧ Less (rank s') (rank s) := by
  cases l <;> simp only [Label.ofExit, Bool.false_eq_true] at hl <;> simp only [step] at hs
  · -- next
    split at hs
    · rename_i hp
      cases hs
      refine ⟨by simp [State.add], ?_⟩
      simp only [rank, State.add, hp]
      exact less1 (by simp)
    · rename_i i todo hp
      cases hs
      refine ⟨by simp [*], ?_⟩
      simp only [rank, hp]
      exact less1 (by simp)
    · cases hs
  · -- wait
    split at hs
    · rename_i i todo hp
      split at hs
      · cases hs
        refine ⟨by simp [*], ?_⟩
        simp only [rank, hp]
        exact less2 (by omega)
      · cases hs
    · cases hs
  · -- cancel
    split at hs
    · rename_i i p keys todo hp
      split at hs
      · cases hs
      · rename_i hcb
        split at hs
        · cases hs
          refine ⟨by simp [State.add], ?_⟩
          simp only [rank, State.add, hp, hcb]
          exact less3 (by simp +arith)
        · cases hs
          refine ⟨by simp [*], ?_⟩
          simp only [rank, hp, hcb]
          exact less3 (by simp +arith)
        · cases hs
    · cases hs
  · -- ret
    split at hs
    · rename_i hcb
      cases hs
      refine ⟨by simp [*], ?_⟩
      simp only [rank, hcb]
      cases s.pc <;> refine less3 ?_ <;> simp
    · cases hs
  · -- objects
    rename_i l
    split at hs
    · rename_i i todo hp
      split at hs
      · rename_i hc
        obtain ⟨g, h1, _⟩ := refAll_ok (l := l) (s := { s with pc := .drop l l todo }) (by
          intro o ho
          obtain ⟨_, x, hx, _⟩ := mem_locals.1 ((isPerm_mem hc.2 o).1 ho)
          simp [hx])
        rw [h1] at hs
        cases hs
        refine ⟨by simp [*], ?_⟩
        simp only [rank, hp]
        exact less2 (by omega)
      · cases hs
    · cases hs
  · -- drop
    split at hs
    · rename_i all todo hp
      cases hs
      refine ⟨by simp [*], ?_⟩
      simp only [rank, hp]
      exact less2 (by omega)
    · rename_i o objs all todo hp
      split at hs
      · rename_i x hx
        split at hs
        · rename_i h0
          obtain ⟨h1, h2, h3, h4⟩ := unref_strong hs
          have h5 := h4 rfl (by simpa [strongOf, hx] using h0)
          have h6 := strongs_le h3 objs
          refine ⟨by simp [*], ?_⟩
          simp only [rank, h1, h2, hp]
          refine less3 ?_
          simp only [strongs, List.map_cons, List.sum_cons] at h6 ⊢
          omega
        · cases hs
          refine ⟨by simp [*], ?_⟩
          simp only [rank, hp]
          refine less3 ?_
          simp only [strongs, List.map_cons, List.sum_cons, List.length_cons]
          omega
      · cases hs
    · cases hs
  · -- put
    split at hs
    · rename_i todo hp
      cases hs
      refine ⟨by simp [*], ?_⟩
      simp only [rank, hp]
      exact less2 (by omega)
    · rename_i o objs todo hp
      obtain ⟨h1, h2, _⟩ := unref_strong hs
      refine ⟨by simp [*], ?_⟩
      simp only [rank, h1, h2, hp]
      exact less3 (by simp)
    · cases hs

/-- Nothing else takes it away from the end. -/
theorem rank_other {s s' : State} {l : Label} (hl : l.ofExit = false) (hn : ¬nested s l) (h0 : s.pc ≠ .off)
    (hs : step s l = .ok s') : s'.pc ≠ .off ∧ (rank s' = rank s ∨ Less (rank s') (rank s)) := by
  have key : s'.pc = s.pc → s'.callback = s.callback → (∀ o, strongOf s'.objs o ≤ strongOf s.objs o) →
      s'.pc ≠ .off ∧ (rank s' = rank s ∨ Less (rank s') (rank s)) := by
    intro h1 h2 h3
    refine ⟨by rw [h1]; exact h0, ?_⟩
    simp only [rank, h1, h2]
    cases s.pc with
    | drop l all t =>
      have := strongs_le h3 l
      by_cases he : strongs s'.objs l = strongs s.objs l
      · left; simp only [he]
      · right; exact less3 (by omega)
    | _ => exact .inl rfl
  cases l <;> simp only [Label.ofExit, Bool.true_eq_false] at hl <;> simp only [step] at hs <;>
    simp only [nested, h0, ne_eq, not_false_eq_true, not_true_eq_false] at hn
  · split at hs
    · cases hs; exact key rfl rfl (fun _ => Nat.le_refl _)
    · cases hs
  · split at hs
    · cases hs; exact key rfl rfl (fun _ => Nat.le_refl _)
    · cases hs
  · split at hs
    · cases hs; exact key rfl rfl (fun _ => Nat.le_refl _)
    · cases hs
  · split at hs
    · cases hs
      refine key rfl rfl (fun o => ?_)
      by_cases ho : o = s.made
      · subst ho; simp [strongOf, upd]
      · simp [strongOf, upd, ho]
    · cases hs
  · split at hs
    · rename_i o _ x hx
      split at hs
      · simp only [addRef, hx] at hs
        cases hs
        refine key rfl rfl (fun q => ?_)
        by_cases hq : q = o
        · subst hq; simp [strongOf, upd, hx]
        · simp [strongOf, upd, hq]
      · cases hs
    · cases hs
  · split at hs
    · split at hs
      · obtain ⟨h1, h2, h3, _⟩ := unref_strong hs
        exact key h1 h2 h3
      · cases hs
    · cases hs
  · split at hs
    · rename_i hc; exact absurd hc.1 h0
    · cases hs

/-- gbinder_ipc_exit doesn't run forever: whatever else happens, it makes a finite number of steps.
Partial: unless a destroy callback runs the event loop. -/
theorem C75_ends_partial {f : Nat → State} {l : Nat → Label} (h0 : (f 0).pc ≠ .off)
    (hs : ∀ n, ¬nested (f n) (l n) ∧ step (f n) (l n) = .ok (f (n + 1))) :
    ∃ N, ∀ n, N ≤ n → (l n).ofExit = false := by
  have hoff : ∀ n, (f n).pc ≠ .off := by
    intro n
    induction n with
    | zero => exact h0
    | succ n ih =>
      cases hl : (l n).ofExit with
      | false => exact (rank_other hl (hs n).1 ih (hs n).2).1
      | true => exact (rank_exit hl ih (hs n).2).1
  have main : ∀ (r : Nat × Nat × Nat) (n : Nat), rank (f n) = r → ∃ N, ∀ m, N ≤ m → (l m).ofExit = false := by
    intro r
    induction r using less_wf.induction with
    | _ r ih =>
      intro n hr
      by_cases he : ∃ k, (l (n + k)).ofExit = true
      · have walk : ∀ k, (l (n + k)).ofExit = true → ∃ m, n ≤ m ∧ Less (rank (f (m + 1))) r := by
          intro k
          induction k generalizing n with
          | zero =>
            intro hk
            refine ⟨n, Nat.le_refl _, ?_⟩
            rw [← hr]
            exact (rank_exit hk (hoff n) (hs n).2).2
          | succ k ihk =>
            intro hk
            cases hl : (l n).ofExit with
            | true =>
              refine ⟨n, Nat.le_refl _, ?_⟩
              rw [← hr]
              exact (rank_exit hl (hoff n) (hs n).2).2
            | false =>
              rcases (rank_other hl (hs n).1 (hoff n) (hs n).2).2 with h1 | h1
              · have hk' : (l (n + 1 + k)).ofExit = true := by
                  rw [← hk]; congr 2; omega
                obtain ⟨m, hm, h2⟩ := ihk (n + 1) (h1.trans hr) ⟨k, hk'⟩ hk'
                exact ⟨m, by omega, h2⟩
              · exact ⟨n, Nat.le_refl _, by rw [← hr]; exact h1⟩
        obtain ⟨k, hk⟩ := he
        obtain ⟨m, _, hm⟩ := walk k hk
        exact ih _ hm (m + 1) rfl
      · refine ⟨n, fun m hm => ?_⟩
        cases hl : (l m).ofExit with
        | false => rfl
        | true =>
          refine absurd ⟨m - n, ?_⟩ he
          rw [show n + (m - n) = m by omega]
          exact hl
  exact main _ 0 rfl

/-! ### Where the code doesn't do that -/

/-- A destroy callback called by gbinder_ipc_exit submits another transaction: it's neither executed
nor destroyed. -/
theorem C75_fails_submit : (exec step {} [.open 0, .submit 0, .finish 0, .exit [0], .next, .wait [0],
      .cancel, .submit 0, .ret, .objects [], .drop, .put, .next]).holds (fun s =>
    s.pc = .done ∧ s.log = [.submit 0 0, .exit, .destroy 0, .submit 1 0, .exited] ∧
    s.txs 1 = some ⟨0, .lost⟩) = true := by decide +kernel

/-- exit() is called by a completion callback: the transaction isn't destroyed. -/
theorem C75_fails_callback : (exec step {} [.open 0, .submit 0, .finish 0, .complete 0, .exit [0], .next,
      .wait [0], .cancel, .objects [], .drop, .put, .next]).holds (fun s =>
    s.pc = .done ∧ s.log = [.submit 0 0, .done 0, .exit, .exited]) = true := by decide +kernel

/-- A destroy callback called by gbinder_ipc_exit opens another device and submits a transaction there:
it's not destroyed, and is still being executed when gbinder_ipc_exit returns. -/
theorem C75_fails_open : (exec step {} [.open 0, .submit 0, .finish 0, .exit [0], .next, .wait [0],
      .cancel, .open 1, .submit 1, .ret, .objects [], .drop, .put, .next]).holds (fun s =>
    s.pc = .done ∧ s.log = [.submit 0 0, .exit, .destroy 0, .submit 1 1, .exited] ∧
    s.txs 1 = some ⟨1, .pool⟩) = true := by decide +kernel

/-- A destroy callback called by gbinder_ipc_exit runs the event loop, which completes another
transaction: gbinder_ipc_exit doesn't find it in the table and dereferences NULL. -/
theorem C75_fails_nested : (exec step {} [.open 0, .submit 0, .submit 0, .finish 0, .finish 1, .exit [0],
      .next, .wait [0, 1], .cancel, .complete 1, .destroy 1, .ret, .cancel]).isUb = true := by
  decide +kernel

/-! ### Examples -/

/-- Two devices, three transactions (one is done, one is scheduled, one is being executed), and two
objects, both referenced on behalf of other processes, one of them also by the application. -/
def run : List Label := [.open 0, .open 1, .submit 0, .submit 1, .submit 0, .finish 0, .complete 0,
  .destroy 0, .finish 1, .newObj 0, .newObj 1, .acquire 0, .acquire 0, .unref 0, .acquire 1,
  .exit [1, 0], .next, .wait [1], .cancel, .newObj 1, .unref 2, .ret, .objects [1], .drop, .drop, .drop,
  .put, .put, .next, .finish 2, .wait [2], .cancel, .ret, .objects [0], .drop, .drop, .drop, .drop, .put,
  .put, .next]

example : (exec step {} run).holds (fun s =>
    s.pc = .done ∧ s.log = [.submit 0 0, .submit 1 1, .submit 2 0, .done 0, .destroy 0, .exit,
      .destroy 1, .freed 2, .destroy 2, .freed 0, .exited] ∧
    s.objs 1 = some { ipc := 1, refs := 1, strong := 0, user := 1 }) = true := by decide +kernel

instance (s : State) (l : Label) : Decidable (nested s l) := by
  cases l <;> simp only [nested] <;> infer_instance

/-- Nothing is nested in this run. -/
def calmRun (s : State) : List Label → Bool
  | [] => true
  | l :: ls => decide (¬nested s l) && match step s l with
    | .ok s' => calmRun s' ls
    | _ => false

theorem reachIf_of_exec {ls : List Label} : ∀ {s : State},
    ReachIf step (fun s l => ¬nested s l) {} s → calmRun s ls = true →
    ∃ s', exec step s ls = .ok s' ∧ ReachIf step (fun s l => ¬nested s l) {} s' := by
  induction ls with
  | nil => intro s h _; exact ⟨s, rfl, h⟩
  | cons l ls ih =>
    intro s h hn
    simp only [calmRun, Bool.and_eq_true, decide_eq_true_eq] at hn
    obtain ⟨h1, h2⟩ := hn
    split at h2
    · rename_i s1 hs
      obtain ⟨s', h3, h4⟩ := ih (.step l h h1 hs) h2
      exact ⟨s', by simp only [exec, hs, h3], h4⟩
    · cases h2

/-- The run above satisfies the hypotheses of `C75_destroyed_partial` and `C75_objects_partial`. -/
example : ∃ s, ReachIf step (fun s l => ¬nested s l) {} s ∧ s.pc = .done ∧ Outstanding s.log 1 ∧
    Outstanding s.log 2 ∧ Outstanding s.log 0 ∧ 1 < s.made := by
  obtain ⟨s, h1, h2⟩ := reachIf_of_exec (ls := run) .init (by decide +kernel)
  have h3 : (exec step {} run).holds (fun s => s.pc = .done ∧ s.made = 3 ∧ s.log = [.submit 0 0,
      .submit 1 1, .submit 2 0, .done 0, .destroy 0, .exit, .destroy 1, .freed 2, .destroy 2, .freed 0,
      .exited]) = true := by decide +kernel
  rw [h1] at h3
  simp only [Out.holds, decide_eq_true_eq] at h3
  obtain ⟨h4, h5, h6⟩ := h3
  refine ⟨s, h2, h4, ?_, ?_, ?_, by omega⟩ <;> simp [h6, Outstanding, before]

/-- So do these of `C75_progress_partial`: it waits for the call made by a thread of the pool, and it
can go on. -/
example : ∃ s, ReachIf step (fun s l => ¬nested s l) {} s ∧ s.pc = .pool 0 [] ∧ s.txs 0 = some ⟨0, .pool⟩ := by
  obtain ⟨s, h1, h2⟩ := reachIf_of_exec (ls := [.open 0, .submit 0, .exit [0], .next]) .init (by decide +kernel)
  have h3 : (exec step {} [.open 0, .submit 0, .exit [0], .next]).holds (fun s =>
      s.pc = .pool 0 [] ∧ s.txs 0 = some ⟨0, .pool⟩) = true := by decide +kernel
  rw [h1] at h3
  simp only [Out.holds, decide_eq_true_eq] at h3
  exact ⟨s, h2, h3⟩

/-- An infinite execution: a destroy callback which is called by gbinder_ipc_exit never returns. -/
example : ∃ (f : Nat → State) (l : Nat → Label), (f 0).pc ≠ .off ∧
    ∀ n, ¬nested (f n) (l n) ∧ step (f n) (l n) = .ok (f (n + 1)) := by
  refine ⟨fun n => { ipcs := [0], pc := .cancel 0 [] [], callback := true, made := 1, objs := fun o =>
    if o = 0 then some { ipc := 0, refs := n + 1, user := n + 1 } else none }, fun _ => .ref 0, by simp, ?_⟩
  intro n
  refine ⟨by simp [nested], ?_⟩
  simp only [step, State.app, addRef, if_true, or_true, true_and, Nat.zero_lt_succ, Out.ok.injEq,
    State.mk.injEq, and_true]
  funext o
  by_cases ho : o = 0
  · subst ho; simp [upd]
  · simp [upd, ho]

end Gb.C75
