import Verif.Lemmas.RemoteObjLog
import Verif.Spec.Handles
/- One object per handle. -/
set_option autoImplicit false

namespace Gb.RemoteObj

def State.regd (s : State) (h p : Nat) : Nat := if s.reg h = some p then 1 else 0
def State.inc (s : State) (h p : Nat) : Nat := s.incoming.countP fun x => decide (x = (h, p))

structure Uniq (s : State) : Prop where
  /-- At most one object per handle. -/
  one : ∀ p q o o', s.objs p = some o → s.objs q = some o' → o.handle = o'.handle → p = q
  /-- An object (alive, or the service manager) which is not in the table is on its way out. -/
  tab : ∀ p o, s.objs p = some o → (o.dead = false ∨ o.handle = smHandle) →
    s.table o.handle = some p ∨ (o.refs = 1 ∧ 0 < s.dy p .disposed) ∨
      0 < s.dy p .finalizing + s.dy p .removed
  /-- Notifications are sent to those who are waiting for them. -/
  inc : ∀ h a p o, (h, a) ∈ s.incoming → s.objs p = some o → o.handle = h → p = a
  sm : ∀ p o, ⟨p, false⟩ ∈ s.killing → s.objs p = some o → o.handle ≠ smHandle
  reg : ∀ h a, s.reg h = some a → ∃ o, s.objs a = some o ∧ o.handle = h ∧ o.dead = false
  /-- There is at most one notification. -/
  bal : ∀ p o, s.objs p = some o → s.regd o.handle p + s.inc o.handle p + s.f p + s.tq p ≤ 1
  smd : ∀ p o, s.objs p = some o → o.dead = true → o.handle = smHandle →
    s.inc o.handle p + s.f p + s.tq p = 0

theorem uniq_init : Uniq {} := by
  refine ⟨?_, ?_, ?_, ?_, ?_, ?_, ?_⟩ <;> intros <;> simp_all

/-- The main thread only declares dead those which were alive. -/
theorem dead_of_killing {s : State} (hi : Inv s) (hl : ∀ q, LogAt s q) {p : Nat} {b : Bool}
    (hm : ⟨p, b⟩ ∈ s.killing) : ∃ o, s.objs p = some o ∧ o.dead = true ∧ 0 < o.refs := by
  have hk : 0 < s.k p := pos_of_mem hm (by simp)
  obtain ⟨o, ho, hr⟩ := alive_of_owner hi (q := p) (by omega)
  have hg := hl p
  unfold LogAt at hg
  simp only [ho, liveOf, aliveOf] at hg
  have h1 := hg.alive rfl
  have h2 : 0 < s.kn p + s.ks p := by
    cases b
    · have : 0 < s.ks p := pos_of_mem hm (by simp)
      omega
    · have : 0 < s.kn p := pos_of_mem hm (by simp)
      omega
  have h3 := hg.one
  refine ⟨o, ho, ?_, hr⟩
  cases hd : o.dead
  · simp only [hd, Bool.not_false, Bool.toNat_true] at h1; omega
  · rfl

theorem zero_of_none {s : State} (hi : Inv s) {p : Nat} (hn : s.objs p = none) :
    s.f p = 0 ∧ s.t p = 0 ∧ s.k p = 0 ∧ s.dy p .disposing = 0 ∧ s.dy p .disposed = 0 ∧
      s.dy p .finalizing = 0 ∧ s.dy p .removed = 0 := by
  have hg := hi.good p
  unfold GoodAt at hg
  simp only [hn, refsOf, liveOf] at hg
  obtain ⟨a1, a2, a3, a4, a5, a6⟩ := hg
  omega

theorem zero_of_fin {s : State} (hi : Inv s) {p : Nat} {o : Obj} (ho : s.objs p = some o)
    (hf : 0 < s.dy p .finalizing + s.dy p .removed) :
    o.refs = 0 ∧ s.user p = 0 ∧ s.f p = 0 ∧ s.t p = 0 ∧ s.k p = 0 ∧ s.dy p .disposing = 0 ∧
      s.dy p .disposed = 0 := by
  have hg := hi.good p
  unfold GoodAt at hg
  simp only [ho, refsOf, liveOf] at hg
  obtain ⟨a1, a2, a3, a4, a5, a6⟩ := hg
  omega

theorem refs_eq {s : State} (hi : Inv s) {p : Nat} {o : Obj} (ho : s.objs p = some o) :
    o.refs = s.user p + s.f p + s.t p + s.k p + s.dy p .disposing + s.dy p .disposed := by
  have hg := hi.good p
  unfold GoodAt at hg
  simp only [ho, refsOf] at hg
  exact hg.refs

theorem tq_le {s : State} (p : Nat) : s.tq p ≤ s.t p := List.countP_mono_left (by simp +contextual)

theorem inc_pos {s : State} {h a : Nat} (hm : (h, a) ∈ s.incoming) : 0 < s.inc h a :=
  pos_of_mem hm (by simp)

/-- What doesn't depend on the reference counts. -/
theorem Uniq.of {s s' : State} (h : Uniq s)
    (ho : ∀ p o, s'.objs p = some o →
      ∃ o', s.objs p = some o' ∧ o'.handle = o.handle ∧ o'.dead = o.dead)
    (ho' : ∀ p o, s.objs p = some o → ∃ o', s'.objs p = some o' ∧ o'.handle = o.handle ∧ o'.dead = o.dead)
    (ht : ∀ p o, s'.objs p = some o → (o.dead = false ∨ o.handle = smHandle) →
      s'.table o.handle = some p ∨ (o.refs = 1 ∧ 0 < s'.dy p .disposed) ∨
      0 < s'.dy p .finalizing + s'.dy p .removed)
    (hi : ∀ x, x ∈ s'.incoming → x ∈ s.incoming) (hr : s'.reg = s.reg)
    (hk : ∀ p, ⟨p, false⟩ ∈ s'.killing → ⟨p, false⟩ ∈ s.killing)
    (hb : ∀ p o, s.objs p = some o → s'.inc o.handle p + s'.f p + s'.tq p ≤
      s.inc o.handle p + s.f p + s.tq p) : Uniq s' := by
  obtain ⟨a1, a2, a3, a4, a5, a6, a7⟩ := h
  refine ⟨?_, ht, ?_, ?_, ?_, ?_, ?_⟩
  · intro p q o o' hp hq he
    obtain ⟨o1, h1, h2, -⟩ := ho p o hp
    obtain ⟨o2, h3, h4, -⟩ := ho q o' hq
    exact a1 p q o1 o2 h1 h3 (by rw [h2, h4]; exact he)
  · intro x a p o hm hp he
    obtain ⟨o1, h1, h2, -⟩ := ho p o hp
    exact a3 x a p o1 (hi _ hm) h1 (by rw [h2]; exact he)
  · intro p o hm hp
    obtain ⟨o1, h1, h2, -⟩ := ho p o hp
    rw [← h2]
    exact a4 p o1 (hk p hm) h1
  · intro x a hx
    rw [hr] at hx
    obtain ⟨o, h1, h2, h3⟩ := a5 x a hx
    obtain ⟨o', h1', h2', h3'⟩ := ho' a o h1
    exact ⟨o', h1', h2'.trans h2, h3'.trans h3⟩
  · intro p o hp
    obtain ⟨o1, h1, h2, -⟩ := ho p o hp
    have := a6 p o1 h1
    have := hb p o1 h1
    simp only [State.regd, hr] at *
    rw [← h2]
    omega
  · intro p o hp hd hh
    obtain ⟨o1, h1, h2, h3⟩ := ho p o hp
    have := a7 p o1 h1 (h3.trans hd) (h2.trans hh)
    have := hb p o1 h1
    rw [← h2]
    omega

theorem Uniq.addRef {s s' : State} {p : Nat} (hs : s.addRef p = .ok s') (h : Uniq s)
    (hp : ∀ o, s.objs p = some o → (o.dead = false ∨ o.handle = smHandle) →
      s.table o.handle = some p ∨ o.refs ≠ 1) : Uniq s' := by
  obtain ⟨o, ho, h0, rfl⟩ := addRef_ok hs
  have ht := h.tab
  refine h.of ?_ ?_ ?_ (fun _ => id) rfl (fun _ => id) (fun _ _ _ => Nat.le_refl _)
  all_goals simp only [State.dy, upd] at ht ⊢; grind

theorem Uniq.unref {s s' : State} {p : Nat} (hs : s.unref p = .ok s') (h : Uniq s)
    (hp : ∀ o, s.objs p = some o → 2 ≤ o.refs → s.dy p .finalizing + s.dy p .removed = 0) :
    Uniq s' := by
  obtain ⟨o, ho, ⟨h1, rfl⟩ | ⟨h1, rfl⟩⟩ := unref_ok hs
  · have ht := h.tab
    refine h.of ?_ ?_ ?_ (fun _ => id) rfl (fun _ => id) (fun _ _ _ => Nat.le_refl _)
    all_goals simp only [State.dy, List.countP_cons] at ht ⊢; grind
  · have ht := h.tab
    refine h.of ?_ ?_ ?_ (fun _ => id) rfl (fun _ => id) (fun _ _ _ => Nat.le_refl _)
    all_goals simp only [State.dy, upd] at ht hp ⊢; grind

/-- Only the objects, the table and the rest of the visible state matter. -/
theorem Uniq.same {s s' : State} (h : Uniq s) (h1 : s'.objs = s.objs) (h2 : s'.table = s.table)
    (h3 : s'.dying = s.dying) (h4 : s'.incoming = s.incoming) (h5 : s'.reg = s.reg)
    (h6 : s'.killing = s.killing) (h7 : s'.found = s.found) (h8 : ∀ q, s'.tq q ≤ s.tq q) : Uniq s' := by
  refine h.of ?_ ?_ ?_ ?_ h5 ?_ ?_
  · intro p o hp; rw [h1] at hp; exact ⟨o, hp, rfl, rfl⟩
  · intro p o hp; rw [h1]; exact ⟨o, hp, rfl, rfl⟩
  · intro p o hp hd; rw [h1] at hp; unfold State.dy; rw [h2, h3]; exact h.tab p o hp hd
  · intro x hx; rw [h4] at hx; exact hx
  · intro x hx; rw [h6] at hx; exact hx
  · intro p o _
    have := h8 p
    simp only [State.inc, State.f, h4, h7]
    omega

theorem uniq_create {s s' : State} {a : Nat} {c : Create} {p : Nat} (hi : Inv s) (h : Uniq s)
    (hf : Fresh s (.lookup a c p)) (hn : s.objs p = none) (hc : c ≠ .no) (ht : s.table a = none)
    (he : s' = { create s a c p with
      table := upd (create s a c p).table a (some p),
      user := upd (create s a c p).user p ((create s a c p).user p + 1) }) : Uniq s' := by
  obtain ⟨f1, f2⟩ := hf ht hc
  obtain ⟨z1, z2, z3, z4, z5, z6, z7⟩ := zero_of_none hi hn
  have z8 := tq_le (s := s) p
  have hreg : s.reg a = none := by
    cases hr : s.reg a with
    | none => rfl
    | some b =>
      obtain ⟨o, ho, hh, -⟩ := h.reg a b hr
      exact absurd hh (f1 b o ho)
  have hreg' : ∀ b, s.reg b ≠ some p := by
    intro b hb
    obtain ⟨o, ho, -⟩ := h.reg b p hb
    rw [hn] at ho; cases ho
  have hk : ∀ b, ⟨p, b⟩ ∉ s.killing := by
    intro b hb
    have : 0 < s.k p := pos_of_mem hb (by simp)
    omega
  have hinc : s.inc a p = 0 := List.countP_eq_zero.2 fun x hx => by
    simp only [decide_eq_true_eq]; rintro rfl; exact f2 p hx
  obtain ⟨a1, a2, a3, a4, a5, a6, a7⟩ := h
  have htq : s.tq p = 0 := by omega
  clear z2 z8 z3
  simp only [State.dy, State.f, State.tq, State.inc, State.regd] at *
  cases c
  · exact absurd rfl hc
  all_goals
    subst he
    simp only [create, State.add, request, hreg, if_true]
    refine ⟨?_, ?_, ?_, ?_, ?_, ?_, ?_⟩
    · simp only [upd]; grind
    · simp only [upd, State.dy]
      intro q o hq hd
      split at hq
      · cases hq; subst_vars; left; simp
      · rcases a2 q o hq hd with hx | hx
        · left
          have : o.handle ≠ a := f1 q o hq
          rw [if_neg this]; exact hx
        · exact .inr hx
    · simp only [upd]; grind
    · simp only [upd]; grind
    · simp only [upd]
      intro b q hq
      first
        | (split at hq
           · cases hq; subst_vars; exact ⟨_, if_pos rfl, rfl, rfl⟩
           · have hne : q ≠ p := fun e => hreg' b (e ▸ hq)
             simp only [hne, if_false]; exact a5 b q hq)
        | (have hne : q ≠ p := fun e => hreg' b (e ▸ hq)
           simp only [hne, if_false]; exact a5 b q hq)
    · simp only [upd, State.dy, State.f, State.tq, State.inc, State.regd]
      intro q o hq
      split at hq
      · cases hq; subst_vars
        simp only [z1, htq, hinc, hreg]
        first | (split <;> omega) | simp
      · rename_i hne
        have h6 := a6 q o hq
        have : o.handle ≠ a := f1 q o hq
        try simp only [if_neg this]
        exact h6
    · simp only [upd, State.f, State.tq, State.inc]
      intro q o hq hd hh
      split at hq
      · cases hq; subst_vars
        simp only [z1, htq, hinc]
      · exact a7 q o hq hd hh

theorem uniq_deliver {s : State} {a b p : Nat} (hi : Inv s) (h : Uniq s)
    (hm : (a, b) ∈ s.incoming) (ht : s.table a = some p) :
    p = b ∧ Uniq { s with incoming := s.incoming.erase (a, b), found := p :: s.found } := by
  obtain ⟨o, ho, hh⟩ := hi.table a p ht
  have hp := h.inc a b p o hm ho hh
  subst hp
  refine ⟨rfl, h.of (fun q o hq => ⟨o, hq, rfl, rfl⟩) (fun q o hq => ⟨o, hq, rfl, rfl⟩) h.tab
    (fun x hx => List.mem_of_mem_erase hx) rfl (fun _ => id) ?_⟩
  intro q o' hq
  simp only [State.inc, State.f, State.tq, countP_erase_sub _ hm, List.countP_cons, decide_eq_true_eq,
    Prod.mk.injEq]
  have h1 := inc_pos hm
  simp only [State.inc] at h1
  by_cases hqp : p = q
  · subst hqp
    rw [ho] at hq; cases hq
    subst hh
    simp only [and_self, if_true]
    omega
  · simp [hqp]

theorem uniq_run {s s' : State} {p : Nat} (h : Uniq s) (hs : step s (.run p) = .ok s') : Uniq s' := by
  simp only [step] at hs
  split at hs
  case isFalse => cases hs
  case isTrue hc =>
    obtain ⟨hk, hc⟩ := hc
    have hm : 0 < s.tasks.countP (fun x => decide (x = ⟨p, false⟩)) := pos_of_mem hc (by simp)
    split at hs
    · cases hs
    · rename_i o ho
      split at hs
      · rename_i hd
        cases hs
        refine h.same rfl rfl rfl rfl rfl rfl rfl fun q => ?_
        simp only [State.tq, State.add, List.countP_cons, countP_erase_sub _ hc, Task.mk.injEq,
          decide_eq_true_eq, Bool.true_eq_false, and_false, if_false, Nat.add_zero]
        exact Nat.sub_le _ _
      · rename_i hd
        cases hs
        have hb := h.bal p o ho
        have hr : ∀ x, s.reg x ≠ some p := by
          intro x hx
          obtain ⟨o', h1, h2, h3⟩ := h.reg x p hx
          rw [ho] at h1; cases h1; subst h2
          simp only [State.regd, hx, if_true, State.tq] at hb
          omega
        obtain ⟨a1, a2, a3, a4, a5, a6, a7⟩ := h
        simp only [State.dy, State.f, State.tq, State.inc, State.regd] at *
        refine ⟨?_, ?_, ?_, ?_, ?_, ?_, ?_⟩
        · simp only [State.add, upd]; grind
        · simp only [State.add, upd, State.dy]; grind
        · simp only [State.add, upd]; grind
        · simp only [State.add, upd, hk]; grind
        · simp only [State.add, upd]; grind
        · simp only [State.add, upd, State.f, State.tq, State.inc, State.regd,
            countP_erase_sub _ hc]; grind
        · simp only [State.add, upd, State.f, State.tq, State.inc, State.regd,
            countP_erase_sub _ hc, decide_eq_true_eq, Task.mk.injEq, and_true]; grind

theorem uniq_bury {s s' : State} {p : Nat} (hi : Inv s) (hl : ∀ q, LogAt s q) (h : Uniq s)
    (hs : step s (.bury p) = .ok s') : Uniq s' := by
  simp only [step] at hs
  split at hs
  case isFalse => cases hs
  case isTrue hc =>
    obtain ⟨o', ho', hd, -⟩ := dead_of_killing hi hl hc
    rw [ho'] at hs
    cases hs
    have h1 := h.one
    have h2 := h.tab
    refine h.of (fun q o hq => ⟨o, hq, rfl, rfl⟩) (fun q o hq => ⟨o, hq, rfl, rfl⟩) ?_
      (fun _ => id) rfl (fun q hq => List.mem_of_mem_erase hq) ?_
    · intro q o hq hx
      simp only [State.add, State.dy] at hq h2 ⊢
      rcases h2 q o hq hx with h3 | h3
      · left
        split
        · rename_i hz
          have : o.handle ≠ o'.handle := by
            intro he
            have := h1 q p o o' hq ho' he
            subst this
            rw [hq] at ho'; cases ho'
            rcases hx with hx | hx
            · rw [hd] at hx; cases hx
            · exact hz hx
          rw [upd_ne _ _ this]; exact h3
        · exact h3
      · exact .inr h3
    · intro q o hq
      simp only [State.add, State.inc, State.f, State.tq, List.countP_cons, Task.mk.injEq,
          decide_eq_true_eq, Bool.true_eq_false, and_false, if_false, Nat.add_zero]
      exact Nat.le_refl _

theorem uniq_suicide {s s' : State} {p : Nat} (hf : Fresh s (.suicide p)) (h : Uniq s)
    (hs : step s (.suicide p) = .ok s') : Uniq s' := by
  simp only [step] at hs
  split at hs
  case isFalse => cases hs
  case isTrue hc =>
    obtain ⟨hk, hc⟩ := hc
    split at hs
    · cases hs
    · rename_i o ho
      split at hs
      · cases hs; exact h
      · rename_i hd
        cases hs
        have hz := hf o ho
        obtain ⟨a1, a2, a3, a4, a5, a6, a7⟩ := h
        simp only [State.dy, State.f, State.tq, State.inc, State.regd] at *
        refine ⟨?_, ?_, ?_, ?_, ?_, ?_, ?_⟩
        · simp only [State.add, upd]; grind
        · simp only [State.add, upd, State.dy]; grind
        · simp only [State.add, upd]; grind
        · simp only [State.add, upd, hk]; grind
        · simp only [State.add, upd]; grind
        · simp only [State.add, upd, State.f, State.tq, State.inc, State.regd]; grind
        · simp only [State.add, upd, State.f, State.tq, State.inc, State.regd]; grind

theorem uniq_vanish {s s' : State} {p : Nat} (hi : Inv s) (hl : ∀ q, LogAt s q) (h : Uniq s)
    (hs : step s (.vanish p) = .ok s') : Uniq s' := by
  simp only [step] at hs
  split at hs
  case isFalse => cases hs
  case isTrue hc =>
    obtain ⟨o', ho', hd, -⟩ := dead_of_killing hi hl hc
    rw [ho'] at hs
    cases hs
    have h1 := h.one
    have h2 := h.tab
    have hz := h.sm p o' hc ho'
    refine h.of (fun q o hq => ⟨o, hq, rfl, rfl⟩) (fun q o hq => ⟨o, hq, rfl, rfl⟩) ?_
      (fun _ => id) rfl (fun q hq => List.mem_of_mem_erase hq) (fun _ _ _ => Nat.le_refl _)
    intro q o hq hx
    simp only [State.add, State.dy] at hq h2 ⊢
    rcases h2 q o hq hx with h3 | h3
    · left
      have : o.handle ≠ o'.handle := by
        intro he
        have := h1 q p o o' hq ho' he
        subst this
        rw [hq] at ho'; cases ho'
        rcases hx with hx | hx
        · rw [hd] at hx; cases hx
        · exact hz hx
      rw [upd_ne _ _ this]; exact h3
    · exact .inr h3

theorem uniq_reanimate {s s' : State} {p : Nat} {b : Bool} (h : Uniq s)
    (hs : step s (.reanimate p b) = .ok s') : Uniq s' := by
  simp only [step] at hs
  split at hs
  case isFalse => cases hs
  case isTrue hc =>
    obtain ⟨hk, hc⟩ := hc
    split at hs
    · cases hs
    · rename_i o ho
      split at hs
      · rename_i hd
        obtain ⟨hd, hz, rfl⟩ := hd
        cases hs
        have hr : s.reg o.handle = none := by
          cases hr : s.reg o.handle with
          | none => rfl
          | some a =>
            obtain ⟨o', h1, h2, h3⟩ := h.reg _ _ hr
            have := h.one a p o' o h1 ho h2
            subst this
            rw [ho] at h1; cases h1
            rw [hd] at h3; cases h3
        obtain ⟨a1, a2, a3, a4, a5, a6, a7⟩ := h
        simp only [State.dy, State.f, State.tq, State.inc, State.regd] at *
        refine ⟨?_, ?_, ?_, ?_, ?_, ?_, ?_⟩
        · simp only [State.add, upd]; grind
        · simp only [State.add, upd, State.dy]; grind
        · simp only [State.add, upd]; grind
        · simp only [State.add, upd, hk]; grind
        · simp only [State.add, request, hr, if_true]
          intro x q hq
          by_cases hx : x = o.handle
          · subst hx
            rw [upd_same] at hq; cases hq
            exact ⟨_, upd_same _ _ _, rfl, rfl⟩
          · rw [upd_ne _ _ hx] at hq
            obtain ⟨o', h1, h2, h3⟩ := a5 x q hq
            have hne : q ≠ p := by
              intro he; subst he
              rw [ho] at h1; cases h1
              exact hx h2.symm
            exact ⟨o', by rw [upd_ne _ _ hne]; exact h1, h2, h3⟩
        · simp only [State.add, request, hr, if_true, State.f, State.tq, State.inc, State.regd]
          intro q o' hq
          by_cases hqp : q = p
          · subst hqp
            rw [upd_same] at hq; cases hq
            have := a7 q o ho hd hz
            simp only [upd_same, if_true]
            omega
          · rw [upd_ne _ _ hqp] at hq
            have hne : o'.handle ≠ o.handle := fun e => hqp (a1 q p o' o hq ho e)
            rw [upd_ne _ _ hne]
            exact a6 q o' hq
        · simp only [State.add, upd, State.f, State.tq, State.inc, State.regd]; grind
      · cases hs; exact h

theorem uniq_dispose {s s' : State} {p : Nat} (h : Uniq s)
    (hs : step s (.dispose p) = .ok s') : Uniq s' := by
  simp only [step] at hs
  split at hs
  case isFalse => cases hs
  case isTrue hc =>
    split at hs
    · cases hs
    · rename_i o ho
      have h1 := h.one
      have h2 := h.tab
      split at hs
      all_goals
        cases hs
        refine h.of (fun q o hq => ⟨o, hq, rfl, rfl⟩) (fun q o hq => ⟨o, hq, rfl, rfl⟩) ?_
          (fun _ => id) rfl (fun _ => id) (fun _ _ _ => Nat.le_refl _)
        simp only [State.dy, List.countP_cons, countP_erase_sub _ hc, upd, decide_eq_true_eq,
          Dying.mk.injEq, reduceCtorEq, and_false, if_false, and_true, Nat.sub_zero,
          Nat.add_zero] at h2 ⊢
        grind

theorem uniq_settle {s s' : State} {p : Nat} (hi : Inv s) (h : Uniq s)
    (hs : step s (.settle p) = .ok s') : Uniq s' := by
  simp only [step] at hs
  split at hs
  case isFalse => cases hs
  case isTrue hc =>
    split at hs
    · cases hs
    · rename_i o ho
      have h1 := h.one
      have h2 := h.tab
      have hz : s.dy p .finalizing + s.dy p .removed = 0 := by
        have hm : 0 < s.dy p .disposed := pos_of_mem hc (by simp)
        by_cases hf : 0 < s.dy p .finalizing + s.dy p .removed
        · have := zero_of_fin hi ho hf; omega
        · omega
      split at hs
      · cases hs
      · split at hs
        all_goals
          cases hs
          simp only [State.dy] at h2 hz
          refine h.of ?_ ?_ ?_ (fun _ => id) rfl (fun _ => id) (fun _ _ _ => Nat.le_refl _)
          · simp only [upd]; grind
          · simp only [upd]; grind
          · intro q o' hq hx
            simp only [State.dy, List.countP_cons, countP_erase_sub _ hc, decide_eq_true_eq,
              Dying.mk.injEq, reduceCtorEq, and_false, if_false, and_true, Nat.sub_zero,
              Nat.add_zero] at hq ⊢
            by_cases hqp : q = p
            · subst hqp
              rw [upd_same] at hq; cases hq
              simp only at hx ⊢
              have := h2 q o ho hx
              simp only [if_true]
              rcases this with h3 | ⟨h3, -⟩ | h3
              · exact .inl h3
              all_goals omega
            · rw [upd_ne _ _ hqp] at hq
              have hqp' : ¬ p = q := fun e => hqp e.symm
              simp only [hqp', if_false, Nat.sub_zero, Nat.add_zero]
              exact h2 q o' hq hx

theorem uniq_invalidate {s s' : State} {p : Nat} (h : Uniq s)
    (hs : step s (.invalidate p) = .ok s') : Uniq s' := by
  simp only [step] at hs
  split at hs
  case isFalse => cases hs
  case isTrue hc =>
    split at hs
    · cases hs
    · rename_i o ho
      have h1 := h.one
      have h2 := h.tab
      cases hs
      refine h.of (fun q o hq => ⟨o, hq, rfl, rfl⟩) (fun q o hq => ⟨o, hq, rfl, rfl⟩) ?_
        (fun _ => id) rfl (fun _ => id) (fun _ _ _ => Nat.le_refl _)
      simp only [State.dy, List.countP_cons, countP_erase_sub _ hc, upd, decide_eq_true_eq,
        Dying.mk.injEq, reduceCtorEq, and_false, if_false, and_true, Nat.sub_zero,
        Nat.add_zero] at h2 ⊢
      grind

theorem uniq_free {s s' : State} {p : Nat} (hi : Inv s) (h : Uniq s)
    (hs : step s (.free p) = .ok s') : Uniq s' := by
  simp only [step] at hs
  split at hs
  case isFalse => cases hs
  case isTrue hc =>
    split at hs
    · cases hs
    · rename_i o ho
      cases hs
      obtain ⟨a1, a2, a3, a4, a5, a6, a7⟩ := h
      have hm : 0 < s.dy p .removed := pos_of_mem hc (by simp)
      obtain ⟨z0, z1, z2, z3, z4, z5, z6⟩ := zero_of_fin hi ho (by omega)
      have hk : ∀ b, ⟨p, b⟩ ∉ s.killing := by
        intro b hb
        have : 0 < s.k p := pos_of_mem hb (by simp)
        omega
      simp only [State.dy, State.f, State.tq, State.inc, State.regd] at *
      refine ⟨?_, ?_, ?_, ?_, ?_, ?_, ?_⟩
      · simp only [State.add, upd]; grind
      · simp only [State.add, upd, State.dy, countP_erase_sub _ hc, decide_eq_true_eq,
          Dying.mk.injEq, reduceCtorEq, and_false, if_false, and_true, Nat.sub_zero]; grind
      · simp only [State.add, upd]; grind
      · simp only [State.add, upd]; grind
      · simp only [State.add]
        intro x q hq
        have hq' : s.reg x = some q := by
          split at hq
          · exact hq
          · unfold upd at hq
            split at hq
            · cases hq
            · exact hq
        obtain ⟨o', h1, h2, h3⟩ := a5 x q hq'
        have hne : q ≠ p := by
          intro he; subst he
          rw [ho] at h1; cases h1
          subst h2
          rw [h3] at hq
          simp [upd] at hq
        exact ⟨o', by rw [upd_ne _ _ hne]; exact h1, h2, h3⟩
      · simp only [State.add, State.f, State.tq, State.inc, State.regd]
        intro q o' hq
        have hne : q ≠ p := by
          intro he; subst he; rw [upd_same] at hq; cases hq
        rw [upd_ne _ _ hne] at hq
        have hh : o'.handle ≠ o.handle := fun e => hne (a1 q p o' o hq ho e)
        have := a6 q o' hq
        split
        · exact this
        · rw [upd_ne _ _ hh]; exact this
      · simp only [State.add, upd, State.f, State.tq, State.inc]; grind

theorem uniq_step {s s' : State} {l : Label} (hi : Inv s) (hl : ∀ q, LogAt s q) (h : Uniq s)
    (hf : Fresh s l) (hs : step s l = .ok s') : Uniq s' := by
  cases l with
  | lookup a c p =>
    simp only [step] at hs
    split at hs
    · rename_i q ht
      refine Uniq.addRef hs (h.same rfl rfl rfl rfl rfl rfl rfl (fun _ => Nat.le_refl _)) ?_
      intro o ho _
      obtain ⟨o', ho', hh⟩ := hi.table a q ht
      have : o = o' := by
        have := ho.symm.trans ho'
        exact Option.some.inj this
      subst this
      left
      rw [hh]; exact ht
    · rename_i ht
      split at hs
      · cases hs; exact h
      · rename_i hc
        split at hs
        · rename_i hn
          refine uniq_create hi h hf hn hc ht ?_
          exact (Out.ok.inj hs).symm
        · cases hs
  | ref p =>
    simp only [step] at hs
    split at hs
    · rename_i hc
      refine Uniq.addRef hs (h.same rfl rfl rfl rfl rfl rfl rfl (fun _ => Nat.le_refl _)) ?_
      intro o ho hx
      simp only at ho ⊢
      have hre := refs_eq hi ho
      rcases h.tab p o ho hx with h1 | ⟨h1, h2⟩ | h1
      · exact .inl h1
      · omega
      · have := zero_of_fin hi ho h1; omega
    · cases hs
  | unref p =>
    simp only [step] at hs
    split at hs
    · rename_i hc
      refine Uniq.unref hs (h.same rfl rfl rfl rfl rfl rfl rfl (fun _ => Nat.le_refl _)) ?_
      intro o ho hr
      by_cases hz : 0 < s.dy p .finalizing + s.dy p .removed
      · have := zero_of_fin hi ho hz; omega
      · exact Nat.eq_zero_of_not_pos hz
    · cases hs
  | deadBinder a =>
    simp only [step] at hs
    split at hs
    · rename_i p hp
      cases hs
      obtain ⟨o', ho', hh', hd'⟩ := h.reg a p hp
      obtain ⟨a1, a2, a3, a4, a5, a6, a7⟩ := h
      simp only [State.dy, State.f, State.tq, State.inc, State.regd] at *
      refine ⟨a1, a2, ?_, a4, ?_, ?_, ?_⟩
      · simp only [List.mem_cons, Prod.mk.injEq]; grind
      · simp only [upd]; grind
      · simp only [upd, State.f, State.tq, State.inc, State.regd, List.countP_cons,
          decide_eq_true_eq, Prod.mk.injEq]; grind
      · simp only [State.f, State.tq, State.inc, List.countP_cons, decide_eq_true_eq,
          Prod.mk.injEq]; grind
    · cases hs
  | deliver a b =>
    simp only [step] at hs
    split at hs
    · rename_i hm
      split at hs
      · rename_i p ht
        obtain ⟨-, hu⟩ := uniq_deliver hi h hm ht
        refine Uniq.addRef hs hu ?_
        intro o ho _
        obtain ⟨o', ho', hh⟩ := hi.table a p ht
        have : o = o' := Option.some.inj (ho.symm.trans ho')
        subst this
        left
        rw [hh]; exact ht
      · cases hs
        refine h.of (fun q o hq => ⟨o, hq, rfl, rfl⟩) (fun q o hq => ⟨o, hq, rfl, rfl⟩) h.tab
          (fun x hx => List.mem_of_mem_erase hx) rfl (fun _ => id) ?_
        intro q o hq
        simp only [State.add, State.inc, State.f, State.tq, countP_erase_sub _ hm]
        omega
    · cases hs
  | notify p =>
    simp only [step] at hs
    split at hs
    · rename_i hm
      cases hs
      refine h.of (fun q o hq => ⟨o, hq, rfl, rfl⟩) (fun q o hq => ⟨o, hq, rfl, rfl⟩) h.tab
          (fun _ => id) rfl (fun _ => id) ?_
      intro q o hq
      have h1 : 0 < s.f p := pos_of_mem hm (by simp)
      simp only [State.add, State.inc, State.f, State.tq, countP_erase_sub _ hm, List.countP_cons,
        decide_eq_true_eq, Task.mk.injEq, and_true] at h1 ⊢
      by_cases hqp : p = q
      · subst hqp; simp only [if_true]; omega
      · simp [hqp]
    · cases hs
  | run p => exact uniq_run h hs
  | bury p => exact uniq_bury hi hl h hs
  | done p =>
    simp only [step] at hs
    split at hs
    · rename_i hc
      refine Uniq.unref hs (h.same rfl rfl rfl rfl rfl rfl rfl (fun q => ?_)) ?_
      · simp only [State.tq, countP_erase_sub _ hc]
        omega
      · intro o ho hr
        by_cases hz : 0 < s.dy p .finalizing + s.dy p .removed
        · have := zero_of_fin hi ho hz; omega
        · exact Nat.eq_zero_of_not_pos hz
    · cases hs
  | suicide p => exact uniq_suicide hf h hs
  | vanish p => exact uniq_vanish hi hl h hs
  | reanimate p b => exact uniq_reanimate h hs
  | dispose p => exact uniq_dispose h hs
  | settle p => exact uniq_settle hi h hs
  | invalidate p => exact uniq_invalidate h hs
  | free p => exact uniq_free hi h hs

theorem uniq_reach {s : State} (h : ReachIf step Fresh {} s) : Uniq s := by
  induction h with
  | init => exact uniq_init
  | step l hr hf hs ih =>
    exact uniq_step (inv_reach hr.reach) (log_reach hr.reach) ih hf hs

end Gb.RemoteObj
