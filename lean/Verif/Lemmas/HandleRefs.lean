import Verif.Spec.HandleRefs
import Verif.Lemmas.RemoteObj
/- The invariant of Model/HandleRefs. -/
set_option autoImplicit false

namespace Gb.HandleRefs
open RemoteObj (Obj Ev)

/-! ### Counting -/

/-- There are that many. -/
def Counts (P : Nat → Prop) (n : Nat) : Prop := ∃ l : List Nat, l.Nodup ∧ (∀ p, p ∈ l ↔ P p) ∧ l.length = n

theorem Counts.congr {P Q : Nat → Prop} {n : Nat} (h : Counts P n) (hq : ∀ p, Q p ↔ P p) : Counts Q n := by
  obtain ⟨l, h1, h2, h3⟩ := h
  exact ⟨l, h1, fun p => (h2 p).trans (hq p).symm, h3⟩

theorem Counts.more {P Q : Nat → Prop} {n q : Nat} (h : Counts P n) (h0 : ¬P q) (hq : ∀ p, Q p ↔ P p ∨ p = q) :
    Counts Q (n + 1) := by
  obtain ⟨l, h1, h2, h3⟩ := h
  refine ⟨q :: l, List.nodup_cons.2 ⟨fun hm => h0 ((h2 q).1 hm), h1⟩, fun p => ?_, by simp [h3]⟩
  rw [hq p, List.mem_cons, ← h2 p]
  exact or_comm

theorem Counts.less {P Q : Nat → Prop} {n q : Nat} (h : Counts P n) (h0 : P q) (hq : ∀ p, Q p ↔ P p ∧ p ≠ q) :
    0 < n ∧ Counts Q (n - 1) := by
  obtain ⟨l, h1, h2, h3⟩ := h
  have hm := (h2 q).2 h0
  refine ⟨by have := List.length_pos_of_mem hm; omega, l.erase q, h1.erase q, fun p => ?_,
    by rw [List.length_erase_of_mem hm, h3]⟩
  rw [h1.mem_erase_iff, hq p, ← h2 p]
  exact and_comm

theorem Counts.pos {P : Nat → Prop} {n q : Nat} (h : Counts P n) (h0 : P q) : 0 < n :=
  (h.less h0 (Q := fun p => P p ∧ p ≠ q) fun _ => Iff.rfl).1

/-! ### The invariant -/

/-- Someone has been told that it's dead. -/
def Told (s : RemoteObj.State) (p : Nat) : Prop :=
  p ∈ s.found ∨ (∃ b, ⟨p, b⟩ ∈ s.tasks) ∨ ∃ b, ⟨p, b⟩ ∈ s.killing

structure Inv (s : State) : Prop where
  lib : Reach RemoteObj.step {} s.lib
  zero : s.buffers 0 = 0
  acq : ∀ h, h ≠ 0 → Counts (fun p => ∃ o, s.lib.objs p = some o ∧ o.handle = h ∧ o.acquired = true) (s.acquired h)
  alive : ∀ p o, s.lib.objs p = some o → o.handle ≠ 0 → o.dead = false → o.acquired = true
  node : ∀ h, h ≠ 0 → (s.node h = none ↔ s.acquired h + s.buffers h = 0)
  same : ∀ p o, s.lib.objs p = some o → o.handle ≠ 0 → o.acquired = true → s.names p = s.node o.handle
  table : ∀ h p, h ≠ 0 → s.lib.table h = some p → s.node h = none ∨ s.names p = s.node h
  inc : ∀ x ∈ s.lib.incoming, x.1 ≠ 0 → s.node x.1 = none ∨ ∃ n, s.node x.1 = some n ∧ s.gone n = true
  told : ∀ p o, Told s.lib p → s.lib.objs p = some o → o.handle ≠ 0 → ∃ n, s.names p = some n ∧ s.gone n = true
  dead : ∀ p o, s.lib.objs p = some o → o.handle ≠ 0 → o.dead = true → ∃ n, s.names p = some n ∧ s.gone n = true
  deadAcq : ∀ p o, s.lib.objs p = some o → o.dead = true → o.acquired = false

theorem inv_init : Inv {} where
  lib := .init
  zero := rfl
  acq := fun h _ => ⟨[], by simp, by simp, rfl⟩
  alive := by intro p o h; cases h
  node := by simp
  same := by intro p o h; cases h
  table := by intro h p _ h; cases h
  inc := by simp
  told := by intro p o _ h; cases h
  dead := by intro p o h; cases h
  deadAcq := by intro p o h; cases h

/-- The kernel doesn't do anything about it. -/
def silent : Ev → Bool
  | .drv _ .acquire _ => false
  | .drv _ .release _ => false
  | _ => true

theorem kernel_silent {es : List Ev} (h : ∀ e ∈ es, silent e = true) (s : State) : es.foldl State.kernel s = s := by
  induction es generalizing s with
  | nil => rfl
  | cons e es ih =>
    have h1 := h e (by simp)
    have h2 : s.kernel e = s := by
      cases e with
      | drv p c hd => cases c <;> first | rfl | cases h1
      | _ => rfl
    rw [List.foldl_cons, h2]
    exact ih (fun e he => h e (by simp [he])) s

theorem wrote_of {s : State} {lib : RemoteObj.State} {es : List Ev} (h : lib.log = s.lib.log ++ es) :
    s.wrote lib = es.foldl State.kernel { s with lib } := by
  unfold State.wrote
  rw [h]
  simp

theorem wrote_silent {s : State} {lib : RemoteObj.State} {es : List Ev} (h : lib.log = s.lib.log ++ es)
    (he : ∀ e ∈ es, silent e = true) : s.wrote lib = { s with lib } := by
  rw [wrote_of h, kernel_silent he]

/-- Nothing that matters has happened. -/
structure Quiet (a b : RemoteObj.State) : Prop where
  fwd : ∀ p o, b.objs p = some o → (o.handle ≠ 0 → ∃ o0, a.objs p = some o0 ∧ o0.handle = o.handle ∧
    o0.dead = o.dead ∧ o0.acquired = o.acquired) ∧ (o.dead = true → o.acquired = false)
  bwd : ∀ p o, a.objs p = some o → o.handle ≠ 0 → o.acquired = true → ∃ o', b.objs p = some o' ∧
    o'.handle = o.handle ∧ o'.acquired = true
  table : ∀ h p, h ≠ 0 → b.table h = some p → a.table h = some p
  inc : ∀ x ∈ b.incoming, x ∈ a.incoming
  told : ∀ p, Told b p → Told a p ∨ ∃ h x, (h, x) ∈ a.incoming ∧ a.table h = some p

theorem inv_quiet {s : State} {b : RemoteObj.State} (i : Inv s) (hl : Reach RemoteObj.step {} b)
    (q : Quiet s.lib b) : Inv { s with lib := b } where
  lib := hl
  zero := i.zero
  acq := by
    intro h h0
    refine (i.acq h h0).congr fun p => ⟨?_, ?_⟩
    · rintro ⟨o, h1, h2, h3⟩
      obtain ⟨o0, h4, h5, _, h6⟩ := (q.fwd p o h1).1 (by rw [h2]; exact h0)
      exact ⟨o0, h4, by rw [h5, h2], by rw [h6, h3]⟩
    · rintro ⟨o, h1, h2, h3⟩
      obtain ⟨o', h4, h5, h6⟩ := q.bwd p o h1 (by rw [h2]; exact h0) h3
      exact ⟨o', h4, by rw [h5, h2], h6⟩
  alive := by
    intro p o h1 h2 h3
    obtain ⟨o0, h4, h5, h6, h7⟩ := (q.fwd p o h1).1 h2
    rw [← h7]
    exact i.alive p o0 h4 (by rw [h5]; exact h2) (by rw [h6, h3])
  node := i.node
  same := by
    intro p o h1 h2 h3
    obtain ⟨o0, h4, h5, h6, h7⟩ := (q.fwd p o h1).1 h2
    have := i.same p o0 h4 (by rw [h5]; exact h2) (by rw [h7, h3])
    rwa [h5] at this
  table := fun h p h0 ht => i.table h p h0 (q.table h p h0 ht)
  inc := fun x hx => i.inc x (q.inc x hx)
  told := by
    intro p o h1 h2 h3
    obtain ⟨o0, h4, h5, h6, h7⟩ := (q.fwd p o h2).1 h3
    rcases q.told p h1 with h8 | ⟨h, x, h8, h9⟩
    · exact i.told p o0 h8 h4 (by rw [h5]; exact h3)
    · obtain ⟨o1, h10, h11⟩ := (RemoteObj.inv_reach i.lib).table h p h9
      rw [h4] at h10
      cases h10
      have hz : h ≠ 0 := by rw [← h11, h5]; exact h3
      cases hd : o0.dead with
      | true => exact i.dead p o0 h4 (by rw [h11]; exact hz) hd
      | false =>
        have ha := i.alive p o0 h4 (by rw [h11]; exact hz) hd
        have hs := i.same p o0 h4 (by rw [h11]; exact hz) ha
        rw [h11] at hs
        have hp := (i.acq h hz).pos ⟨o0, h4, h11, ha⟩
        rcases i.inc _ h8 hz with hn | ⟨n, hn, hg⟩
        · have := (i.node h hz).1 hn; omega
        · exact ⟨n, by rw [hs]; exact hn, hg⟩
  dead := by
    intro p o h1 h2 h3
    obtain ⟨o0, h4, h5, h6, h7⟩ := (q.fwd p o h1).1 h2
    exact i.dead p o0 h4 (by rw [h5]; exact h2) (by rw [h6, h3])
  deadAcq := fun p o h1 => (q.fwd p o h1).2

/-- The handle is dropped, provided that there aren't any objects left. -/
theorem inv_drop {s : State} {h : Nat} (h0 : h ≠ 0) (lib : Reach RemoteObj.step {} s.lib) (zero : s.buffers 0 = 0)
    (acq : ∀ h, h ≠ 0 → Counts (fun p => ∃ o, s.lib.objs p = some o ∧ o.handle = h ∧ o.acquired = true) (s.acquired h))
    (alive : ∀ p o, s.lib.objs p = some o → o.handle ≠ 0 → o.dead = false → o.acquired = true)
    (node : ∀ d, d ≠ 0 → (s.node d = none → s.acquired d + s.buffers d = 0) ∧
      (d ≠ h → s.acquired d + s.buffers d = 0 → s.node d = none))
    (same : ∀ p o, s.lib.objs p = some o → o.handle ≠ 0 → o.acquired = true → s.names p = s.node o.handle)
    (table : ∀ h p, h ≠ 0 → s.lib.table h = some p → s.node h = none ∨ s.names p = s.node h)
    (inc : ∀ x ∈ s.lib.incoming, x.1 ≠ 0 → s.node x.1 = none ∨ ∃ n, s.node x.1 = some n ∧ s.gone n = true)
    (told : ∀ p o, Told s.lib p → s.lib.objs p = some o → o.handle ≠ 0 → ∃ n, s.names p = some n ∧ s.gone n = true)
    (dead : ∀ p o, s.lib.objs p = some o → o.handle ≠ 0 → o.dead = true → ∃ n, s.names p = some n ∧ s.gone n = true)
    (deadAcq : ∀ p o, s.lib.objs p = some o → o.dead = true → o.acquired = false) :
    Inv (s.drop h) := by
  unfold State.drop
  split
  · rename_i hz
    refine ⟨lib, zero, acq, alive, ?_, ?_, ?_, ?_, told, dead, deadAcq⟩
    · intro d hd
      by_cases hx : d = h
      · subst hx; simp [upd_same, hz]
      · simp only [upd_ne _ _ hx]; exact ⟨(node d hd).1, (node d hd).2 hx⟩
    · intro p o h1 h2 h3
      by_cases hx : o.handle = h
      · have := (acq h h0).pos ⟨o, h1, hx, h3⟩; omega
      · simp only [upd_ne _ _ hx]; exact same p o h1 h2 h3
    · intro d p hd ht
      by_cases hx : d = h
      · subst hx; exact .inl (upd_same _ _ _)
      · simp only [upd_ne _ _ hx]; exact table d p hd ht
    · intro x hx hd
      by_cases hy : x.1 = h
      · simp only [hy]; exact .inl (upd_same _ _ _)
      · simp only [upd_ne _ _ hy]; exact inc x hx hd
  · rename_i hz
    refine ⟨lib, zero, acq, alive, ?_, same, table, inc, told, dead, deadAcq⟩
    intro d hd
    by_cases hx : d = h
    · subst hx; exact ⟨(node d hd).1, fun h => absurd h hz⟩
    · exact ⟨(node d hd).1, (node d hd).2 hx⟩

/-- An object has died, or has been freed. -/
theorem inv_kill {s : State} {b : RemoteObj.State} {p : Nat} {o : Obj} {es : List Ev} (i : Inv s)
    (hl : Reach RemoteObj.step {} b) (ho : s.lib.objs p = some o)
    (hlog : b.log = s.lib.log ++ es) (hes : ∀ t, es.foldl State.kernel t = (RemoteObj.relEv p o).foldl State.kernel t)
    (hp : b.objs p = none ∨ (∃ o', b.objs p = some o' ∧ o'.handle = o.handle ∧ o'.dead = true ∧ o'.acquired = false ∧
      (o.handle ≠ 0 → ∃ n, s.names p = some n ∧ s.gone n = true)))
    (hothers : ∀ q, q ≠ p → b.objs q = s.lib.objs q)
    (htab : ∀ h q, b.table h = some q → s.lib.table h = some q) (hinc : b.incoming = s.lib.incoming)
    (htold : ∀ q, Told b q → Told s.lib q ∨ q = p) : Inv (s.wrote b) := by
  rw [wrote_of hlog, hes]
  have hb : ∀ q o', b.objs q = some o' → (q ≠ p ∧ s.lib.objs q = some o') ∨ (q = p ∧ o'.handle = o.handle ∧
      o'.dead = true ∧ o'.acquired = false ∧ (o.handle ≠ 0 → ∃ n, s.names p = some n ∧ s.gone n = true)) := by
    intro q o' hq
    by_cases hqp : q = p
    · subst hqp
      rcases hp with h | ⟨o1, h1, h2⟩
      · rw [h] at hq; cases hq
      · rw [h1] at hq; cases hq; exact .inr ⟨rfl, h2⟩
    · exact .inl ⟨hqp, by rw [← hothers q hqp]; exact hq⟩
  have alive : ∀ q o', b.objs q = some o' → o'.handle ≠ 0 → o'.dead = false → o'.acquired = true := by
    intro q o' h1 h2 h3
    rcases hb q o' h1 with ⟨_, h4⟩ | ⟨_, _, h4, _⟩
    · exact i.alive q o' h4 h2 h3
    · rw [h3] at h4; cases h4
  have same : ∀ q o', b.objs q = some o' → o'.handle ≠ 0 → o'.acquired = true → s.names q = s.node o'.handle := by
    intro q o' h1 h2 h3
    rcases hb q o' h1 with ⟨_, h4⟩ | ⟨_, _, _, h4, _⟩
    · exact i.same q o' h4 h2 h3
    · rw [h3] at h4; cases h4
  have table : ∀ h q, h ≠ 0 → b.table h = some q → s.node h = none ∨ s.names q = s.node h :=
    fun h q h0 ht => i.table h q h0 (htab h q ht)
  have inc : ∀ x ∈ b.incoming, x.1 ≠ 0 → s.node x.1 = none ∨ ∃ n, s.node x.1 = some n ∧ s.gone n = true := by
    rw [hinc]; exact i.inc
  have told : ∀ q o', Told b q → b.objs q = some o' → o'.handle ≠ 0 → ∃ n, s.names q = some n ∧ s.gone n = true := by
    intro q o' h1 h2 h3
    rcases hb q o' h2 with ⟨h4, h5⟩ | ⟨rfl, h4, _, _, h5⟩
    · rcases htold q h1 with h6 | h6
      · exact i.told q o' h6 h5 h3
      · exact absurd h6 h4
    · exact h5 (by rw [← h4]; exact h3)
  have dead : ∀ q o', b.objs q = some o' → o'.handle ≠ 0 → o'.dead = true → ∃ n, s.names q = some n ∧ s.gone n = true := by
    intro q o' h1 h2 h3
    rcases hb q o' h1 with ⟨_, h4⟩ | ⟨rfl, h4, _, _, h5⟩
    · exact i.dead q o' h4 h2 h3
    · exact h5 (by rw [← h4]; exact h2)
  have deadAcq : ∀ q o', b.objs q = some o' → o'.dead = true → o'.acquired = false := by
    intro q o' h1 h2
    rcases hb q o' h1 with ⟨_, h4⟩ | ⟨_, _, _, h4, _⟩
    · exact i.deadAcq q o' h4 h2
    · exact h4
  have hset : ∀ h, h ≠ 0 → (h ≠ o.handle ∨ o.acquired = false →
      Counts (fun q => ∃ o', b.objs q = some o' ∧ o'.handle = h ∧ o'.acquired = true) (s.acquired h)) := by
    intro h h0 hx
    refine (i.acq h h0).congr fun q => ⟨?_, ?_⟩
    · rintro ⟨o', h1, h2, h3⟩
      rcases hb q o' h1 with ⟨_, h4⟩ | ⟨_, _, _, h4, _⟩
      · exact ⟨o', h4, h2, h3⟩
      · rw [h3] at h4; cases h4
    · rintro ⟨o', h1, h2, h3⟩
      have hq : q ≠ p := by
        rintro rfl
        rw [ho] at h1
        cases h1
        rcases hx with hx | hx
        · exact hx h2.symm
        · rw [h3] at hx; cases hx
      exact ⟨o', by rw [hothers q hq]; exact h1, h2, h3⟩
  unfold RemoteObj.relEv
  by_cases ha : o.acquired = true
  · rw [if_pos ha]
    simp only [List.foldl_cons, List.foldl_nil, State.kernel]
    split
    · rename_i hk
      obtain ⟨h0, hpos⟩ := hk
      refine inv_drop h0 hl i.zero ?_ alive ?_ same table inc told dead deadAcq
      · intro h hz
        by_cases hh : h = o.handle
        · subst hh
          simp only [upd_same]
          refine ((i.acq _ hz).less ⟨o, ho, rfl, ha⟩ fun q => ⟨?_, ?_⟩).2
          · rintro ⟨o', h1, h2, h3⟩
            rcases hb q o' h1 with ⟨h4, h5⟩ | ⟨_, _, _, h4, _⟩
            · exact ⟨⟨o', h5, h2, h3⟩, h4⟩
            · rw [h3] at h4; cases h4
          · rintro ⟨⟨o', h1, h2, h3⟩, h4⟩
            exact ⟨o', by rw [hothers q h4]; exact h1, h2, h3⟩
        · simp only [upd_ne _ _ hh]
          exact hset h hz (.inl hh)
      · intro d hd
        by_cases hx : d = o.handle
        · subst hx
          refine ⟨fun hn => ?_, fun hne => absurd rfl hne⟩
          have := (i.node _ hd).1 hn
          simp only [upd_same]; omega
        · simp only [upd_ne _ _ hx]
          exact ⟨(i.node d hd).1, fun _ => (i.node d hd).2⟩
    · rename_i hk
      have hz : o.handle = 0 := by
        apply Classical.byContradiction
        intro hz
        have := (i.acq _ hz).pos ⟨o, ho, rfl, ha⟩
        exact hk ⟨hz, this⟩
      exact ⟨hl, i.zero, fun h h0 => hset h h0 (.inl (by rw [hz]; exact h0)), alive, i.node, same, table, inc, told,
        dead, deadAcq⟩
  · rw [if_neg ha]
    exact ⟨hl, i.zero, fun h h0 => hset h h0 (.inr (by simpa using ha)), alive, i.node, same, table, inc, told,
      dead, deadAcq⟩

theorem quiet_addRef {a t b : RemoteObj.State} {p : Nat} (i : ∀ q o, a.objs q = some o → o.dead = true → o.acquired = false)
    (h : t.addRef p = .ok b) (ho : t.objs = a.objs)
    (ht : ∀ h q, h ≠ 0 → t.table h = some q → a.table h = some q) (hi : ∀ x ∈ t.incoming, x ∈ a.incoming)
    (htold : ∀ q, Told t q → Told a q ∨ ∃ h x, (h, x) ∈ a.incoming ∧ a.table h = some q) : Quiet a b := by
  obtain ⟨o, h1, _, rfl⟩ := RemoteObj.addRef_ok h
  rw [ho] at h1
  refine ⟨?_, ?_, ht, hi, htold⟩
  · intro q o' hq
    simp only [ho] at hq
    by_cases hqp : q = p
    · subst hqp; rw [upd_same] at hq; cases hq; exact ⟨fun _ => ⟨o, h1, rfl, rfl, rfl⟩, i _ o h1⟩
    · rw [upd_ne _ _ hqp] at hq; exact ⟨fun _ => ⟨o', hq, rfl, rfl, rfl⟩, i _ o' hq⟩
  · intro q o' hq _ ha
    simp only [ho]
    by_cases hqp : q = p
    · subst hqp; rw [h1] at hq; cases hq; exact ⟨_, upd_same _ _ _, rfl, ha⟩
    · exact ⟨o', by rw [upd_ne _ _ hqp]; exact hq, rfl, ha⟩

theorem quiet_unref {a t b : RemoteObj.State} {p : Nat} (i : ∀ q o, a.objs q = some o → o.dead = true → o.acquired = false)
    (h : t.unref p = .ok b) (ho : t.objs = a.objs)
    (ht : ∀ h q, h ≠ 0 → t.table h = some q → a.table h = some q) (hi : ∀ x ∈ t.incoming, x ∈ a.incoming)
    (htold : ∀ q, Told t q → Told a q ∨ ∃ h x, (h, x) ∈ a.incoming ∧ a.table h = some q) : Quiet a b := by
  obtain ⟨o, h1, ⟨_, rfl⟩ | ⟨_, rfl⟩⟩ := RemoteObj.unref_ok h
  · refine ⟨?_, ?_, ht, hi, htold⟩
    · intro q o' hq; simp only [ho] at hq; exact ⟨fun _ => ⟨o', hq, rfl, rfl, rfl⟩, i _ o' hq⟩
    · intro q o' hq _ ha; simp only [ho]; exact ⟨o', hq, rfl, ha⟩
  · rw [ho] at h1
    refine ⟨?_, ?_, ht, hi, htold⟩
    · intro q o' hq
      simp only [ho] at hq
      by_cases hqp : q = p
      · subst hqp; rw [upd_same] at hq; cases hq; exact ⟨fun _ => ⟨o, h1, rfl, rfl, rfl⟩, i _ o h1⟩
      · rw [upd_ne _ _ hqp] at hq; exact ⟨fun _ => ⟨o', hq, rfl, rfl, rfl⟩, i _ o' hq⟩
    · intro q o' hq _ ha
      simp only [ho]
      by_cases hqp : q = p
      · subst hqp; rw [h1] at hq; cases hq; exact ⟨_, upd_same _ _ _, rfl, ha⟩
      · exact ⟨o', by rw [upd_ne _ _ hqp]; exact hq, rfl, ha⟩

theorem log_addRef {t b : RemoteObj.State} {p : Nat} (h : t.addRef p = .ok b) : b.log = t.log := by
  obtain ⟨o, _, _, rfl⟩ := RemoteObj.addRef_ok h; rfl

theorem log_unref {t b : RemoteObj.State} {p : Nat} (h : t.unref p = .ok b) : b.log = t.log := by
  obtain ⟨o, _, ⟨_, rfl⟩ | ⟨_, rfl⟩⟩ := RemoteObj.unref_ok h <;> rfl

/-- A step which doesn't change anything about the objects. -/
theorem quiet_id {a b : RemoteObj.State} (i : ∀ q o, a.objs q = some o → o.dead = true → o.acquired = false)
    (ho : b.objs = a.objs) (ht : ∀ h q, h ≠ 0 → b.table h = some q → a.table h = some q)
    (hi : ∀ x ∈ b.incoming, x ∈ a.incoming)
    (htold : ∀ q, Told b q → Told a q ∨ ∃ h x, (h, x) ∈ a.incoming ∧ a.table h = some q) : Quiet a b := by
  refine ⟨?_, ?_, ht, hi, htold⟩
  · intro q o' hq; rw [ho] at hq; exact ⟨fun _ => ⟨o', hq, rfl, rfl, rfl⟩, i _ o' hq⟩
  · intro q o' hq _ ha; rw [ho]; exact ⟨o', hq, rfl, ha⟩

theorem shrink {t : Nat → Option Nat} {k : Nat} : ∀ h q, h ≠ 0 → upd t k none h = some q → t h = some q := by
  intro h q _ hq
  by_cases hk : h = k
  · subst hk; rw [upd_same] at hq; cases hq
  · rwa [upd_ne _ _ hk] at hq

theorem inv_lib {s : State} {l : RemoteObj.Label} {b : RemoteObj.State} (i : Inv s) (he : s.excluded l = false)
    (hs : RemoteObj.step s.lib l = .ok b) : Inv (s.wrote b) := by
  have hl := i.lib.step hs
  have hd := i.deadAcq
  have base : ∀ {es : List Ev}, b.log = s.lib.log ++ es → (∀ e ∈ es, silent e = true) → Quiet s.lib b → Inv (s.wrote b) := by
    intro es h1 h2 h3
    rw [wrote_silent h1 h2]
    exact inv_quiet i hl h3
  cases l with
  | lookup h c id =>
    simp only [RemoteObj.step] at hs
    split at hs
    · refine base (es := []) (by rw [log_addRef hs]; simp) (by simp) (quiet_addRef hd hs rfl (fun _ _ _ h => h) (fun _ h => h) ?_)
      intro q hq; exact .inl hq
    · rename_i htab
      split at hs
      · cases hs
        exact base (es := []) (by simp) (by simp) (quiet_id hd rfl (fun _ _ _ h => h) (fun _ h => h) fun _ h => .inl h)
      · rename_i hc
        split at hs
        · rename_i hid
          have h0 : h = 0 := by simpa [State.excluded, hc] using he
          subst h0
          have key : ∀ es o, b.log = s.lib.log ++ es → (∀ t, es.foldl State.kernel t = t) →
              b.objs = upd s.lib.objs id (some o) → o.handle = 0 → (o.dead = true → o.acquired = false) →
              b.table = upd s.lib.table 0 (some id) → b.incoming = s.lib.incoming → (∀ q, Told b q → Told s.lib q) →
              Inv (s.wrote b) := by
            intro es o e1 e2 e3 e4 e5 e6 e7 e8
            rw [wrote_of e1, e2]
            refine inv_quiet i hl ⟨?_, ?_, ?_, ?_, fun q hq => .inl (e8 q hq)⟩
            · intro q o' hq
              rw [e3] at hq
              by_cases hqp : q = id
              · subst hqp; rw [upd_same] at hq; cases hq; exact ⟨fun hx => absurd e4 hx, e5⟩
              · rw [upd_ne _ _ hqp] at hq; exact ⟨fun _ => ⟨o', hq, rfl, rfl, rfl⟩, hd _ o' hq⟩
            · intro q o' hq _ ha
              have hqp : q ≠ id := by rintro rfl; rw [hid] at hq; cases hq
              exact ⟨o', by rw [e3, upd_ne _ _ hqp]; exact hq, rfl, ha⟩
            · intro k q hk hq
              rw [e6, upd_ne _ _ hk] at hq
              exact hq
            · intro x hx; rw [e7] at hx; exact hx
          cases c with
          | no => exact absurd rfl hc
          | dead =>
            cases hs
            exact key [.new id true] ⟨1, 0, true, false⟩ rfl (fun t => rfl) rfl rfl (fun _ => rfl) rfl rfl (fun _ h => h)
          | alive =>
            cases hs
            exact key [.new id false, .drv id .request 0] ⟨1, 0, false, false⟩ rfl (fun t => rfl) rfl rfl (fun _ => rfl) rfl rfl
              (fun _ h => h)
          | acquired =>
            cases hs
            exact key [.new id false, .drv id .acquire 0, .drv id .request 0] ⟨1, 0, false, true⟩ rfl
              (fun t => by simp [State.kernel]) rfl rfl (fun h => by cases h) rfl rfl (fun _ h => h)
        · cases hs
  | ref p =>
    simp only [RemoteObj.step] at hs
    split at hs
    · exact base (es := []) (by rw [log_addRef hs]; simp) (by simp) (quiet_addRef hd hs rfl (fun _ _ _ h => h) (fun _ h => h) fun _ h => .inl h)
    · cases hs
  | unref p =>
    simp only [RemoteObj.step] at hs
    split at hs
    · exact base (es := []) (by rw [log_unref hs]; simp) (by simp) (quiet_unref hd hs rfl (fun _ _ _ h => h) (fun _ h => h) fun _ h => .inl h)
    · cases hs
  | deadBinder h => cases he
  | deliver h a =>
    simp only [RemoteObj.step] at hs
    split at hs
    · rename_i hm
      split at hs
      · rename_i p hp
        refine base (es := []) (by rw [log_addRef hs]; simp) (by simp)
          (quiet_addRef hd hs rfl (fun _ _ _ h => h) (fun _ h => List.mem_of_mem_erase h) ?_)
        intro q hq
        rcases hq with hq | hq
        · rcases List.mem_cons.1 hq with rfl | hq
          · exact .inr ⟨h, a, hm, hp⟩
          · exact .inl (.inl hq)
        · exact .inl (.inr hq)
      · cases hs
        exact base (es := [.unknown h]) rfl (by simp [silent])
          (quiet_id hd rfl (fun _ _ _ h => h) (fun _ h => List.mem_of_mem_erase h) fun _ h => .inl h)
    · cases hs
  | notify p =>
    simp only [RemoteObj.step] at hs
    split at hs
    · rename_i hm
      cases hs
      refine base (es := [.handled p]) rfl (by simp [silent]) (quiet_id hd rfl (fun _ _ _ h => h) (fun _ h => h) ?_)
      intro q hq
      rcases hq with hq | ⟨x, hq⟩ | hq
      · exact .inl (.inl (List.mem_of_mem_erase hq))
      · rcases List.mem_cons.1 hq with hq | hq
        · cases hq; exact .inl (.inl hm)
        · exact .inl (.inr (.inl ⟨x, hq⟩))
      · exact .inl (.inr (.inr hq))
    · cases hs
  | run p =>
    simp only [RemoteObj.step] at hs
    split at hs
    · rename_i hm
      split at hs
      · cases hs
      · rename_i o ho
        split at hs
        · cases hs
          refine base (es := [.skipped p]) rfl (by simp [silent]) (quiet_id hd rfl (fun _ _ _ h => h) (fun _ h => h) ?_)
          intro q hq
          rcases hq with hq | ⟨x, hq⟩ | hq
          · exact .inl (.inl hq)
          · rcases List.mem_cons.1 hq with hq | hq
            · cases hq; exact .inl (.inr (.inl ⟨_, hm.2⟩))
            · exact .inl (.inr (.inl ⟨x, List.mem_of_mem_erase hq⟩))
          · exact .inl (.inr (.inr hq))
        · cases hs
          refine inv_kill (p := p) (o := o) (es := RemoteObj.relEv p o) i hl ho rfl (fun t => rfl) (.inr ⟨_, upd_same _ _ _, rfl, rfl, rfl, ?_⟩)
            (fun q hq => upd_ne _ _ hq) (fun _ _ h => h) rfl ?_
          · exact i.told p o (.inr (.inl ⟨_, hm.2⟩)) ho
          · intro q hq
            rcases hq with hq | ⟨x, hq⟩ | ⟨x, hq⟩
            · exact .inl (.inl hq)
            · exact .inl (.inr (.inl ⟨x, List.mem_of_mem_erase hq⟩))
            · rcases List.mem_cons.1 hq with hq | hq
              · cases hq; exact .inr rfl
              · exact .inl (.inr (.inr ⟨x, hq⟩))
    · cases hs
  | bury p =>
    simp only [RemoteObj.step] at hs
    split at hs
    · rename_i hm
      split at hs
      · cases hs
      · rename_i o ho
        cases hs
        refine base (es := [.drv p .deadDone o.handle, .signal p]) rfl (by simp [silent]) (quiet_id hd rfl ?_ (fun _ h => h) ?_)
        · intro h q h0 hq
          simp only [RemoteObj.State.add] at hq
          split at hq
          · exact shrink h q h0 hq
          · exact hq
        · intro q hq
          rcases hq with hq | ⟨x, hq⟩ | ⟨x, hq⟩
          · exact .inl (.inl hq)
          · rcases List.mem_cons.1 hq with hq | hq
            · cases hq; exact .inl (.inr (.inr ⟨_, hm⟩))
            · exact .inl (.inr (.inl ⟨x, hq⟩))
          · exact .inl (.inr (.inr ⟨x, List.mem_of_mem_erase hq⟩))
    · cases hs
  | done p =>
    simp only [RemoteObj.step] at hs
    split at hs
    · refine base (es := []) (by rw [log_unref hs]; simp) (by simp) (quiet_unref hd hs rfl (fun _ _ _ h => h) (fun _ h => h) ?_)
      intro q hq
      rcases hq with hq | ⟨x, hq⟩ | hq
      · exact .inl (.inl hq)
      · exact .inl (.inr (.inl ⟨x, List.mem_of_mem_erase hq⟩))
      · exact .inl (.inr (.inr hq))
    · cases hs
  | suicide p =>
    simp only [RemoteObj.step] at hs
    split at hs
    · split at hs
      · cases hs
      · rename_i o ho
        split at hs
        · cases hs
          exact base (es := []) (by simp) (by simp) (quiet_id hd rfl (fun _ _ _ h => h) (fun _ h => h) fun _ h => .inl h)
        · rename_i hdead
          cases hs
          refine inv_kill (p := p) (o := o) (es := .drv p .clear o.handle :: RemoteObj.relEv p o) i hl ho rfl (fun t => rfl)
            (.inr ⟨_, upd_same _ _ _, rfl, rfl, rfl, ?_⟩) (fun q hq => upd_ne _ _ hq) (fun _ _ h => h) rfl ?_
          · intro h0
            have ha := i.alive p o ho h0 (by simpa using hdead)
            have hsame := i.same p o ho h0 ha
            have hpos := (i.acq _ h0).pos ⟨o, ho, rfl, ha⟩
            cases hn : s.node o.handle with
            | none => have := (i.node _ h0).1 hn; omega
            | some n =>
              rw [hn] at hsame
              refine ⟨n, hsame, ?_⟩
              simpa [State.excluded, hsame] using he
          · intro q hq
            rcases hq with hq | hq | ⟨x, hq⟩
            · exact .inl (.inl hq)
            · exact .inl (.inr (.inl hq))
            · rcases List.mem_cons.1 hq with hq | hq
              · cases hq; exact .inr rfl
              · exact .inl (.inr (.inr ⟨x, hq⟩))
    · cases hs
  | vanish p =>
    simp only [RemoteObj.step] at hs
    split at hs
    · split at hs
      · cases hs
      · rename_i o ho
        cases hs
        refine base (es := [.signal p]) rfl (by simp [silent]) (quiet_id hd rfl shrink (fun _ h => h) ?_)
        intro q hq
        rcases hq with hq | hq | ⟨x, hq⟩
        · exact .inl (.inl hq)
        · exact .inl (.inr (.inl hq))
        · exact .inl (.inr (.inr ⟨x, List.mem_of_mem_erase hq⟩))
    · cases hs
  | reanimate p ok =>
    simp only [RemoteObj.step] at hs
    split at hs
    · split at hs
      · cases hs
      · rename_i o ho
        split at hs
        · rename_i hc
          obtain ⟨_, h0, _⟩ := hc
          cases hs
          have h0 : o.handle = 0 := h0
          rw [wrote_of (es := [.reanimated p, .drv p .acquire o.handle, .drv p .request o.handle]) rfl]
          simp only [List.foldl_cons, List.foldl_nil, State.kernel, h0, ne_eq, not_true_eq_false, false_and, if_false]
          refine inv_quiet i (by simpa only [h0] using hl) ⟨?_, ?_, fun _ _ _ h => h, fun _ h => h, fun _ h => .inl h⟩
          · intro q o' hq
            by_cases hqp : q = p
            · subst hqp
              simp only [RemoteObj.State.add, upd_same] at hq
              cases hq
              exact ⟨fun h => absurd rfl h, fun h => by cases h⟩
            · simp only [RemoteObj.State.add, upd_ne _ _ hqp] at hq
              exact ⟨fun _ => ⟨o', hq, rfl, rfl, rfl⟩, hd _ o' hq⟩
          · intro q o' hq hh ha
            have hqp : q ≠ p := by rintro rfl; rw [ho] at hq; cases hq; exact hh h0
            exact ⟨o', by simp only [RemoteObj.State.add, upd_ne _ _ hqp]; exact hq, rfl, ha⟩
        · cases hs
          exact base (es := []) (by simp) (by simp) (quiet_id hd rfl (fun _ _ _ h => h) (fun _ h => h) fun _ h => .inl h)
    · cases hs
  | dispose p =>
    simp only [RemoteObj.step] at hs
    split at hs
    · split at hs
      · cases hs
      · split at hs
        · cases hs
          exact base (es := []) (by simp) (by simp) (quiet_id hd rfl shrink (fun _ h => h) fun _ h => .inl h)
        · cases hs
          exact base (es := []) (by simp) (by simp) (quiet_id hd rfl (fun _ _ _ h => h) (fun _ h => h) fun _ h => .inl h)
    · cases hs
  | settle p =>
    simp only [RemoteObj.step] at hs
    split at hs
    · split at hs
      · cases hs
      · rename_i o ho
        have key : ∀ r d, Quiet s.lib { s.lib with objs := upd s.lib.objs p (some { o with refs := r }), dying := d } := by
          intro r d
          refine ⟨?_, ?_, fun _ _ _ h => h, fun _ h => h, fun _ h => .inl h⟩
          · intro q o' hq
            by_cases hqp : q = p
            · subst hqp; simp only [upd_same] at hq; cases hq; exact ⟨fun _ => ⟨o, ho, rfl, rfl, rfl⟩, hd _ o ho⟩
            · simp only [upd_ne _ _ hqp] at hq; exact ⟨fun _ => ⟨o', hq, rfl, rfl, rfl⟩, hd _ o' hq⟩
          · intro q o' hq _ ha
            by_cases hqp : q = p
            · subst hqp; rw [ho] at hq; cases hq; exact ⟨_, upd_same _ _ _, rfl, ha⟩
            · exact ⟨o', by simp only [upd_ne _ _ hqp]; exact hq, rfl, ha⟩
        split at hs
        · cases hs
        · split at hs
          · cases hs
            exact base (es := []) (by simp) (by simp) (key _ _)
          · cases hs
            exact base (es := []) (by simp) (by simp) (key _ _)
    · cases hs
  | invalidate p =>
    simp only [RemoteObj.step] at hs
    split at hs
    · split at hs
      · cases hs
      · cases hs
        exact base (es := []) (by simp) (by simp) (quiet_id hd rfl shrink (fun _ h => h) fun _ h => .inl h)
    · cases hs
  | free p =>
    simp only [RemoteObj.step] at hs
    split at hs
    · split at hs
      · cases hs
      · rename_i o ho
        cases hs
        refine inv_kill (p := p) (o := o)
          (es := (if o.dead then [] else [Ev.drv p .clear o.handle]) ++ RemoteObj.relEv p o ++ [Ev.freed p]) i hl ho rfl ?_
          (.inl (upd_same _ _ _)) (fun q hq => upd_ne _ _ hq) (fun _ _ h => h) rfl (fun _ h => .inl h)
        intro t
        rw [List.foldl_append, List.foldl_append]
        simp only [List.foldl_cons, List.foldl_nil]
        have : ∀ t : State, t.kernel (.freed p) = t := fun _ => rfl
        rw [this]
        split <;> rfl
    · cases hs

theorem inv_receive {s s' : State} {h n : Nat} (i : Inv s) (hc : Calm s (.receive h n))
    (hs : step s (.receive h n) = .ok s') : Inv s' := by
  simp only [step] at hs
  split at hs
  · rename_i hg
    obtain ⟨h0, hg⟩ := hg
    cases hs
    by_cases hn : s.node h = none
    · obtain ⟨h1, h2⟩ := hc hn
      have hz := (i.node h h0).1 hn
      refine { i with zero := ?_, node := ?_, same := ?_, table := ?_, inc := ?_ }
      · simp only [upd_ne _ _ (Ne.symm h0)]; exact i.zero
      · intro d hd
        by_cases hx : d = h
        · subst hx; simp [upd_same]
        · simp only [upd_ne _ _ hx]; exact i.node d hd
      · intro p o hp hh ha
        have hx : o.handle ≠ h := by
          intro hx
          have := (i.acq h h0).pos ⟨o, hp, hx, ha⟩
          omega
        simp only [upd_ne _ _ hx]
        exact i.same p o hp hh ha
      · intro d p hd ht
        have hx : d ≠ h := by rintro rfl; simp only at ht; rw [h1] at ht; cases ht
        simp only [upd_ne _ _ hx]
        exact i.table d p hd ht
      · intro x hx hd
        simp only [upd_ne _ _ (h2 x hx)]
        exact i.inc x hx hd
    · have hn : s.node h = some n := by
        rcases hg with hg | hg
        · exact absurd hg hn
        · exact hg
      have hu : upd s.node h (some n) = s.node := by
        funext d
        by_cases hx : d = h
        · subst hx; rw [upd_same, hn]
        · rw [upd_ne _ _ hx]
      simp only [hu]
      refine { i with zero := ?_, node := ?_ }
      · simp only [upd_ne _ _ (Ne.symm h0)]; exact i.zero
      · intro d hd
        by_cases hx : d = h
        · subst hx; simp [upd_same, hn]
        · simp only [upd_ne _ _ hx]; exact i.node d hd
  · cases hs

theorem inv_freeBuffer {s s' : State} {h : Nat} (i : Inv s) (hs : step s (.freeBuffer h) = .ok s') : Inv s' := by
  simp only [step] at hs
  split at hs
  · rename_i hg
    cases hs
    have h0 : h ≠ 0 := by rintro rfl; rw [i.zero] at hg; omega
    refine inv_drop h0 i.lib ?_ i.acq i.alive ?_ i.same i.table i.inc i.told i.dead i.deadAcq
    · simp only [upd_ne _ _ (Ne.symm h0)]; exact i.zero
    · intro d hd
      by_cases hx : d = h
      · subst hx
        refine ⟨fun hn => ?_, fun hne => absurd rfl hne⟩
        have := (i.node _ hd).1 hn
        simp only [upd_same]; omega
      · simp only [upd_ne _ _ hx]
        exact ⟨(i.node d hd).1, fun _ => (i.node d hd).2⟩
  · cases hs

/-- Nobody has anything to do with an object which doesn't exist. -/
theorem told_live {a : RemoteObj.State} (h : Reach RemoteObj.step {} a) {p : Nat} (ht : Told a p) : a.objs p ≠ none := by
  have i := RemoteObj.inv_reach h
  have : 0 < a.user p + a.f p + a.t p + a.k p + a.dy p .disposing + a.dy p .disposed := by
    rcases ht with ht | ⟨b, ht⟩ | ⟨b, ht⟩
    · have : 0 < a.f p := RemoteObj.pos_of_mem ht (by simp)
      omega
    · have : 0 < a.t p := RemoteObj.pos_of_mem ht (by simp)
      omega
    · have : 0 < a.k p := RemoteObj.pos_of_mem ht (by simp)
      omega
  intro hn
  have g := i.good p
  unfold RemoteObj.GoodAt at g
  have h1 := g.refs
  have h2 := g.none (by rw [hn]; rfl)
  omega

theorem inv_read {s s' : State} {h id : Nat} {c : RemoteObj.Create} (i : Inv s) (hc : Calm s (.read h c id))
    (hs : step s (.read h c id) = .ok s') : Inv s' := by
  simp only [Calm] at hc
  subst hc
  simp only [step] at hs
  split at hs
  · rename_i hg
    have h0 : h ≠ 0 := by rintro rfl; have := i.zero; omega
    have hnode : s.node h ≠ none := fun hn => by have := (i.node h h0).1 hn; omega
    cases htab : s.lib.table h with
    | some p =>
      have hb : ∀ b, RemoteObj.step s.lib (.lookup h .acquired id) = .ok b → Inv (s.wrote b) := by
        intro b hb
        have hl := i.lib.step hb
        simp only [RemoteObj.step, htab] at hb
        rw [wrote_silent (es := []) (by rw [log_addRef hb]; simp) (by simp)]
        exact inv_quiet i hl (quiet_addRef i.deadAcq hb rfl (fun _ _ _ h => h) (fun _ h => h) fun _ h => .inl h)
      split at hs
      · rename_i b hb'
        cases hs
        rw [htab, if_neg (by simp)]
        exact hb b hb'
      · cases hs
      · cases hs
    | none =>
      split at hs
      · rename_i b hb
        cases hs
        have hl := i.lib.step hb
        rw [if_pos htab]
        simp only [RemoteObj.step, htab, reduceCtorEq, if_false] at hb
        split at hb
        · rename_i hid
          cases hb
          simp only [RemoteObj.create, RemoteObj.State.add] at hl ⊢
          rw [wrote_of (es := [.new id false, .drv id .acquire h, .drv id .request h]) rfl]
          simp only [List.foldl_cons, List.foldl_nil, State.kernel]
          rw [if_pos ⟨h0, hnode⟩]
          have hb : ∀ {q o'}, upd s.lib.objs id (some ⟨1, h, false, true⟩) q = some o' →
              (q ≠ id ∧ s.lib.objs q = some o') ∨ (q = id ∧ o' = ⟨1, h, false, true⟩) := by
            intro q o' hq
            by_cases hqp : q = id
            · subst hqp; rw [upd_same] at hq; cases hq; exact .inr ⟨rfl, rfl⟩
            · rw [upd_ne _ _ hqp] at hq; exact .inl ⟨hqp, hq⟩
          refine ⟨hl, i.zero, ?_, ?_, ?_, ?_, ?_, i.inc, ?_, ?_, ?_⟩
          · intro d hd
            by_cases hx : d = h
            · subst hx
              simp only [upd_same]
              refine (i.acq d hd).more (q := id) (fun ⟨o, ho, _⟩ => by rw [hid] at ho; cases ho) fun q => ⟨?_, ?_⟩
              · rintro ⟨o', h1, h2⟩
                rcases hb h1 with ⟨_, h3⟩ | ⟨h3, _⟩
                · exact .inl ⟨o', h3, h2⟩
                · exact .inr h3
              · rintro (⟨o', h1, h2⟩ | rfl)
                · have hq : q ≠ id := by rintro rfl; rw [hid] at h1; cases h1
                  exact ⟨o', by rw [upd_ne _ _ hq]; exact h1, h2⟩
                · exact ⟨_, upd_same _ _ _, rfl, rfl⟩
            · simp only [upd_ne _ _ hx]
              refine (i.acq d hd).congr fun q => ⟨?_, ?_⟩
              · rintro ⟨o', h1, h2⟩
                rcases hb h1 with ⟨_, h3⟩ | ⟨_, rfl⟩
                · exact ⟨o', h3, h2⟩
                · exact absurd h2.1.symm hx
              · rintro ⟨o', h1, h2⟩
                have hq : q ≠ id := by rintro rfl; rw [hid] at h1; cases h1
                exact ⟨o', by rw [upd_ne _ _ hq]; exact h1, h2⟩
          · intro q o' h1 h2 h3
            rcases hb h1 with ⟨_, h4⟩ | ⟨_, rfl⟩
            · exact i.alive q o' h4 h2 h3
            · rfl
          · intro d hd
            by_cases hx : d = h
            · subst hx; simp only [upd_same]
              exact ⟨fun hn => absurd hn hnode, fun hn => by omega⟩
            · simp only [upd_ne _ _ hx]; exact i.node d hd
          · intro q o' h1 h2 h3
            rcases hb h1 with ⟨hq, h4⟩ | ⟨rfl, rfl⟩
            · simp only [upd_ne _ _ hq]; exact i.same q o' h4 h2 h3
            · simp [upd_same]
          · intro d q hd ht
            by_cases hx : d = h
            · subst hx
              simp only [upd_same] at ht
              cases ht
              exact .inr (upd_same _ _ _)
            · simp only [upd_ne _ _ hx] at ht
              have hq : q ≠ id := by
                rintro rfl
                obtain ⟨o, ho, _⟩ := (RemoteObj.inv_reach i.lib).table d q ht
                rw [hid] at ho; cases ho
              simp only [upd_ne _ _ hq]
              exact i.table d q hd ht
          · intro q o' ht h1 h2
            have hq : q ≠ id := by rintro rfl; exact told_live i.lib ht hid
            rcases hb h1 with ⟨_, h4⟩ | ⟨h4, _⟩
            · simp only [upd_ne _ _ hq]; exact i.told q o' ht h4 h2
            · exact absurd h4 hq
          · intro q o' h1 h2 h3
            rcases hb h1 with ⟨hq, h4⟩ | ⟨_, rfl⟩
            · simp only [upd_ne _ _ hq]; exact i.dead q o' h4 h2 h3
            · cases h3
          · intro q o' h1 h2
            rcases hb h1 with ⟨hq, h4⟩ | ⟨_, rfl⟩
            · exact i.deadAcq q o' h4 h2
            · cases h2
        · cases hb
      · cases hs
      · cases hs
  · cases hs

theorem inv_step {s s' : State} {l : Label} (i : Inv s) (hc : Calm s l) (hs : step s l = .ok s') : Inv s' := by
  cases l with
  | lib l =>
    simp only [step] at hs
    split at hs
    · cases hs
    rename_i he
    split at hs
    · rename_i b hb
      cases hs
      exact inv_lib i (by simpa using he) hb
    · cases hs
    · cases hs
  | receive h n => exact inv_receive i hc hs
  | freeBuffer h => exact inv_freeBuffer i hs
  | read h c id => exact inv_read i hc hs
  | die n =>
    cases hs
    have hm : ∀ {m}, s.gone m = true → upd s.gone n true m = true := by
      intro m hm
      by_cases hx : m = n
      · subst hx; exact upd_same _ _ _
      · rw [upd_ne _ _ hx]; exact hm
    refine { i with inc := ?_, told := ?_, dead := ?_ }
    · intro x hx h0
      rcases i.inc x hx h0 with h | ⟨m, h1, h2⟩
      · exact .inl h
      · exact .inr ⟨m, h1, hm h2⟩
    · intro p o h1 h2 h3
      obtain ⟨m, h4, h5⟩ := i.told p o h1 h2 h3
      exact ⟨m, h4, hm h5⟩
    · intro p o h1 h2 h3
      obtain ⟨m, h4, h5⟩ := i.dead p o h1 h2 h3
      exact ⟨m, h4, hm h5⟩
  | deadBinder h =>
    simp only [step] at hs
    split at hs
    · rename_i hg
      split at hs
      · rename_i b hb
        cases hs
        have hl := i.lib.step hb
        simp only [RemoteObj.step] at hb
        split at hb
        · rename_i a ha
          cases hb
          rw [wrote_silent (es := []) (by simp) (by simp)]
          refine { i with lib := hl, inc := ?_ }
          intro x hx h0
          rcases List.mem_cons.1 hx with rfl | hx
          · rcases hg with hg | hg
            · exact absurd hg h0
            · simp only at h0 ⊢
              cases hn : s.node h with
              | none => exact .inl rfl
              | some n => rw [hn] at hg; simp only [Option.map_some, Option.some.injEq] at hg; exact .inr ⟨n, rfl, hg⟩
          · exact i.inc x hx h0
        · cases hb
      · cases hs
      · cases hs
    · cases hs

theorem inv_reach {s : State} (h : ReachIf step Calm {} s) : Inv s := by
  induction h with
  | init => exact inv_init
  | step l _ hc hs ih => exact inv_step ih hc hs

end Gb.HandleRefs
