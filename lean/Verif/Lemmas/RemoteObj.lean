import Verif.Model.RemoteObj
/- Reference counts of the remote object machine. -/
set_option autoImplicit false

namespace Gb.RemoteObj

def refsOf : Option Obj → Nat
  | none => 0
  | some o => o.refs

def liveOf : Option Obj → Nat
  | none => 0
  | some _ => 1

def State.f (s : State) (q : Nat) : Nat := s.found.countP fun x => decide (x = q)
def State.t (s : State) (q : Nat) : Nat := s.tasks.countP fun x => decide (x.obj = q)
def State.k (s : State) (q : Nat) : Nat := s.killing.countP fun x => decide (x.obj = q)
def State.dy (s : State) (q : Nat) (st : Stage) : Nat := s.dying.countP fun x => decide (x = ⟨q, st⟩)

structure Good (rf lv user f t k dg dd df dr : Nat) : Prop where
  refs : rf = user + f + t + k + dg + dd
  fr : df + dr ≤ lv
  live : lv ≤ 1
  zero : 1 ≤ df + dr → rf = 0
  pos : lv = 1 → df + dr = 0 → 1 ≤ rf
  none : lv = 0 → rf = 0

def GoodAt (s : State) (q : Nat) : Prop :=
  Good (refsOf (s.objs q)) (liveOf (s.objs q)) (s.user q) (s.f q) (s.t q) (s.k q)
    (s.dy q .disposing) (s.dy q .disposed) (s.dy q .finalizing) (s.dy q .removed)

structure Inv (s : State) : Prop where
  good : ∀ q, GoodAt s q
  /-- There are no dangling pointers in the table. -/
  table : ∀ h p, s.table h = some p → ∃ o, s.objs p = some o ∧ o.handle = h
  rem : ∀ h p, s.table h = some p → ⟨p, .removed⟩ ∉ s.dying

theorem inv_init : Inv {} := by
  refine ⟨fun q => ?_, ?_, ?_⟩
  · refine ⟨?_, ?_, ?_, ?_, ?_, ?_⟩ <;> simp [refsOf, liveOf, State.f, State.t, State.k, State.dy]
  · intro h p hp; cases hp
  · intro h p hp; cases hp

theorem addRef_ok {s s' : State} {p : Nat} (h : s.addRef p = .ok s') :
    ∃ o, s.objs p = some o ∧ o.refs ≠ 0 ∧
      s' = { s with objs := upd s.objs p (some { o with refs := o.refs + 1 }) } := by
  unfold State.addRef at h
  split at h
  · cases h
  · rename_i o ho
    split at h
    · cases h
    · rename_i h0
      cases h
      exact ⟨o, ho, h0, rfl⟩

theorem unref_ok {s s' : State} {p : Nat} (h : s.unref p = .ok s') :
    ∃ o, s.objs p = some o ∧
      ((o.refs = 1 ∧ s' = { s with dying := ⟨p, .disposing⟩ :: s.dying }) ∨
       (2 ≤ o.refs ∧ s' = { s with objs := upd s.objs p (some { o with refs := o.refs - 1 }) })) := by
  unfold State.unref at h
  split at h
  · cases h
  · rename_i o ho
    split at h
    · cases h
    · split at h
      · rename_i h0 h1
        cases h
        exact ⟨o, ho, .inl ⟨h1, rfl⟩⟩
      · rename_i h0 h1
        cases h
        exact ⟨o, ho, .inr ⟨by omega, rfl⟩⟩

theorem countP_erase_sub {α : Type} [BEq α] [LawfulBEq α] (p : α → Bool) {l : List α} {a : α}
    (h : a ∈ l) : (l.erase a).countP p = l.countP p - (if p a then 1 else 0) := by
  have := countP_erase p h
  omega

/-- Reduces `GoodAt` of the next state to arithmetic. -/
macro "good_simp" "[" l:Lean.Parser.Tactic.simpLemma,* "]" : tactic => `(tactic|
  (simp only [GoodAt, State.add, State.f, State.t, State.k, State.dy, List.countP_cons,
    decide_eq_true_eq, upd_same, refsOf, liveOf, Dying.mk.injEq,
    Task.mk.injEq, Killing.mk.injEq, if_true, if_false, true_and, and_true, false_and, and_false,
    reduceCtorEq, Bool.false_eq_true, Nat.add_zero, Nat.sub_zero, $l,*]))

/-- The cases of the object itself and of any other object. -/
macro "good_at" h:ident p:ident "[" l:Lean.Parser.Tactic.simpLemma,* "]" : tactic => `(tactic|
  (intro q
   have hv := ($h).good q
   by_cases hq : q = $p
   · subst hq
     revert hv
     good_simp [$l,*]
     rintro ⟨a1, a2, a3, a4, a5, a6⟩
     refine ⟨?_, ?_, ?_, ?_, ?_, ?_⟩ <;> (try intro hx) <;> (try intro hy) <;> omega
   · have hq' : ¬ $p = q := fun e => hq e.symm
     revert hv
     good_simp [upd_ne _ _ hq, hq', $l,*]
     exact id))

theorem good_add {s : State} {e : List Ev} {q : Nat} : GoodAt (s.add e) q ↔ GoodAt s q := Iff.rfl


theorem pos_of_mem {α : Type} [DecidableEq α] {l : List α} {a : α} {p : α → Bool} (h : a ∈ l) (hp : p a = true) :
    0 < l.countP p := List.countP_pos_iff.2 ⟨a, h, hp⟩

/-- Who has a reference to an object, the object is there. -/
theorem objs_of_pos {s : State} (h : Inv s) {q : Nat}
    (hp : 0 < s.user q + s.f q + s.t q + s.k q + s.dy q .disposing + s.dy q .disposed +
      s.dy q .finalizing + s.dy q .removed) : ∃ o, s.objs q = some o := by
  have hv := h.good q
  unfold GoodAt at hv
  obtain ⟨a1, a2, a3, a4, a5, a6⟩ := hv
  cases ho : s.objs q with
  | some o => exact ⟨o, rfl⟩
  | none => simp only [ho, refsOf, liveOf] at a1 a2; omega

theorem good_lookup {s s' : State} {h : Nat} {c : Create} {p : Nat} (hi : Inv s)
    (hs : step s (.lookup h c p) = .ok s') : ∀ q, GoodAt s' q := by
  simp only [step] at hs
  split at hs
  · rename_i p ht
    obtain ⟨o, ho, h0, rfl⟩ := addRef_ok hs
    simp only at ho
    good_at hi p [ho]
  · split at hs
    · cases hs; exact hi.good
    · rename_i hc
      split at hs
      · rename_i hn
        cases c <;> simp only [create] at hs
        · exact absurd rfl hc
        all_goals
          cases hs
          good_at hi p [hn]
      · cases hs

theorem good_ref {s s' : State} {p : Nat} (h : Inv s) (hs : step s (.ref p) = .ok s') :
    ∀ q, GoodAt s' q := by
  simp only [step] at hs
  split at hs
  case isFalse => cases hs
  case isTrue hc =>
    obtain ⟨o, ho, h0, rfl⟩ := addRef_ok hs
    simp only at ho
    good_at h p [ho]

theorem good_unref {s s' : State} {p : Nat} (h : Inv s) (hs : step s (.unref p) = .ok s') :
    ∀ q, GoodAt s' q := by
  simp only [step] at hs
  split at hs
  case isFalse => cases hs
  case isTrue hc =>
    obtain ⟨o, ho, ⟨h1, rfl⟩ | ⟨h1, rfl⟩⟩ := unref_ok hs <;> simp only at ho <;> good_at h p [ho]

theorem good_deadBinder {s s' : State} {p : Nat} (h : Inv s) (hs : step s (.deadBinder p) = .ok s') :
    ∀ q, GoodAt s' q := by
  simp only [step] at hs
  split at hs
  · cases hs; exact h.good
  · cases hs

theorem good_deliver {s s' : State} {a : Nat} {b : Nat} (h : Inv s) (hs : step s (.deliver a b) = .ok s') :
    ∀ q, GoodAt s' q := by
  simp only [step] at hs
  split at hs
  case isFalse => cases hs
  case isTrue hc =>
    split at hs
    · rename_i p ht
      obtain ⟨o, ho, h0, rfl⟩ := addRef_ok hs
      simp only at ho
      good_at h p [ho]
    · cases hs; exact h.good

theorem good_notify {s s' : State} {p : Nat} (h : Inv s) (hs : step s (.notify p) = .ok s') :
    ∀ q, GoodAt s' q := by
  simp only [step] at hs
  split at hs
  case isFalse => cases hs
  case isTrue hc =>
    cases hs
    have hm : 0 < s.found.countP (fun x => decide (x = p)) := pos_of_mem hc (by simp)
    good_at h p [countP_erase_sub _ hc]

theorem good_run {s s' : State} {p : Nat} (h : Inv s) (hs : step s (.run p) = .ok s') :
    ∀ q, GoodAt s' q := by
  simp only [step] at hs
  split at hs
  case isFalse => cases hs
  case isTrue hc =>
    obtain ⟨hk, hc⟩ := hc
    have hm : 0 < s.tasks.countP (fun x => decide (x.obj = p)) := pos_of_mem hc (by simp)
    split at hs
    · cases hs
    · rename_i o ho
      split at hs
      all_goals
        cases hs
        good_at h p [countP_erase_sub _ hc, ho]

theorem good_bury {s s' : State} {p : Nat} (h : Inv s) (hs : step s (.bury p) = .ok s') :
    ∀ q, GoodAt s' q := by
  simp only [step] at hs
  split at hs
  case isFalse => cases hs
  case isTrue hc =>
    have hm : 0 < s.killing.countP (fun x => decide (x.obj = p)) := pos_of_mem hc (by simp)
    split at hs
    · cases hs
    · rename_i o ho
      cases hs
      good_at h p [countP_erase_sub _ hc, ho]

theorem good_done {s s' : State} {p : Nat} (h : Inv s) (hs : step s (.done p) = .ok s') :
    ∀ q, GoodAt s' q := by
  simp only [step] at hs
  split at hs
  case isFalse => cases hs
  case isTrue hc =>
    have hm : 0 < s.tasks.countP (fun x => decide (x.obj = p)) := pos_of_mem hc (by simp)
    obtain ⟨o, ho, ⟨h1, rfl⟩ | ⟨h1, rfl⟩⟩ := unref_ok hs <;> simp only at ho <;>
      good_at h p [countP_erase_sub _ hc, ho]

theorem good_suicide {s s' : State} {p : Nat} (h : Inv s) (hs : step s (.suicide p) = .ok s') :
    ∀ q, GoodAt s' q := by
  simp only [step] at hs
  split at hs
  case isFalse => cases hs
  case isTrue hc =>
    obtain ⟨hk, hc⟩ := hc
    split at hs
    · cases hs
    · rename_i o ho
      split at hs
      · cases hs; exact h.good
      · cases hs
        good_at h p [ho]

theorem good_vanish {s s' : State} {p : Nat} (h : Inv s) (hs : step s (.vanish p) = .ok s') :
    ∀ q, GoodAt s' q := by
  simp only [step] at hs
  split at hs
  case isFalse => cases hs
  case isTrue hc =>
    have hm : 0 < s.killing.countP (fun x => decide (x.obj = p)) := pos_of_mem hc (by simp)
    split at hs
    · cases hs
    · rename_i o ho
      cases hs
      good_at h p [countP_erase_sub _ hc, ho]

theorem good_reanimate {s s' : State} {p : Nat} {b : Bool} (h : Inv s) (hs : step s (.reanimate p b) = .ok s') :
    ∀ q, GoodAt s' q := by
  simp only [step] at hs
  split at hs
  case isFalse => cases hs
  case isTrue hc =>
    obtain ⟨hk, hc⟩ := hc
    split at hs
    · cases hs
    · rename_i o ho
      split at hs
      · cases hs
        good_at h p [ho]
      · cases hs; exact h.good

theorem good_dispose {s s' : State} {p : Nat} (h : Inv s) (hs : step s (.dispose p) = .ok s') :
    ∀ q, GoodAt s' q := by
  simp only [step] at hs
  split at hs
  case isFalse => cases hs
  case isTrue hc =>
    have hm : 0 < s.dying.countP (fun x => decide (x = ⟨p, .disposing⟩)) := pos_of_mem hc (by simp)
    split at hs
    · cases hs
    · rename_i o ho
      split at hs
      all_goals
        cases hs
        good_at h p [countP_erase_sub _ hc, ho]

theorem good_settle {s s' : State} {p : Nat} (h : Inv s) (hs : step s (.settle p) = .ok s') :
    ∀ q, GoodAt s' q := by
  simp only [step] at hs
  split at hs
  case isFalse => cases hs
  case isTrue hc =>
    have hm : 0 < s.dying.countP (fun x => decide (x = ⟨p, .disposed⟩)) := pos_of_mem hc (by simp)
    split at hs
    · cases hs
    · rename_i o ho
      split at hs
      · cases hs
      · split at hs
        all_goals
          cases hs
          good_at h p [countP_erase_sub _ hc, ho]

theorem good_invalidate {s s' : State} {p : Nat} (h : Inv s) (hs : step s (.invalidate p) = .ok s') :
    ∀ q, GoodAt s' q := by
  simp only [step] at hs
  split at hs
  case isFalse => cases hs
  case isTrue hc =>
    have hm : 0 < s.dying.countP (fun x => decide (x = ⟨p, .finalizing⟩)) := pos_of_mem hc (by simp)
    split at hs
    · cases hs
    · rename_i o ho
      cases hs
      good_at h p [countP_erase_sub _ hc, ho]

theorem good_free {s s' : State} {p : Nat} (h : Inv s) (hs : step s (.free p) = .ok s') :
    ∀ q, GoodAt s' q := by
  simp only [step] at hs
  split at hs
  case isFalse => cases hs
  case isTrue hc =>
    have hm : 0 < s.dying.countP (fun x => decide (x = ⟨p, .removed⟩)) := pos_of_mem hc (by simp)
    split at hs
    · cases hs
    · rename_i o ho
      cases hs
      good_at h p [countP_erase_sub _ hc, ho]

theorem good_step {s s' : State} {l : Label} (h : Inv s) (hs : step s l = .ok s') :
    ∀ q, GoodAt s' q := by
  cases l with
  | lookup a b c => exact good_lookup h hs
  | ref p => exact good_ref h hs
  | unref p => exact good_unref h hs
  | deadBinder p => exact good_deadBinder h hs
  | deliver p a => exact good_deliver h hs
  | notify p => exact good_notify h hs
  | run p => exact good_run h hs
  | bury p => exact good_bury h hs
  | done p => exact good_done h hs
  | suicide p => exact good_suicide h hs
  | vanish p => exact good_vanish h hs
  | reanimate p b => exact good_reanimate h hs
  | dispose p => exact good_dispose h hs
  | settle p => exact good_settle h hs
  | invalidate p => exact good_invalidate h hs
  | free p => exact good_free h hs

/-- How a step affects the table and the handles. -/
structure Frame (s s' : State) : Prop where
  shrinks : ∀ h p, s'.table h = some p → s.table h = some p
  handle : ∀ h p o, s'.table h = some p → s.objs p = some o →
    ∃ o', s'.objs p = some o' ∧ o'.handle = o.handle
  rem : ∀ h p, s'.table h = some p → ⟨p, .removed⟩ ∈ s'.dying → ⟨p, .removed⟩ ∈ s.dying

/-- There are no dangling pointers in the table. -/
structure TableOk (s : State) : Prop where
  table : ∀ h p, s.table h = some p → ∃ o, s.objs p = some o ∧ o.handle = h
  rem : ∀ h p, s.table h = some p → ⟨p, .removed⟩ ∉ s.dying

theorem Inv.ok {s : State} (h : Inv s) : TableOk s := ⟨h.table, h.rem⟩

theorem Frame.ok {s s' : State} (f : Frame s s') (h : Inv s) : TableOk s' := by
  refine ⟨fun a p hp => ?_, fun a p hp hm => ?_⟩
  · obtain ⟨o, ho, hh⟩ := h.table a p (f.shrinks a p hp)
    obtain ⟨o', ho', hh'⟩ := f.handle a p o hp ho
    exact ⟨o', ho', by rw [hh', hh]⟩
  · exact h.rem a p (f.shrinks a p hp) (f.rem a p hp hm)

macro "frame_tac" : tactic => `(tactic|
  (refine ⟨?_, ?_, ?_⟩ <;> (simp only [State.add, upd]; grind [List.mem_of_mem_erase])))

theorem table_step {s s' : State} {l : Label} (h : Inv s) (hs : step s l = .ok s') : TableOk s' := by
  cases l with
  | lookup a c p =>
    simp only [step] at hs
    split at hs
    · rename_i p ht
      obtain ⟨o, ho, h0, rfl⟩ := addRef_ok hs
      simp only at ho
      exact Frame.ok (by frame_tac) h
    · split at hs
      · cases hs; exact ⟨h.table, h.rem⟩
      · rename_i hc
        split at hs
        · rename_i hn
          have hr : ⟨p, .removed⟩ ∉ s.dying := by
            intro hm
            obtain ⟨o, ho⟩ := objs_of_pos h (q := p) (by
              have : 0 < s.dy p .removed := pos_of_mem hm (by simp)
              omega)
            rw [hn] at ho; cases ho
          have hh : ∀ b, s.table b ≠ some p := by
            intro b hb
            obtain ⟨o, ho, -⟩ := h.table b p hb
            rw [hn] at ho; cases ho
          have h1 := h.table
          have h2 := h.rem
          cases c <;> simp only [create] at hs
          · exact absurd rfl hc
          all_goals
            cases hs
            refine ⟨fun b q hq => ?_, fun b q hq => ?_⟩ <;> simp only [State.add, upd] at hq ⊢
            · split at hq
              · cases hq; subst_vars
                exact ⟨_, if_pos rfl, rfl⟩
              · have hne : q ≠ p := fun e => hh b (e ▸ hq)
                simp only [hne, if_false]
                exact h1 b q hq
            · split at hq
              · cases hq; exact hr
              · exact h2 b q hq
        · cases hs
  | ref p =>
    simp only [step] at hs
    split at hs
    case isFalse => cases hs
    case isTrue hc =>
      obtain ⟨o, ho, h0, rfl⟩ := addRef_ok hs
      simp only at ho
      exact Frame.ok (by frame_tac) h
  | unref p =>
    simp only [step] at hs
    split at hs
    case isFalse => cases hs
    case isTrue hc =>
      obtain ⟨o, ho, ⟨h1, rfl⟩ | ⟨h1, rfl⟩⟩ := unref_ok hs <;> simp only at ho <;>
        exact Frame.ok (by frame_tac) h
  | deadBinder p =>
    simp only [step] at hs
    split at hs
    · cases hs; exact ⟨h.table, h.rem⟩
    · cases hs
  | deliver a b =>
    simp only [step] at hs
    split at hs
    case isFalse => cases hs
    case isTrue hc =>
      split at hs
      · rename_i p ht
        obtain ⟨o, ho, h0, rfl⟩ := addRef_ok hs
        simp only at ho
        exact Frame.ok (by frame_tac) h
      · cases hs; exact ⟨h.table, h.rem⟩
  | notify p =>
    simp only [step] at hs
    split at hs
    · cases hs; exact ⟨h.table, h.rem⟩
    · cases hs
  | run p =>
    simp only [step] at hs
    split at hs
    case isFalse => cases hs
    case isTrue hc =>
      split at hs
      · cases hs
      · rename_i o ho
        split at hs <;> cases hs <;> exact Frame.ok (by frame_tac) h
  | bury p =>
    simp only [step] at hs
    split at hs
    case isFalse => cases hs
    case isTrue hc =>
      split at hs
      · cases hs
      · rename_i o ho
        cases hs
        by_cases hz : o.handle = smHandle <;>
          simp only [ne_eq, hz, not_true_eq_false, not_false_eq_true, if_false, if_true] <;>
          exact Frame.ok (by frame_tac) h
  | done p =>
    simp only [step] at hs
    split at hs
    case isFalse => cases hs
    case isTrue hc =>
      obtain ⟨o, ho, ⟨h1, rfl⟩ | ⟨h1, rfl⟩⟩ := unref_ok hs <;> simp only at ho <;>
        exact Frame.ok (by frame_tac) h
  | suicide p =>
    simp only [step] at hs
    split at hs
    case isFalse => cases hs
    case isTrue hc =>
      split at hs
      · cases hs
      · rename_i o ho
        split at hs <;> cases hs
        · exact h.ok
        · exact Frame.ok (by frame_tac) h
  | vanish p =>
    simp only [step] at hs
    split at hs
    case isFalse => cases hs
    case isTrue hc =>
      split at hs
      · cases hs
      · rename_i o ho
        cases hs
        exact Frame.ok (by frame_tac) h
  | reanimate p b =>
    simp only [step] at hs
    split at hs
    case isFalse => cases hs
    case isTrue hc =>
      split at hs
      · cases hs
      · rename_i o ho
        split at hs <;> cases hs
        · exact Frame.ok (by frame_tac) h
        · exact h.ok
  | dispose p =>
    simp only [step] at hs
    split at hs
    case isFalse => cases hs
    case isTrue hc =>
      split at hs
      · cases hs
      · rename_i o ho
        split at hs <;> cases hs <;> exact Frame.ok (by frame_tac) h
  | settle p =>
    simp only [step] at hs
    split at hs
    case isFalse => cases hs
    case isTrue hc =>
      split at hs
      · cases hs
      · rename_i o ho
        split at hs
        · cases hs
        · split at hs <;> cases hs <;> exact Frame.ok (by frame_tac) h
  | invalidate p =>
    simp only [step] at hs
    split at hs
    case isFalse => cases hs
    case isTrue hc =>
      split at hs
      · cases hs
      · rename_i o ho
        cases hs
        have h1 := h.table
        exact Frame.ok (by frame_tac) h
  | free p =>
    simp only [step] at hs
    split at hs
    case isFalse => cases hs
    case isTrue hc =>
      split at hs
      · cases hs
      · rename_i o ho
        cases hs
        have h1 := h.rem
        exact Frame.ok (by frame_tac) h

theorem inv_step {s s' : State} {l : Label} (h : Inv s) (hs : step s l = .ok s') : Inv s' :=
  ⟨good_step h hs, (table_step h hs).table, (table_step h hs).rem⟩

theorem inv_reach {s : State} (h : Reach step {} s) : Inv s :=
  h.invariant inv_init fun _ _ _ hi hs => inv_step hi hs

/-- Owning a reference keeps the object alive. -/
theorem alive_of_owner {s : State} (h : Inv s) {q : Nat}
    (hp : 0 < s.user q + s.f q + s.t q + s.k q + s.dy q .disposing + s.dy q .disposed) :
    ∃ o, s.objs q = some o ∧ 0 < o.refs := by
  obtain ⟨o, ho⟩ := objs_of_pos h (q := q) (by omega)
  have hv := h.good q
  unfold GoodAt at hv
  simp only [ho, refsOf] at hv
  exact ⟨o, ho, by have := hv.refs; omega⟩

theorem addRef_ub {s : State} {p : Nat} (h : s.addRef p = .ub) :
    s.objs p = none ∨ ∃ o, s.objs p = some o ∧ o.refs = 0 := by
  unfold State.addRef at h
  split at h
  · rename_i ho; exact .inl ho
  · rename_i o ho
    split at h
    · rename_i h0; exact .inr ⟨o, ho, h0⟩
    · cases h

theorem unref_ub {s : State} {p : Nat} (h : s.unref p = .ub) :
    s.objs p = none ∨ ∃ o, s.objs p = some o ∧ o.refs = 0 := by
  unfold State.unref at h
  split at h
  · rename_i ho; exact .inl ho
  · rename_i o ho
    split at h
    · rename_i h0; exact .inr ⟨o, ho, h0⟩
    · split at h <;> cases h

theorem not_bad {s : State} {p : Nat} (ha : ∃ o, s.objs p = some o ∧ 0 < o.refs)
    (hb : s.objs p = none ∨ ∃ o, s.objs p = some o ∧ o.refs = 0) : False := by
  obtain ⟨o, ho, h1⟩ := ha
  rcases hb with hb | ⟨o', hb, h0⟩
  · rw [ho] at hb; cases hb
  · rw [ho] at hb; cases hb; omega

theorem not_bad' {s s' : State} {p : Nat} (ha : ∃ o, s.objs p = some o ∧ 0 < o.refs)
    (hb : s'.objs p = none ∨ ∃ o, s'.objs p = some o ∧ o.refs = 0) (he : s'.objs = s.objs) : False :=
  not_bad ha (by rw [he] at hb; exact hb)

/-- The only thing that may go wrong is a lookup which finds an object being finalized. -/
theorem step_ub {s : State} {l : Label} (h : Inv s) (hs : step s l = .ub) :
    ∃ a p o, s.table a = some p ∧ s.objs p = some o ∧ o.refs = 0 ∧
      ((∃ c id, l = .lookup a c id) ∨ ∃ b, l = .deliver a b) := by
  cases l with
  | lookup a c p =>
    simp only [step] at hs
    split at hs
    · rename_i p' ht
      rcases addRef_ub hs with hb | ⟨o, ho, h0⟩
      · obtain ⟨o, ho, -⟩ := h.table a p' ht
        simp only at hb
        rw [ho] at hb; cases hb
      · exact ⟨a, p', o, ht, ho, h0, .inl ⟨c, p, rfl⟩⟩
    · split at hs
      · cases hs
      · split at hs <;> cases hs
  | ref p =>
    simp only [step] at hs
    split at hs
    · rename_i hc
      exact (not_bad' (alive_of_owner h (by omega)) (addRef_ub hs) rfl).elim
    · cases hs
  | unref p =>
    simp only [step] at hs
    split at hs
    · rename_i hc
      exact (not_bad' (alive_of_owner h (by omega)) (unref_ub hs) rfl).elim
    · cases hs
  | deadBinder p => simp only [step] at hs; split at hs <;> cases hs
  | deliver a b =>
    simp only [step] at hs
    split at hs
    · split at hs
      · rename_i p' ht
        rcases addRef_ub hs with hb | ⟨o, ho, h0⟩
        · obtain ⟨o, ho, -⟩ := h.table a p' ht
          simp only at hb
          rw [ho] at hb; cases hb
        · exact ⟨a, p', o, ht, ho, h0, .inr ⟨b, rfl⟩⟩
      · cases hs
    · cases hs
  | notify p => simp only [step] at hs; split at hs <;> cases hs
  | run p =>
    simp only [step] at hs
    split at hs
    · rename_i hc
      have hm : 0 < s.t p := pos_of_mem hc.2 (by simp)
      split at hs
      · rename_i hn
        exact (not_bad (alive_of_owner h (by omega)) (.inl hn)).elim
      · split at hs <;> cases hs
    · cases hs
  | bury p =>
    simp only [step] at hs
    split at hs
    · rename_i hc
      have hm : 0 < s.k p := pos_of_mem hc (by simp)
      split at hs
      · rename_i hn
        exact (not_bad (alive_of_owner h (by omega)) (.inl hn)).elim
      · cases hs
    · cases hs
  | done p =>
    simp only [step] at hs
    split at hs
    · rename_i hc
      have hm : 0 < s.t p := pos_of_mem hc (by simp)
      exact (not_bad' (alive_of_owner h (by omega)) (unref_ub hs) rfl).elim
    · cases hs
  | suicide p =>
    simp only [step] at hs
    split at hs
    · rename_i hc
      split at hs
      · rename_i hn
        exact (not_bad (alive_of_owner h (by omega)) (.inl hn)).elim
      · split at hs <;> cases hs
    · cases hs
  | vanish p =>
    simp only [step] at hs
    split at hs
    · rename_i hc
      have hm : 0 < s.k p := pos_of_mem hc (by simp)
      split at hs
      · rename_i hn
        exact (not_bad (alive_of_owner h (by omega)) (.inl hn)).elim
      · cases hs
    · cases hs
  | reanimate p b =>
    simp only [step] at hs
    split at hs
    · rename_i hc
      split at hs
      · rename_i hn
        exact (not_bad (alive_of_owner h (by omega)) (.inl hn)).elim
      · split at hs <;> cases hs
    · cases hs
  | dispose p =>
    simp only [step] at hs
    split at hs
    · rename_i hc
      have hm : 0 < s.dy p .disposing := pos_of_mem hc (by simp)
      split at hs
      · rename_i hn
        exact (not_bad (alive_of_owner h (by omega)) (.inl hn)).elim
      · split at hs <;> cases hs
    · cases hs
  | settle p =>
    simp only [step] at hs
    split at hs
    · rename_i hc
      have hm : 0 < s.dy p .disposed := pos_of_mem hc (by simp)
      split at hs
      · rename_i hn
        exact (not_bad (alive_of_owner h (by omega)) (.inl hn)).elim
      · rename_i o hn
        split at hs
        · rename_i h0
          exact (not_bad (alive_of_owner h (by omega)) (.inr ⟨o, hn, h0⟩)).elim
        · split at hs <;> cases hs
    · cases hs
  | invalidate p =>
    simp only [step] at hs
    split at hs
    · rename_i hc
      have hm : 0 < s.dy p .finalizing := pos_of_mem hc (by simp)
      split at hs
      · rename_i hn
        obtain ⟨o, ho⟩ := objs_of_pos h (q := p) (by omega)
        rw [hn] at ho; cases ho
      · cases hs
    · cases hs
  | free p =>
    simp only [step] at hs
    split at hs
    · rename_i hc
      have hm : 0 < s.dy p .removed := pos_of_mem hc (by simp)
      split at hs
      · rename_i hn
        obtain ⟨o, ho⟩ := objs_of_pos h (q := p) (by omega)
        rw [hn] at ho; cases ho
      · cases hs
    · cases hs

end Gb.RemoteObj
