import Verif.Lemmas.RemoteObj
import Verif.Spec.RemoteObj
/- What the log of the remote object machine says. -/
set_option autoImplicit false

namespace Gb.RemoteObj

def aliveOf : Option Obj → Nat
  | none => 0
  | some o => (!o.dead).toNat

def acqOf : Option Obj → Nat
  | none => 0
  | some o => o.acquired.toNat

def State.kn (s : State) (q : Nat) : Nat := s.killing.countP fun x => decide (x = ⟨q, true⟩)
def State.ks (s : State) (q : Nat) : Nat := s.killing.countP fun x => decide (x = ⟨q, false⟩)
def State.tq (s : State) (q : Nat) : Nat := s.tasks.countP fun x => decide (x = ⟨q, false⟩)

structure LogGood (lv av ac al kn ks tq acq rel req clr don han skp : Nat) : Prop where
  alive : lv = 1 → al = av + kn + ks
  strong : acq = rel + ac
  death : req = clr + don + av + kn
  notif : han = don + skp + tq + kn
  one : al ≤ 1
  held : ac ≤ av

def LogAt (s : State) (q : Nat) : Prop :=
  LogGood (liveOf (s.objs q)) (aliveOf (s.objs q)) (acqOf (s.objs q)) (alive q s.log).toNat
    (s.kn q) (s.ks q) (s.tq q) (sent q .acquire s.log) (sent q .release s.log)
    (sent q .request s.log) (sent q .clear s.log) (sent q .deadDone s.log)
    (count (.handled q) s.log) (count (.skipped q) s.log)

theorem log_init (q : Nat) : LogAt {} q := by
  refine ⟨?_, ?_, ?_, ?_, ?_, ?_⟩ <;> simp [liveOf, aliveOf, acqOf, sent, count, State.tq, State.kn, alive]

/-- Reduces `LogAt` of the next state to arithmetic. -/
macro "log_simp" "[" l:Lean.Parser.Tactic.simpLemma,* "]" : tactic => `(tactic|
  (simp only [LogAt, State.add, State.kn, State.ks, State.tq, List.countP_cons, List.countP_append,
    List.countP_nil, sent, count, alive, List.foldl_append, List.foldl_cons, List.foldl_nil, relEv,
    decide_eq_true_eq, upd_same, aliveOf, acqOf, liveOf, Task.mk.injEq, Killing.mk.injEq,
    Ev.handled.injEq, Ev.skipped.injEq, if_true, if_false, List.cons_append, List.nil_append,
    true_and, and_true, false_and, and_false, reduceCtorEq, Bool.false_eq_true, Nat.add_zero,
    Nat.sub_zero, Nat.zero_add, Bool.not_true, Bool.not_false, Bool.toNat_true, Bool.toNat_false,
    not_true_eq_false, not_false_eq_true, decide_true, decide_false, and_self, $l,*]))

macro "log_at" h:ident p:ident "[" l:Lean.Parser.Tactic.simpLemma,* "]" : tactic => `(tactic|
  (intro q
   have hv := $h q
   by_cases hq : q = $p
   · subst hq
     revert hv
     log_simp [$l,*]
     try (rintro ⟨a1, a2, a3, a4, a5, a6⟩
          refine ⟨?_, ?_, ?_, ?_, ?_, ?_⟩ <;> (try intro hx) <;> omega)
   · have hq' : ¬ $p = q := fun e => hq e.symm
     revert hv
     log_simp [upd_ne _ _ hq, hq', $l,*]
     try exact id))

theorem log_addRef {s s' : State} {p : Nat} (hs : s.addRef p = .ok s') (h : ∀ q, LogAt s q) :
    ∀ q, LogAt s' q := by
  obtain ⟨o, ho, h0, rfl⟩ := addRef_ok hs
  log_at h p [ho]

theorem log_unref {s s' : State} {p : Nat} (hs : s.unref p = .ok s') (h : ∀ q, LogAt s q) :
    ∀ q, LogAt s' q := by
  obtain ⟨o, ho, ⟨h1, rfl⟩ | ⟨h1, rfl⟩⟩ := unref_ok hs
  · exact h
  · log_at h p [ho]

theorem log_lookup {s s' : State} {a : Nat} {c : Create} {p : Nat} (hi : Inv s) (h : ∀ q, LogAt s q)
    (hs : step s (.lookup a c p) = .ok s') : ∀ q, LogAt s' q := by
  simp only [step] at hs
  split at hs
  · exact log_addRef hs h
  · split at hs
    · cases hs; exact h
    · rename_i hc
      split at hs
      · rename_i hn
        have hk : s.k p = 0 := by
          have hg := hi.good p
          unfold GoodAt at hg
          simp only [hn, refsOf] at hg
          have := hg.refs; omega
        have hk1 : s.kn p = 0 := by
          have : s.kn p ≤ s.k p := List.countP_mono_left (by simp +contextual)
          omega
        have hk2 : s.ks p = 0 := by
          have : s.ks p ≤ s.k p := List.countP_mono_left (by simp +contextual)
          omega
        simp only [State.kn, State.ks] at hk1 hk2
        cases c <;> simp only [create] at hs
        · exact absurd rfl hc
        all_goals
          cases hs
          log_at h p [hn, hk1, hk2]
      · cases hs

theorem log_step {s s' : State} {l : Label} (hi : Inv s) (h : ∀ q, LogAt s q)
    (hs : step s l = .ok s') : ∀ q, LogAt s' q := by
  cases l with
  | lookup a c p => exact log_lookup hi h hs
  | ref p =>
    simp only [step] at hs
    split at hs
    · exact log_addRef hs h
    · cases hs
  | unref p =>
    simp only [step] at hs
    split at hs
    · exact log_unref hs h
    · cases hs
  | deadBinder p =>
    simp only [step] at hs
    split at hs
    · cases hs; exact h
    · cases hs
  | deliver a b =>
    simp only [step] at hs
    split at hs
    · split at hs
      · exact log_addRef hs h
      · cases hs; log_at h a []
    · cases hs
  | notify p =>
    simp only [step] at hs
    split at hs
    · cases hs
      log_at h p []
    · cases hs
  | done p =>
    simp only [step] at hs
    split at hs
    · rename_i hc
      refine log_unref hs ?_
      log_at h p [countP_erase_sub _ hc]
    · cases hs
  | run p =>
    simp only [step] at hs
    split at hs
    case isFalse => cases hs
    case isTrue hc =>
      obtain ⟨hk, hc⟩ := hc
      have hm : 0 < s.tasks.countP (fun x => decide (x = ⟨p, false⟩)) := pos_of_mem hc (by simp)
      split at hs
      · cases hs
      · rename_i o ho
        obtain ⟨rf, hd, de, aq⟩ := o
        cases de <;> cases aq <;> simp only [Bool.false_eq_true, if_true, if_false] at hs <;>
          cases hs <;> log_at h p [countP_erase_sub _ hc, ho]
  | bury p =>
    simp only [step] at hs
    split at hs
    case isFalse => cases hs
    case isTrue hc =>
      have hm : 0 < s.killing.countP (fun x => decide (x = ⟨p, true⟩)) := pos_of_mem hc (by simp)
      split at hs
      · cases hs
      · rename_i o ho
        obtain ⟨rf, hd, de, aq⟩ := o
        cases hs
        log_at h p [countP_erase_sub _ hc, ho]
  | suicide p =>
    simp only [step] at hs
    split at hs
    case isFalse => cases hs
    case isTrue hc =>
      obtain ⟨hk, hc⟩ := hc
      split at hs
      · cases hs
      · rename_i o ho
        obtain ⟨rf, hd, de, aq⟩ := o
        cases de <;> cases aq <;> simp only [Bool.false_eq_true, if_true, if_false] at hs <;>
          cases hs <;> log_at h p [ho]
  | vanish p =>
    simp only [step] at hs
    split at hs
    case isFalse => cases hs
    case isTrue hc =>
      have hm : 0 < s.killing.countP (fun x => decide (x = ⟨p, false⟩)) := pos_of_mem hc (by simp)
      split at hs
      · cases hs
      · rename_i o ho
        obtain ⟨rf, hd, de, aq⟩ := o
        cases hs
        log_at h p [countP_erase_sub _ hc, ho]
  | reanimate p b =>
    simp only [step] at hs
    split at hs
    case isFalse => cases hs
    case isTrue hc =>
      obtain ⟨hk, hc⟩ := hc
      split at hs
      · cases hs
      · rename_i o ho
        obtain ⟨rf, hd, de, aq⟩ := o
        split at hs
        · rename_i hx
          simp only at hx
          obtain ⟨rfl, rfl, rfl⟩ := hx
          cases aq <;> cases hs <;> log_at h p [ho, hk]
        · cases hs; exact h
  | dispose p =>
    simp only [step] at hs
    split at hs
    case isFalse => cases hs
    case isTrue hc =>
      split at hs
      · cases hs
      · rename_i o ho
        obtain ⟨rf, hd, de, aq⟩ := o
        repeat' split at hs
        all_goals first
          | cases hs; exact h
          | cases hs; log_at h p [ho]
          | cases hs
  | settle p =>
    simp only [step] at hs
    split at hs
    case isFalse => cases hs
    case isTrue hc =>
      split at hs
      · cases hs
      · rename_i o ho
        obtain ⟨rf, hd, de, aq⟩ := o
        repeat' split at hs
        all_goals first
          | cases hs; exact h
          | cases hs; log_at h p [ho]
          | cases hs
  | invalidate p =>
    simp only [step] at hs
    split at hs
    case isFalse => cases hs
    case isTrue hc =>
      split at hs
      · cases hs
      · rename_i o ho
        obtain ⟨rf, hd, de, aq⟩ := o
        repeat' split at hs
        all_goals first
          | cases hs; exact h
          | cases hs; log_at h p [ho]
          | cases hs
  | free p =>
    simp only [step] at hs
    split at hs
    case isFalse => cases hs
    case isTrue hc =>
      have hm : 0 < s.dy p .removed := pos_of_mem hc (by simp)
      split at hs
      · cases hs
      · rename_i o ho
        obtain ⟨rf, hd, de, aq⟩ := o
        have hk : s.k p = 0 := by
          have hg := hi.good p
          unfold GoodAt at hg
          simp only [ho, refsOf] at hg
          have := hg.refs
          have := hg.zero (by omega)
          omega
        have hk1 : s.kn p = 0 := by
          have : s.kn p ≤ s.k p := List.countP_mono_left (by simp +contextual)
          omega
        have hk2 : s.ks p = 0 := by
          have : s.ks p ≤ s.k p := List.countP_mono_left (by simp +contextual)
          omega
        simp only [State.kn, State.ks] at hk1 hk2
        cases de <;> cases aq <;> cases hs <;> log_at h p [ho, hk1, hk2]

theorem log_reach {s : State} (h : Reach step {} s) (q : Nat) : LogAt s q := by
  have := h.invariant (P := fun s => Inv s ∧ ∀ q, LogAt s q) ⟨inv_init, log_init⟩
    fun _ _ _ hi hs => ⟨inv_step hi.1 hs, log_step hi.1 hi.2 hs⟩
  exact this.2 q

end Gb.RemoteObj
