import Verif.Lemmas.RemoteObjLog
import Verif.Lemmas.RemoteObjMove
/-
C31: for each life of a remote object the death signal is emitted at most once, the object is dead
from then on (until the service manager object is reanimated), and the strong reference and the
death registration are released exactly once.

The executions are all sequences of steps (Model/RemoteObj.lean) taken by any number of threads.
-/
set_option autoImplicit false

namespace Gb.C31
open Gb.RemoteObj

/-- The death signal is only emitted for an object which is known to be alive. -/
def Once (l : List Ev) : Prop := ∀ a b q, l = a ++ .signal q :: b → alive q a = true

theorem once_append {l es : List Ev} (h : Once l)
    (he : ∀ a b q, es = a ++ .signal q :: b → alive q (l ++ a) = true) : Once (l ++ es) := by
  intro a b q hab
  rcases List.append_eq_append_iff.1 hab with ⟨c, h1, h2⟩ | ⟨c, h1, h2⟩
  · rw [h1]
    exact he c b q h2
  · cases c with
    | nil =>
      simp only [List.append_nil] at h1
      subst h1
      have := he [] b q (by simpa using h2.symm)
      simpa using this
    | cons x c =>
      simp only [List.cons_append, List.cons.injEq] at h2
      obtain ⟨rfl, h2⟩ := h2
      exact h a c q h1

theorem once_quiet {l es : List Ev} (h : Once l) (he : ∀ q, .signal q ∉ es) : Once (l ++ es) :=
  once_append h fun a b q hab => (he q (by rw [hab]; simp)).elim

theorem log_of_addRef {s s' : State} {p : Nat} (h : s.addRef p = .ok s') : s'.log = s.log := by
  obtain ⟨o, ho, h0, rfl⟩ := addRef_ok h; rfl

theorem log_of_unref {s s' : State} {p : Nat} (h : s.unref p = .ok s') : s'.log = s.log := by
  obtain ⟨o, ho, ⟨h1, rfl⟩ | ⟨h1, rfl⟩⟩ := unref_ok h <;> rfl

theorem alive_of_killing {s : State} (hi : Inv s) (hl : ∀ q, LogAt s q) {p : Nat} {b : Bool}
    (hm : ⟨p, b⟩ ∈ s.killing) : alive p s.log = true := by
  have hk : 0 < s.k p := pos_of_mem hm (by simp)
  obtain ⟨o, ho, -⟩ := alive_of_owner hi (q := p) (by omega)
  have hg := hl p
  unfold LogAt at hg
  simp only [ho, liveOf] at hg
  have h1 := hg.alive rfl
  have h2 : 0 < s.kn p + s.ks p := by
    cases b
    · have : 0 < s.ks p := pos_of_mem hm (by simp)
      omega
    · have : 0 < s.kn p := pos_of_mem hm (by simp)
      omega
  cases hal : alive p s.log
  · simp only [hal, Bool.toNat_false] at h1; omega
  · rfl

theorem once_step {s s' : State} {l : Label} (hi : Inv s) (hl : ∀ q, LogAt s q) (h : Once s.log)
    (hs : step s l = .ok s') : Once s'.log := by
  cases l <;> simp only [step] at hs
  case lookup a c p =>
    split at hs
    · rw [log_of_addRef hs]; exact h
    · split at hs
      · cases hs; exact h
      · split at hs
        · cases c <;> simp only [create] at hs <;> cases hs
          · exact h
          all_goals exact once_quiet h (by simp)
        · cases hs
  case bury p =>
    split at hs
    case isFalse => cases hs
    case isTrue hc =>
      split at hs
      · cases hs
      · rename_i o ho
        cases hs
        refine once_append h fun a b q hab => ?_
        have ha := alive_of_killing hi hl hc
        match a, hab with
        | [], hab => simp at hab
        | [x], hab =>
          simp only [List.cons_append, List.nil_append, List.cons.injEq, Ev.signal.injEq] at hab
          obtain ⟨rfl, rfl, -⟩ := hab
          simpa only [alive, List.foldl_append, List.foldl_cons, List.foldl_nil] using ha
        | x :: y :: a, hab => simp at hab
  case vanish p =>
    split at hs
    case isFalse => cases hs
    case isTrue hc =>
      split at hs
      · cases hs
      · rename_i o ho
        cases hs
        refine once_append h fun a b q hab => ?_
        have ha := alive_of_killing hi hl hc
        match a, hab with
        | [], hab =>
          simp only [List.nil_append, List.cons.injEq, Ev.signal.injEq] at hab
          obtain ⟨rfl, -⟩ := hab
          simpa using ha
        | x :: a, hab => simp at hab
  all_goals
    repeat' split at hs
    all_goals first
      | (cases hs; done)
      | (cases hs; exact h)
      | (rw [log_of_addRef hs]; exact h)
      | (rw [log_of_unref hs]; exact h)
      | (cases hs; refine once_quiet h ?_; intro q; simp [relEv]; done)
      | (cases hs; refine once_quiet h ?_; intro q; simp only [relEv]; repeat' split
         all_goals simp)

theorem once_reach {s : State} (h : Reach step {} s) : Once s.log := by
  refine (h.invariant (P := fun s => Inv s ∧ (∀ q, LogAt s q) ∧ Once s.log)
    ⟨inv_init, log_init, ?_⟩ ?_).2.2
  · intro a b q h
    simp at h
  · intro s l s' ⟨hi, hl, ho⟩ hs
    exact ⟨inv_step hi hs, log_step hi hl hs, once_step hi hl ho hs⟩

/-- The signal means that the object was believed to be alive until then. -/
theorem C31_once {s : State} (h : Reach step {} s) {q : Nat} {a b : List Ev}
    (hl : s.log = a ++ .signal q :: b) : alive q a = true := once_reach h a b q hl

/-- The second signal may only be emitted if the object has been reanimated in between (or another
object was created at the same address). -/
theorem C31_twice {s : State} (h : Reach step {} s) {q : Nat} {a m b : List Ev}
    (hl : s.log = a ++ .signal q :: (m ++ .signal q :: b)) :
    .reanimated q ∈ m ∨ ∃ d, .new q d ∈ m := by
  have h1 := C31_once h (q := q) (a := a ++ .signal q :: m) (b := b) (by simp [hl])
  by_cases hx : .reanimated q ∈ m ∨ ∃ d, .new q d ∈ m
  · exact hx
  · exfalso
    have key : ∀ (m : List Ev) (c : Bool), c = false → (¬ (.reanimated q ∈ m ∨ ∃ d, .new q d ∈ m)) →
        m.foldl (fun b e => match e with
          | .new id dead => if id = q then !dead else b
          | .signal id => if id = q then false else b
          | .reanimated id => if id = q then true else b
          | _ => b) c = false := by
      intro m
      induction m with
      | nil => intro c hc _; exact hc
      | cons e m ih =>
        intro c hc hn
        rw [List.foldl_cons]
        refine ih _ ?_ ?_
        · subst hc
          cases e <;> simp only [ite_self]
          · rename_i id d
            split
            · rename_i he
              subst he
              exact (hn (.inr ⟨d, by simp⟩)).elim
            · rfl
          · rename_i id
            split
            · rename_i he
              subst he
              exact (hn (.inl (by simp))).elim
            · rfl
        · intro hc'
          refine hn ?_
          rcases hc' with hc' | ⟨d, hc'⟩
          · exact .inl (List.mem_cons_of_mem _ hc')
          · exact .inr ⟨d, List.mem_cons_of_mem _ hc'⟩
    simp only [alive, List.foldl_append, List.foldl_cons, if_true] at h1
    exact Bool.noConfusion (h1.symm.trans (key m false rfl hx))

/-- gbinder_remote_object_is_dead() is the opposite of what the application has been told, except
while the main thread is just about to tell it. -/
theorem C31_dead {s : State} (h : Reach step {} s) {q : Nat} {o : Obj} (ho : s.objs q = some o)
    (hk : ∀ b, ⟨q, b⟩ ∉ s.killing) : o.dead = !alive q s.log := by
  have hg := log_reach h q
  unfold LogAt at hg
  simp only [ho, liveOf, aliveOf] at hg
  have h1 := hg.alive rfl
  have hn : s.kn q = 0 := List.countP_eq_zero.2 fun x hx => by
    simp only [decide_eq_true_eq]; rintro rfl; exact hk _ hx
  have hn' : s.ks q = 0 := List.countP_eq_zero.2 fun x hx => by
    simp only [decide_eq_true_eq]; rintro rfl; exact hk _ hx
  cases hd : o.dead <;> cases ha : alive q s.log <;> simp_all

/-- Once the application has been told, the object is dead. -/
theorem C31_told {s : State} (h : Reach step {} s) {q : Nat} {o : Obj} (ho : s.objs q = some o)
    (ht : alive q s.log = false) : o.dead = true := by
  have hg := log_reach h q
  unfold LogAt at hg
  simp only [ho, liveOf, aliveOf, ht] at hg
  have h1 := hg.alive rfl
  cases hd : o.dead
  · simp [hd] at h1; omega
  · rfl

/-- The strong reference: there is one BC_RELEASE for each BC_ACQUIRE, the last one may be yet to
come if the object is still there. -/
theorem C31_strong {s : State} (h : Reach step {} s) (q : Nat) :
    sent q .acquire s.log = sent q .release s.log +
      (match s.objs q with | some o => o.acquired.toNat | none => 0) := by
  have hg := (log_reach h q).strong
  rw [hg]
  cases s.objs q <;> rfl

/-- A dead object doesn't have a strong reference. -/
theorem C31_strong_dead {s : State} (h : Reach step {} s) {q : Nat} {o : Obj}
    (ho : s.objs q = some o) (hd : o.dead = true) :
    sent q .acquire s.log = sent q .release s.log := by
  have hg := (log_reach h q)
  unfold LogAt at hg
  simp only [ho, aliveOf, hd, acqOf] at hg
  have h1 := hg.strong
  have h2 := hg.held
  simp only [Bool.not_true, Bool.toNat_false] at h2
  omega

/-- The death registration: each BC_REQUEST_DEATH_NOTIFICATION is followed by either
BC_CLEAR_DEATH_NOTIFICATION or BC_DEAD_BINDER_DONE; the last one is yet to come if the object is
alive or if the main thread is handling the notification. -/
theorem C31_registration {s : State} (h : Reach step {} s) (q : Nat) :
    sent q .request s.log = sent q .clear s.log + sent q .deadDone s.log +
      (match s.objs q with | some o => (!o.dead).toNat | none => 0) +
      s.killing.countP (fun x => decide (x = ⟨q, true⟩)) := by
  have hg := (log_reach h q).death
  rw [hg]
  unfold State.kn
  cases s.objs q <;> rfl

/-- Nothing is left behind by an object which is gone. -/
theorem C31_gone {s : State} (h : Reach step {} s) {q : Nat} (hn : s.objs q = none) :
    sent q .acquire s.log = sent q .release s.log ∧
      sent q .request s.log = sent q .clear s.log + sent q .deadDone s.log := by
  have h1 := C31_strong h q
  have h2 := C31_registration h q
  have hg := (inv_reach h).good q
  unfold GoodAt at hg
  simp only [hn, refsOf] at hg h1 h2
  have h3 := hg.refs
  have h4 : s.killing.countP (fun x => decide (x = ⟨q, true⟩)) ≤ s.k q :=
    List.countP_mono_left (by simp +contextual)
  omega

/-- The notification is always acted upon: after the callback the object is dead. -/
theorem C31_callback {s s' : State} (h : Reach step {} s) {p : Nat} (hs : step s (.run p) = .ok s') :
    ∃ o, s'.objs p = some o ∧ o.dead = true := by
  simp only [step] at hs
  split at hs
  · split at hs
    · cases hs
    · rename_i o ho
      split at hs
      · rename_i hd
        cases hs
        exact ⟨o, ho, hd⟩
      · cases hs
        exact ⟨_, upd_same _ _ _, rfl⟩
  · cases hs

/-- The only one who comes back is the service manager (handle zero), and only if it has responded. -/
theorem C31_back {s s' : State} {l : Label} {p : Nat} {o o' : Obj} (ho : s.objs p = some o) (hd : o.dead = true)
    (hs : step s l = .ok s') (ho' : s'.objs p = some o') (hd' : o'.dead = false) :
    l = .reanimate p true ∧ o.handle = 0 := by
  have hadd : ∀ {t t' : State} {q : Nat}, t.addRef q = .ok t' → t.objs = s.objs → t'.objs p = some o' → False := by
    intro t t' q ha ht hx
    obtain ⟨o1, h1, h2, rfl⟩ := addRef_ok ha
    rw [ht] at h1
    simp only [ht, upd] at hx
    grind
  have hunr : ∀ {t t' : State} {q : Nat}, t.unref q = .ok t' → t.objs = s.objs → t'.objs p = some o' → False := by
    intro t t' q ha ht hx
    obtain ⟨o1, h1, ⟨h2, rfl⟩ | ⟨h2, rfl⟩⟩ := unref_ok ha <;> rw [ht] at h1 <;> simp only [ht, upd] at hx <;> grind
  cases l with
  | reanimate q b =>
    simp only [step] at hs
    repeat' split at hs
    all_goals first
      | cases hs; done
      | (cases hs; simp only [State.add, upd, smHandle] at *; grind)
  | lookup a c q =>
    simp only [step] at hs
    split at hs
    · exact (hadd hs rfl ho').elim
    · split at hs
      · cases hs; rw [ho] at ho'; cases ho'; rw [hd] at hd'; cases hd'
      · split at hs
        · cases hs
          cases c <;> simp only [create, State.add, upd] at ho' <;> grind
        · cases hs
  | ref q =>
    simp only [step] at hs
    split at hs
    · exact (hadd hs rfl ho').elim
    · cases hs
  | unref q =>
    simp only [step] at hs
    split at hs
    · exact (hunr hs rfl ho').elim
    · cases hs
  | done q =>
    simp only [step] at hs
    split at hs
    · exact (hunr hs rfl ho').elim
    · cases hs
  | deliver a b =>
    simp only [step] at hs
    split at hs
    · split at hs
      · exact (hadd hs rfl ho').elim
      · cases hs; simp only [State.add] at ho'; grind
    · cases hs
  | _ =>
    exfalso
    simp only [step] at hs
    repeat' split at hs
    all_goals first
      | cases hs; done
      | (cases hs; (try simp only [State.add, upd] at ho'); grind)

example : ∃ s s', Reach step {} s ∧ step s (.reanimate 7 true) = .ok s' ∧
    s.objs 7 = some ⟨1, 0, true, false⟩ ∧ s'.objs 7 = some ⟨1, 0, false, true⟩ :=
  ⟨_, _, .step (l := .lookup 0 .dead 7) .init rfl, rfl, rfl, rfl⟩

/-- Whatever hasn't been done yet, can be done without anyone else doing anything. After that, an object is there if and only if the
application has references to it; if not, then nothing of it is left in the kernel; and if its death was noticed, the application
has been told. -/
theorem C31_settles {s : State} (h : Reach step {} s) :
    ∃ ls s', (∀ l ∈ ls, Label.settling l) ∧ exec step s ls = .ok s' ∧ ∀ q,
      (owned s q = 0 → s'.objs q = none ∧ sent q .acquire s'.log = sent q .release s'.log ∧
        sent q .request s'.log = sent q .clear s'.log + sent q .deadDone s'.log) ∧
      (0 < owned s q → ∃ o, s'.objs q = some o ∧ o.refs = owned s q ∧
        (Notified s q → o.dead = true ∧ alive q s'.log = false)) := by
  obtain ⟨ls, s', h1, h2, h3, ⟨e1, e2, e3, e4⟩, h4⟩ := settles h
  refine ⟨ls, s', h1, h2, fun q => ?_⟩
  obtain ⟨k1, k2⟩ := h4 q
  have hu : s'.user q = owned s q := by rw [← k1]; simp [owned, e3]
  have hg := (inv_reach h3).good q
  have hr := hg.refs
  have hp := hg.pos
  simp only [State.f, State.t, State.k, State.dy, e1, e2, e3, e4, List.countP_nil, Nat.add_zero] at hr hp
  refine ⟨fun h0 => ?_, fun h0 => ?_⟩
  · have hn : s'.objs q = none := by
      cases ho : s'.objs q with
      | none => rfl
      | some o =>
        have := hp (by simp [ho, liveOf]) trivial
        omega
    exact ⟨hn, C31_gone h3 hn⟩
  · obtain ⟨o, ho, _⟩ := alive_of_owner (inv_reach h3) (q := q) (by omega)
    rw [ho] at hr
    refine ⟨o, ho, by simpa [refsOf, hu] using hr, fun hn => ?_⟩
    have hd : o.dead = true := by
      rcases k2 (.inl hn) with hm | hm
      · rcases hm with hm | hm
        · rw [e1] at hm; cases hm
        · rw [e2] at hm; cases hm
      · exact hm o ho
    have := C31_dead h3 ho (by simp [e3])
    rw [hd] at this
    exact ⟨hd, by simpa using this.symm⟩

/-- The service manager dies, comes back, dies again and the last reference is released. -/
def demo : List Label :=
  [.lookup 0 .alive 7, .ref 7, .deadBinder 0, .deliver 0 7, .notify 7, .run 7, .bury 7, .done 7,
   .reanimate 7 true, .deadBinder 0, .deliver 0 7, .notify 7, .run 7, .bury 7, .done 7,
   .unref 7, .unref 7, .dispose 7, .settle 7, .invalidate 7, .free 7]

example : (exec step {} demo).holds (fun s =>
    s.objs 7 == none && count (.signal 7) s.log == 2 && sent 7 .acquire s.log == 1 &&
    sent 7 .release s.log == 1 && sent 7 .request s.log == 2 && sent 7 .deadDone s.log == 2 &&
    sent 7 .clear s.log == 0) = true := by decide +kernel

/-- The same object commits suicide and gets the notification after that. -/
def demo' : List Label :=
  [.lookup 5 .acquired 7, .ref 7, .deadBinder 5, .deliver 5 7, .notify 7, .suicide 7, .vanish 7,
   .run 7, .done 7, .unref 7]

example : (exec step {} demo').holds (fun s =>
    count (.signal 7) s.log == 1 && sent 7 .acquire s.log == 1 && sent 7 .release s.log == 1 &&
    sent 7 .request s.log == 1 && sent 7 .deadDone s.log == 0 && sent 7 .clear s.log == 1 &&
    s.table 5 == none) = true := by decide +kernel

/-- `C31_settles`: the death of an object which the application has references to is being noticed; another one isn't needed anymore. -/
example : (exec step {} [.lookup 5 .acquired 7, .lookup 6 .acquired 8, .deadBinder 5, .deliver 5 7, .deadBinder 6, .deliver 6 8,
    .notify 8, .unref 8]).holds (fun s =>
    decide (owned s 7 = 1 ∧ owned s 8 = 0) && decide (7 ∈ s.found) && (s.objs 8).isSome && sent 8 .acquire s.log == 1 &&
    sent 8 .release s.log == 0 && alive 7 s.log) = true := by decide +kernel

end Gb.C31
