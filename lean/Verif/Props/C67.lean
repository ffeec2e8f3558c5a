import Verif.Lemmas.SmCallsStep
import Verif.Lemmas.SmCallsMove
/-
C67. Asynchronous calls to the service manager.
-/
set_option autoImplicit false

namespace Gb.C67
open SmCalls

/-- No memory is used after it has been freed or given away, nothing is freed twice, no reference is dropped which isn't there, and
everything that the worker thread and the callbacks need is there while they are running. -/
theorem C67_safe {s : State} (h : Reach step {} s) (l : Label) : step s l ≠ .ub := (step_inv (reach_inv h) l).1

/-- Each call lives the way it's supposed to, see `Call.next`. -/
theorem C67_life {s : State} (h : Reach step {} s) (p : Nat) : ∃ c, call p s.log = some c ∧ (c = .new ↔ s.tx.calls ≤ p) ∧
    (c = .gone ↔ p < s.tx.calls ∧ s.data p = none) := by
  have hp := (reach_inv h).calls p
  by_cases hc : s.tx.calls ≤ p
  · exact ⟨.new, hp.new hc, by simp [hc], by simp; omega⟩
  · cases hd : s.data p with
    | none => exact ⟨.gone, hp.gone (by omega) hd, by simp; omega, by simp; omega⟩
    | some d =>
      obtain ⟨t, ht⟩ : ∃ t, s.tx.txs p = some t := by
        cases ht : s.tx.txs p with
        | none => rw [hp.same.2 ht] at hd; cases hd
        | some t => exact ⟨t, rfl⟩
      obtain ⟨r, told, h1, _⟩ := hp.live d t hd ht
      exact ⟨_, h1, by simp; omega, by simp⟩

theorem call_none (p : Nat) (evs : List Ev) : evs.foldl (fun o e => o.bind (Call.next p · e)) (none : Option Call) = none := by
  induction evs with
  | nil => rfl
  | cons e evs ih => simpa using ih

theorem call_split {p : Nat} {a : List Ev} {e : Ev} {b : List Ev} {c : Call} (h : call p (a ++ e :: b) = some c) :
    ∃ c1 c2, call p a = some c1 ∧ c1.next p e = some c2 ∧ b.foldl (fun o e => o.bind (·.next p e)) (some c2) = some c := by
  rw [call_append, List.foldl_cons] at h
  cases h1 : call p a with
  | none => rw [h1] at h; simp only [Option.bind_none] at h; rw [call_none] at h; cases h
  | some c1 =>
    rw [h1] at h
    simp only [Option.bind_some] at h
    cases h2 : c1.next p e with
    | none => rw [h2, call_none] at h; cases h
    | some c2 => exact ⟨c1, c2, rfl, h2, by rw [← h2]; exact h⟩

/-- What's known about the past of a call. -/
def Past (p : Nat) (a : List Ev) : Call → Prop
  | .new => (∀ e ∈ a, e.who ≠ some p)
  | .live w r told c => (∃ sm, Ev.asked p sm w ∈ a) ∧ (∀ x, r = some x → Ev.performed p w x ∈ a) ∧
      (told = false → ∀ x, Ev.told p x ∉ a) ∧ (c = false → Ev.cancelled p ∉ a) ∧ Ev.freed p ∉ a ∧
      (r = none → ∀ w x, Ev.performed p w x ∉ a) ∧ (c = true → Ev.cancelled p ∈ a) ∧ (told = true → ∃ x, Ev.told p x ∈ a)
  | .gone => Ev.freed p ∈ a

theorem past {p : Nat} {a : List Ev} {c : Call} (h : call p a = some c) : Past p a c := by
  revert c
  have key : ∀ r : List Ev, ∀ c, call p r.reverse = some c → Past p r.reverse c := by
    intro r
    induction r with
    | nil => intro c h; simp [call] at h; subst h; simp [Past]
    | cons e r ih =>
      intro c h
      rw [List.reverse_cons] at h ⊢
      obtain ⟨c1, c2, h1, h2, h3⟩ := call_split h
      simp at h3
      subst h3
      have hp := ih c1 h1
      by_cases hw : e.who = some p
      · cases e <;> simp only [Ev.who, reduceCtorEq, Option.some.injEq] at hw <;> subst hw <;> cases c1 <;>
          simp only [Call.next, if_true] at h2 <;> repeat' split at h2
        all_goals first
          | (cases h2; done)
          | (cases h2; simp [Past]; done)
          | cases h2
            simp only [Past, Ev.who] at hp ⊢
            grind
      · have h3 : call p (r.reverse ++ [e]) = call p r.reverse := call_other (by simpa using hw) _
        rw [h3, h1] at h
        cases h
        clear h2 h3 h1 ih
        cases c1 with
        | gone => simp only [Past] at hp ⊢; grind
        | new => simp only [Past] at hp ⊢; grind
        | live w x told c =>
          simp only [Past] at hp ⊢
          have hm : ∀ e', e'.who = some p → (e' ∈ r.reverse ++ [e] ↔ e' ∈ r.reverse) := by
            intro e' he'
            simp only [List.mem_append, List.mem_singleton, or_iff_left_iff_imp]
            rintro rfl
            exact absurd he' hw
          simp only [hm _ (show (Ev.told p _).who = some p from rfl), hm _ (show (Ev.asked p _ _).who = some p from rfl),
            hm _ (show (Ev.performed p _ _).who = some p from rfl), hm _ (show (Ev.cancelled p).who = some p from rfl),
            hm _ (show (Ev.freed p).who = some p from rfl)]
          exact hp
  intro c h
  have := key a.reverse c (by simpa using h)
  simpa using this

/-- The callback gets what the service manager has returned when it was asked for that. It's called once at most, and not after
the call has been cancelled. -/
theorem C67_told {s : State} (h : Reach step {} s) {p : Nat} {r : Result} {a b : List Ev} (hl : s.log = a ++ .told p r :: b) :
    (∃ sm w, Ev.asked p sm w ∈ a ∧ Ev.performed p w r ∈ a) ∧ Ev.cancelled p ∉ a ∧ ∀ x, Ev.told p x ∉ a ∧ Ev.told p x ∉ b := by
  obtain ⟨c, hc, _⟩ := C67_life h p
  rw [hl] at hc
  have key : ∀ {a b x}, call p (a ++ Ev.told p x :: b) = some c → ∃ w, call p a = some (.live w (some x) false false) := by
    intro a b x hc
    obtain ⟨c1, c2, h1, h2, _⟩ := call_split hc
    simp only [Call.next, if_true] at h2
    split at h2
    · split at h2
      · rename_i he; subst he; exact ⟨_, h1⟩
      · cases h2
    · cases h2
  obtain ⟨w, hw⟩ := key hc
  obtain ⟨⟨sm, p1⟩, p2, p3, p4, _⟩ := past hw
  refine ⟨⟨sm, w, p1, p2 _ rfl⟩, p4 rfl, fun x => ⟨p3 rfl x, fun hm => ?_⟩⟩
  obtain ⟨b1, b2, rfl⟩ := List.append_of_mem hm
  obtain ⟨w', hw'⟩ := key (a := a ++ .told p r :: b1) (b := b2) (x := x) (by simpa using hc)
  obtain ⟨_, _, q3, _⟩ := past hw'
  exact q3 rfl r (by simp)

/-- The service manager is asked once at most, by the worker thread, for what the caller has asked for. -/
theorem C67_performed {s : State} (h : Reach step {} s) {p : Nat} {w : What} {r : Result} {a b : List Ev}
    (hl : s.log = a ++ .performed p w r :: b) :
    (∃ sm, Ev.asked p sm w ∈ a) ∧ ∀ v x, Ev.performed p v x ∉ a ∧ Ev.performed p v x ∉ b := by
  obtain ⟨c, hc, _⟩ := C67_life h p
  rw [hl] at hc
  have key : ∀ {a b w x}, call p (a ++ Ev.performed p w x :: b) = some c → ∃ c', call p a = some (.live w none false c') := by
    intro a b w x hc
    obtain ⟨c1, c2, h1, h2, _⟩ := call_split hc
    simp only [Call.next, if_true] at h2
    split at h2
    · split at h2
      · rename_i he; subst he; exact ⟨_, h1⟩
      · cases h2
    · cases h2
  obtain ⟨c', hw⟩ := key hc
  obtain ⟨p1, _, _, _, _, p6, _⟩ := past hw
  refine ⟨p1, fun v x => ⟨p6 rfl v x, fun hm => ?_⟩⟩
  obtain ⟨b1, b2, rfl⟩ := List.append_of_mem hm
  obtain ⟨_, hw'⟩ := key (a := a ++ .performed p w r :: b1) (b := b2) (w := v) (x := x) (by simpa using hc)
  obtain ⟨_, _, _, _, _, q6, _⟩ := past hw'
  exact q6 rfl w r (by simp)

/-- The callback isn't called after gbinder_servicemanager_cancel has been. -/
theorem C67_cancel {s : State} (h : Reach step {} s) {p : Nat} {a b : List Ev} (hl : s.log = a ++ .cancelled p :: b) (r : Result) :
    Ev.told p r ∉ b := by
  intro hm
  obtain ⟨b1, b2, rfl⟩ := List.append_of_mem hm
  exact (C67_told h (a := a ++ .cancelled p :: b1) (b := b2) (by simpa using hl)).2.1 (by simp)

/-- Nothing happens to a call after its data has been freed. -/
theorem C67_last {s : State} (h : Reach step {} s) {p : Nat} {a b : List Ev} (hl : s.log = a ++ .freed p :: b) :
    ∀ e ∈ b, e.who ≠ some p := by
  obtain ⟨c, hc, _⟩ := C67_life h p
  rw [hl] at hc
  intro e hm hw
  obtain ⟨b1, b2, rfl⟩ := List.append_of_mem hm
  obtain ⟨c1, c2, h1, h2, _⟩ := call_split (a := a ++ .freed p :: b1) (e := e) (b := b2) (by simpa using hc)
  have hp := past h1
  cases c1 with
  | new => exact hp (.freed p) (by simp) rfl
  | live => exact hp.2.2.2.2.1 (by simp)
  | gone =>
    cases e <;> simp only [Ev.who, reduceCtorEq, Option.some.injEq] at hw <;> subst hw <;> simp [Call.next] at h2


/-- Unless gbinder_ipc_exit gets in the way, the callback is called before the data is freed, if the call isn't cancelled. -/
theorem C67_completed {s : State} (h : ReachIf step (fun _ l => ∀ p, l ≠ .flush p) {} s) {p : Nat} (hf : Ev.freed p ∈ s.log) :
    (∃ r, Ev.told p r ∈ s.log) ∨ Ev.cancelled p ∈ s.log := by
  have key : (p ∈ s.tx.finishing ∨ Ev.freed p ∈ s.log) → (∃ r, Ev.told p r ∈ s.log) ∨ Ev.cancelled p ∈ s.log := by
    clear hf
    induction h with
    | init => simp
    | @step s s' l hr hok hs ih =>
      have hi := reach_inv hr.reach
      cases l with
      | ask self func w =>
        simp only [step] at hs
        split at hs
        · cases hs; simpa [State.see] using ih
        · split at hs
          · split at hs
            · cases hs
            · cases hs
            · rename_i tx ha
              cases hs
              obtain ⟨_, _, _, _, hfin⟩ := Async.submit_facts ha
              simpa [State.see, State.take, hfin] using ih
          · cases hs; simpa [State.see] using ih
      | exec q =>
        simp only [step] at hs
        split at hs
        · cases hs
        · cases hs
        · rename_i tx ha
          split at hs
          · cases hs
          · split at hs
            · cases hs
              obtain ⟨_, _, _, _, _, hfin⟩ := Async.exec_facts hi.facts ha
              simpa [hfin] using ih
            · cases hs
      | executed q r =>
        simp only [step] at hs
        split at hs
        · cases hs
        · cases hs
        · rename_i tx ha
          split at hs
          · cases hs
          · split at hs
            · split at hs
              · cases hs
              · cases hs
                obtain ⟨_, _, _, _, _, hfin⟩ := Async.executed_facts hi.facts ha
                simpa [State.see, State.take, hfin] using ih
            · cases hs
      | done q keep =>
        simp only [step] at hs
        split at hs
        · cases hs
        · cases hs
        · rename_i tx ha
          obtain ⟨_, _, _, _, _, hfin⟩ := Async.done_facts hi.facts ha
          split at hs
          · cases hs
          · rename_i t ht
            split at hs
            · rename_i hcan
              cases hs
              rintro (hq | hq)
              · simp only [hfin, List.mem_cons] at hq
                rcases hq with rfl | hq
                · obtain ⟨d, hd⟩ := hi.data ht
                  obtain ⟨r, told, hc, _⟩ := (hi.calls p).live d t hd ht
                  exact .inr ((past hc).2.2.2.2.2.2.1 hcan)
                · exact ih (.inl hq)
              · exact ih (.inr hq)
            · split at hs
              · cases hs
              · rename_i d hd
                split at hs
                · have key : s'.tx.finishing = q :: s.tx.finishing ∧ Ev.told q d.res ∈ s'.log ∧ (∀ e ∈ s.log, e ∈ s'.log) ∧
                      (Ev.freed p ∈ s'.log → Ev.freed p ∈ s.log) := by
                    split at hs
                    · cases hs; simp [State.see, hfin]; grind
                    · split at hs
                      · rename_i hn
                        cases keep
                        · simp only [Bool.false_eq_true, if_false, State.release] at hs
                          rw [if_pos hn] at hs
                          cases hs; simp [State.see, hfin]; grind
                        · simp only [if_true] at hs
                          cases hs; simp [State.see, hfin]; grind
                      · cases hs
                  obtain ⟨k1, k2, k3, k4⟩ := key
                  rw [k1]
                  intro hq
                  by_cases hpq : p = q
                  · subst hpq; exact .inl ⟨_, k2⟩
                  · have : p ∈ s.tx.finishing ∨ Ev.freed p ∈ s.log := by
                      rcases hq with hq | hq
                      · exact .inl (by simpa [hpq] using hq)
                      · exact .inr (k4 hq)
                    exact (ih this).imp (fun ⟨r, h⟩ => ⟨r, k3 _ h⟩) (k3 _)
                · cases hs
      | free q =>
        simp only [step] at hs
        split at hs
        · cases hs
        · cases hs
        · rename_i tx ha
          obtain ⟨_, hq, _, _, _, _, hfin⟩ := Async.free_facts hi.facts ha
          split at hs
          · cases hs
          · rename_i d hd
            have key : s'.tx = tx ∧ (∀ e ∈ s.log, e ∈ s'.log) ∧ (Ev.freed p ∈ s'.log → p = q ∨ Ev.freed p ∈ s.log) := by
              cases h1 : s.release d.res.names with
              | no => rw [h1] at hs; cases hs
              | ub => rw [h1] at hs; cases hs
              | ok s1 =>
                rw [h1] at hs
                simp only [Out.andThen] at hs
                cases h2 : s1.drop d.holds with
                | no => rw [h2] at hs; cases hs
                | ub => rw [h2] at hs; cases hs
                | ok s2 =>
                  rw [h2] at hs
                  cases hs
                  simp only [State.drop] at h2
                  split at h2
                  · cases h2
                    simp only [State.release] at h1
                    split at h1
                    · cases h1; simp [State.see]; grind
                    · split at h1
                      · cases h1; simp [State.see]; grind
                      · cases h1
                  · cases h2
            obtain ⟨k1, k2, k3⟩ := key
            intro hx
            have : p ∈ s.tx.finishing ∨ Ev.freed p ∈ s.log := by
              rcases hx with hx | hx
              · rw [k1] at hx; exact .inl (hfin p hx)
              · rcases k3 hx with rfl | hx
                · exact .inl hq
                · exact .inr hx
            exact (ih this).imp (fun ⟨r, h⟩ => ⟨r, k2 _ h⟩) (k2 _)
      | cancel id =>
        simp only [step] at hs
        split at hs
        · cases hs
        · cases hs
        · rename_i tx ha
          obtain ⟨_, hfin, _⟩ := Async.cancel_facts hi.facts ha
          split at hs
          · cases hs
            simp only [State.see, hfin]
            grind
          · cases hs; simpa [hfin] using ih
      | check q =>
        simp only [step] at hs
        split at hs
        · cases hs
        · cases hs
        · rename_i tx ha
          obtain ⟨_, _, _, hfin, _⟩ := Async.check_facts hi.facts ha
          cases hs; simpa [hfin] using ih
      | post q =>
        simp only [step] at hs
        split at hs
        · cases hs
        · cases hs
        · rename_i tx ha
          obtain ⟨_, _, hfin, _⟩ := Async.post_facts hi.facts ha
          cases hs; simpa [hfin] using ih
      | flush q => exact absurd rfl (hok q)
  exact key (.inr hf)

/-! ### Lists of names -/

theorem array_none (n : Nat) (evs : List Ev) : evs.foldl (fun o e => o.bind (Arr.next n · e)) (none : Option Arr) = none := by
  induction evs with
  | nil => rfl
  | cons e evs ih => simpa using ih

/-- It's been made by this call and not by any other. -/
def Maker (n : Nat) (l : List Ev) (p : Nat) (w : What) (r : Result) : Prop :=
  Ev.performed p w r ∈ l ∧ r.names = some n ∧
    ∀ q v x, Ev.performed q v x ∈ l → x.names = some n → q = p ∧ v = w ∧ x = r

theorem Maker.other {n : Nat} {l : List Ev} {p : Nat} {w : What} {r : Result} (h : Maker n l p w r) {e : Ev}
    (he : ∀ q v x, e = .performed q v x → x.names ≠ some n) : Maker n (l ++ [e]) p w r := by
  refine ⟨List.mem_append_left _ h.1, h.2.1, ?_⟩
  intro q v x hm hx
  rcases List.mem_append.1 hm with hm | hm
  · exact h.2.2 q v x hm hx
  · exact absurd hx (he q v x (List.mem_singleton.1 hm).symm)

/-- What's known about the past of a list. -/
def PastOf (n : Nat) (l : List Ev) : Arr → Prop
  | .absent => ∀ e ∈ l, e.lists ≠ some n
  | .ours p shown => (∃ w r, Maker n l p w r) ∧ Ev.kept n ∉ l ∧ Ev.released n ∉ l ∧
      (shown = true → ∃ p r, Ev.told p r ∈ l ∧ r.names = some n)
  | .theirs => (∃ p w r, Maker n l p w r) ∧ (∃ p r, Ev.told p r ∈ l ∧ r.names = some n) ∧ l.count (Ev.kept n) = 1 ∧ Ev.released n ∉ l
  | .freed => (∃ p w r, Maker n l p w r) ∧ l.count (Ev.released n) = 1 ∧ Ev.kept n ∉ l

theorem array_snoc {n : Nat} {a : List Ev} {e : Ev} {c : Arr} (h : array n (a ++ [e]) = some c) :
    ∃ c1, array n a = some c1 ∧ c1.next n e = some c := by
  rw [array_append, List.foldl_cons, List.foldl_nil] at h
  exact Option.bind_eq_some_iff.1 h

theorem asked_once {p : Nat} {log : List Ev} {l : Call} (h : call p log = some l) {sm sm' : Nat} {w w' : What}
    (h1 : Ev.asked p sm' w' ∈ log) (h2 : Ev.asked p sm w ∈ log) : w' = w := by
  have key : ∀ {a b sm w}, call p (a ++ Ev.asked p sm w :: b) = some l → call p a = some .new := by
    intro a b sm w hc
    obtain ⟨c1, c2, k1, k2, _⟩ := call_split hc
    simp only [Call.next, if_true] at k2
    split at k2
    · rename_i e; first | rw [k1, e] | exact k1
    · cases k2
  obtain ⟨a, b, rfl⟩ := List.append_of_mem h1
  rcases List.mem_append.1 h2 with h3 | h3
  · exact absurd rfl (past (key h) _ h3)
  · rcases List.mem_cons.1 h3 with h3 | h3
    · cases h3; rfl
    · obtain ⟨b1, b2, rfl⟩ := List.append_of_mem h3
      have := key (a := a ++ Ev.asked p sm' w' :: b1) (b := b2) (sm := sm) (w := w) (by simpa using h)
      exact absurd rfl (past this (Ev.asked p sm' w') (by simp))

/-- What can be returned by the method of the class. -/
def Suits : What → Reply → Prop
  | .list, .list _ | .get _, .get _ _ | .add _ _, .add _ => True
  | _, _ => False

/-- Nothing else is needed for a call to get finished, whatever has happened before: the threads only have to go on, and the service manager has to
return something. Then the callback is called, unless the call has been cancelled by then (or gbinder_ipc_exit has been called), and nothing
is left of the call. -/
theorem C67_progress {s : State} (h : ReachIf step (fun _ l => ∀ p, l ≠ .flush p) {} s) {p sm : Nat} {w : What}
    (hc : Ev.asked p sm w ∈ s.log) {r : Reply} (hr : Suits w r) (keep : Bool) :
    ∃ ls s', exec step s ls = .ok s' ∧ (∀ l ∈ ls, l ∈ [.check p, .exec p, .executed p r, .post p, .done p keep, .free p]) ∧
      Ev.freed p ∈ s'.log ∧ ((∃ r, Ev.told p r ∈ s'.log) ∨ Ev.cancelled p ∈ s.log) := by
  suffices key : ∀ (n : Nat) (s : State), ReachIf step (fun _ l => ∀ p, l ≠ .flush p) {} s → Ev.asked p sm w ∈ s.log →
      Async.left s.tx p = n → ∃ ls s', exec step s ls = .ok s' ∧ (∀ l ∈ ls, l ∈ own p r keep) ∧
        ReachIf step (fun _ l => ∀ p, l ≠ .flush p) {} s' ∧ Ev.freed p ∈ s'.log ∧ (Ev.cancelled p ∈ s'.log → Ev.cancelled p ∈ s.log) by
    obtain ⟨ls, s', h1, h2, h3, h4, h5⟩ := key _ s h hc rfl
    refine ⟨ls, s', h1, h2, h4, ?_⟩
    rcases C67_completed h3 h4 with h6 | h6
    · exact .inl h6
    · exact .inr (h5 h6)
  intro n
  induction n using Nat.strongRecOn with
  | _ n ih =>
    intro s h hc hn
    have hi := reach_inv h.reach
    have hlt : p < s.tx.calls := by
      apply Nat.lt_of_not_le
      intro hle
      exact past ((hi.calls p).new hle) _ hc rfl
    cases hd0 : s.data p with
    | none => exact ⟨[], s, rfl, by simp, h, past ((hi.calls p).gone hlt hd0), id⟩
    | some d =>
      obtain ⟨t, ht⟩ : ∃ t, s.tx.txs p = some t := by
        cases ht : s.tx.txs p with
        | none => rw [(hi.calls p).same.2 ht] at hd0; cases hd0
        | some t => exact ⟨t, rfl⟩
      obtain ⟨res, told, hlife, -⟩ := (hi.calls p).live d t hd0 ht
      obtain ⟨l, tx, hl, ha, hm⟩ := hi.facts.move ht
      have hw : d.what = w := by
        obtain ⟨sm', h'⟩ := (past hlife).1
        exact asked_once hlife h' hc
      have hp : ∀ n, result n d.what r ≠ none := by
        intro n
        rw [hw]
        cases w <;> cases r <;> simp [Suits] at hr <;> simp [result]
      obtain ⟨l', s1, h1, h2, h3, h4⟩ := lift (C67_safe h.reach) (keep := keep) hd0 hp hl ha
      have hok : ∀ p, l' ≠ .flush p := by
        intro p' e
        subst e
        simp [own] at h1
      obtain ⟨ls, s', k1, k2, k3, k4, k5⟩ := ih (Async.left s1.tx p) (by rw [h3, ← hn]; exact hm) s1 (h.step l' hok h2) (h4.1 _ _ _ hc) rfl
      refine ⟨l' :: ls, s', by simp [exec, h2, k1], ?_, k3, k4, fun e => h4.2 _ (k5 e)⟩
      intro y hy
      rcases List.mem_cons.1 hy with rfl | hy
      · exact h1
      · exact k2 y hy

/-- Each list of names is freed by the library exactly once unless the callback has kept it, in which case the library doesn't free
it. A list isn't left behind when the call it has been made for is over. -/
theorem C67_lists {s : State} (h : Reach step {} s) (n : Nat) : ∃ a, array n s.log = some a ∧ ∀ p shown, a = .ours p shown → s.data p ≠ none := by
  have hi := reach_inv h
  cases hn : s.arrays n with
  | true =>
    obtain ⟨_, p, d, hd, hr⟩ := hi.arrs.ours n hn
    refine ⟨_, (hi.arrs.own p d n hd hr).2.2, ?_⟩
    intro q b he
    cases he
    rw [hd]; simp
  | false => rcases hi.arrs.done n hn with h | h | h <;> exact ⟨_, h, by simp⟩

theorem not_snoc {l : List Ev} {x e : Ev} (h : x ∉ l) (he : e ≠ x) : x ∉ l ++ [e] := by
  simp [h, he.symm]

theorem pastOf {n : Nat} {a : List Ev} {c : Arr} (h : array n a = some c) : PastOf n a c := by
  revert c
  have key : ∀ r : List Ev, ∀ c, array n r.reverse = some c → PastOf n r.reverse c := by
    intro r
    induction r with
    | nil => intro c h; simp [array] at h; subst h; simp [PastOf]
    | cons e r ih =>
      intro c h
      rw [List.reverse_cons] at h ⊢
      obtain ⟨c1, h1, h2⟩ := array_snoc h
      have hp := ih c1 h1
      by_cases hw : e.lists = some n
      · cases e <;> simp only [Ev.lists, reduceCtorEq, Option.some.injEq] at hw <;>
          simp only [Arr.next, hw, if_true] at h2 <;> repeat' split at h2
        all_goals first
          | (cases h2; done)
          | cases h2
        · rename_i p w x _
          refine ⟨⟨w, x, ?_, hw, ?_⟩, ?_, ?_, by simp⟩
          · simp
          · intro q v x hm hx
            rcases List.mem_append.1 hm with hm | hm
            · exact absurd hx (hp _ hm)
            · simpa using hm
          · intro hm
            rcases List.mem_append.1 hm with hm | hm
            · exact hp _ hm rfl
            · simp at hm
          · intro hm
            rcases List.mem_append.1 hm with hm | hm
            · exact hp _ hm rfl
            · simp at hm
        · rename_i p x _ _ _
          obtain ⟨⟨w', r', hm⟩, h1, h2, _⟩ := hp
          refine ⟨⟨w', r', hm.other (by simp)⟩, by simpa using h1, by simpa using h2, fun _ => ⟨p, x, by simp, hw⟩⟩
        · obtain ⟨⟨w', r', hm⟩, h1, h2, h3⟩ := hp
          refine ⟨⟨_, w', r', hm.other (by simp)⟩, ?_, by simpa using h1⟩
          rw [List.count_append, List.count_eq_zero.2 h2, hw]; simp
        · obtain ⟨⟨w', r', hm⟩, h1, h2, h3⟩ := hp
          obtain ⟨p', r'', h4, h5⟩ := h3 rfl
          refine ⟨⟨_, w', r', hm.other (by simp)⟩, ⟨p', r'', List.mem_append_left _ h4, h5⟩, ?_, by simpa using h2⟩
          rw [List.count_append, List.count_eq_zero.2 h1, hw]; simp
      · have h3 : array n (r.reverse ++ [e]) = array n r.reverse := array_other (by simpa using hw) _
        rw [h3, h1] at h
        cases h
        clear h2 h3 h1 ih
        have ho : ∀ q v x, e = .performed q v x → x.names ≠ some n := by
          rintro q v x rfl hx
          exact hw hx
        have hk : e ≠ .kept n := by rintro rfl; exact hw rfl
        have hr : e ≠ .released n := by rintro rfl; exact hw rfl
        cases c with
        | absent =>
          intro e' hm
          rcases List.mem_append.1 hm with hm | hm
          · exact hp e' hm
          · rw [List.mem_singleton.1 hm]; exact hw
        | ours p b =>
          obtain ⟨⟨w', r', hm⟩, h1, h2, h3⟩ := hp
          refine ⟨⟨w', r', hm.other ho⟩, not_snoc h1 hk, not_snoc h2 hr, ?_⟩
          intro hb
          obtain ⟨p', r'', h4, h5⟩ := h3 hb
          exact ⟨p', r'', List.mem_append_left _ h4, h5⟩
        | theirs =>
          obtain ⟨⟨_, w', r', hm⟩, ⟨p', r'', h4, h5⟩, h6, h7⟩ := hp
          refine ⟨⟨_, w', r', hm.other ho⟩, ⟨p', r'', List.mem_append_left _ h4, h5⟩, ?_, not_snoc h7 hr⟩
          rw [List.count_append, h6, List.count_eq_zero.2 (by simpa using hk.symm)]
        | freed =>
          obtain ⟨⟨_, w', r', hm⟩, h6, h7⟩ := hp
          refine ⟨⟨_, w', r', hm.other ho⟩, ?_, not_snoc h7 hk⟩
          rw [List.count_append, h6, List.count_eq_zero.2 (by simpa using hr.symm)]
  intro c h
  have := key a.reverse c (by simpa using h)
  simpa using this

/-- When a call is over, the list of names which has been received for it, if any, either belongs to the callback, which has seen
it and has chosen to keep it, or has been freed. It's not both, and it has happened once. -/
theorem C67_names {s : State} (h : Reach step {} s) {p n : Nat} {w : What} {r : Result} (hp : Ev.performed p w r ∈ s.log)
    (hn : r.names = some n) (hf : Ev.freed p ∈ s.log) :
    (s.log.count (.kept n) = 1 ∧ Ev.released n ∉ s.log ∧ Ev.told p r ∈ s.log) ∨
      (s.log.count (.released n) = 1 ∧ Ev.kept n ∉ s.log) := by
  obtain ⟨a, ha, ho⟩ := C67_lists h n
  have hpast := pastOf ha
  cases a with
  | absent => exact absurd hn (hpast _ hp)
  | ours q b =>
    obtain ⟨⟨_, _, hm⟩, _⟩ := hpast
    obtain ⟨rfl, _⟩ := hm.2.2 p w r hp hn
    obtain ⟨c, hc, _, hg⟩ := C67_life h p
    have hcp := past hc
    cases c with
    | new => exact absurd rfl (hcp _ hf)
    | live => exact absurd hf hcp.2.2.2.2.1
    | gone => exact absurd (hg.1 rfl).2 (ho p b rfl)
  | theirs =>
    obtain ⟨⟨_, _, _, hm⟩, ⟨q, x, ht, hx⟩, h1, h2⟩ := hpast
    refine .inl ⟨h1, h2, ?_⟩
    obtain ⟨b1, b2, hl⟩ := List.append_of_mem ht
    obtain ⟨⟨sm, v, _, hq⟩, _⟩ := C67_told h hl
    have hq : Ev.performed q v x ∈ s.log := by rw [hl]; exact List.mem_append_left _ hq
    obtain ⟨rfl, rfl, rfl⟩ := hm.2.2 p w r hp hn
    obtain ⟨rfl, rfl, rfl⟩ := hm.2.2 q v x hq hx
    exact ht
  | freed => exact .inr hpast.2

/-- A list of names is freed at most once, and it's not freed after the callback has kept it. -/
theorem C67_released {s : State} (h : Reach step {} s) (n : Nat) : s.log.count (.released n) + s.log.count (.kept n) ≤ 1 := by
  obtain ⟨a, ha, _⟩ := C67_lists h n
  have := pastOf ha
  cases a <;> simp only [PastOf] at this
  · have h1 := List.count_eq_zero.2 fun hm => this (.released n) hm rfl
    have h2 := List.count_eq_zero.2 fun hm => this (.kept n) hm rfl
    omega
  · rw [List.count_eq_zero.2 this.2.1, List.count_eq_zero.2 this.2.2.1]; omega
  · rw [this.2.2.1, List.count_eq_zero.2 this.2.2.2]; omega
  · rw [this.2.1, List.count_eq_zero.2 this.2.2]; omega

/-! ### References -/

/-- The data which there is after `s'` has been there, for the same request. -/
structure SameData (s s' : State) : Prop where
  log : ∀ p sm w, Ev.asked p sm w ∈ s'.log → Ev.asked p sm w ∈ s.log
  data : ∀ p d', s'.data p = some d' → ∃ d, s.data p = some d ∧ d.sm = d'.sm ∧ d.what = d'.what

theorem SameData.refl (s : State) : SameData s s := ⟨fun _ _ _ h => h, fun _ d h => ⟨d, h, rfl, rfl⟩⟩

theorem SameData.trans {s t u : State} (h : SameData s t) (k : SameData t u) : SameData s u := by
  refine ⟨fun p sm w x => h.log p sm w (k.log p sm w x), fun p d x => ?_⟩
  obtain ⟨d1, a, b, c⟩ := k.data p d x
  obtain ⟨d2, a', b', c'⟩ := h.data p d1 a
  exact ⟨d2, a', b'.trans b, c'.trans c⟩

theorem SameData.of {s s' : State} {evs : List Ev} (hl : s'.log = s.log ++ evs) (he : ∀ p sm w, Ev.asked p sm w ∉ evs) (hd : s'.data = s.data) :
    SameData s s' := by
  refine ⟨fun p sm w h => ?_, fun p d h => ⟨d, by rw [← hd]; exact h, rfl, rfl⟩⟩
  rw [hl] at h
  exact (List.mem_append.1 h).resolve_right (he p sm w)

theorem SameData.release {s s' : State} {o : Option Nat} (h : s.release o = .ok s') : SameData s s' := by
  simp only [State.release] at h
  split at h
  · cases h; exact .refl _
  · split at h
    · cases h; exact .of (evs := [_]) rfl (by simp) rfl
    · cases h

theorem SameData.drop {s s' : State} {l : List Ref} (h : s.drop l = .ok s') : SameData s s' := by
  simp only [State.drop] at h
  split at h
  · cases h; exact .of rfl (by simp) rfl
  · cases h

theorem same_data {s s' : State} {l : Label} (hl : ∀ self f w, l ≠ .ask self f w) (hs : step s l = .ok s') : SameData s s' := by
  cases l with
  | ask self f w => exact absurd rfl (hl self f w)
  | exec p =>
    simp only [step] at hs
    repeat' split at hs
    all_goals first | (cases hs; done) | (cases hs; exact .of (evs := []) (by simp) (by simp) rfl)
  | executed p r =>
    simp only [step] at hs
    split at hs
    · cases hs
    · cases hs
    · split at hs
      · cases hs
      · rename_i d hd
        split at hs
        · split at hs
          · cases hs
          · cases hs
            refine ⟨fun p sm w h => by simpa [State.see, State.take] using h, ?_⟩
            intro q d' h
            simp only [State.see, State.take, upd] at h
            split at h
            · rename_i hq
              cases h
              exact ⟨d, by rw [hq]; exact hd, rfl, rfl⟩
            · exact ⟨d', h, rfl, rfl⟩
        · cases hs
  | done p keep =>
    simp only [step] at hs
    split at hs
    · cases hs
    · cases hs
    · split at hs
      · cases hs
      · split at hs
        · cases hs; exact .of (evs := []) (by simp) (by simp) rfl
        · split at hs
          · cases hs
          · rename_i d hd
            split at hs
            · split at hs
              · cases hs; exact .of (evs := [_]) rfl (by simp) rfl
              · split at hs
                · rename_i n _ hn
                  have h1 : ∀ {t : State}, SameData s t →
                      SameData s { t with data := upd t.data p (some { d with res := { d.res with names := none } }) } := by
                    intro t ht
                    refine ⟨ht.log, fun q d' h => ?_⟩
                    simp only [upd] at h
                    split at h
                    · rename_i hq
                      cases h
                      exact ⟨d, by rw [hq]; exact hd, rfl, rfl⟩
                    · exact ht.data q d' h
                  cases keep
                  · simp only [Bool.false_eq_true, if_false, State.release] at hs
                    rw [if_pos hn] at hs
                    cases hs
                    exact h1 (.of (evs := [.told p d.res, .released n]) (by simp [State.see]) (by simp) rfl)
                  · simp only [if_true] at hs
                    cases hs
                    exact h1 (.of (evs := [.told p d.res, .kept n]) (by simp [State.see]) (by simp) rfl)
                · cases hs
            · cases hs
  | free p =>
    simp only [step] at hs
    repeat' split at hs
    all_goals first | (cases hs; done) | skip
    rename_i d hd
    cases h1 : s.release d.res.names with
    | no => rw [h1] at hs; cases hs
    | ub => rw [h1] at hs; cases hs
    | ok s1 =>
      rw [h1] at hs
      simp only [Out.andThen] at hs
      cases h2 : s1.drop d.holds with
      | no => rw [h2] at hs; cases hs
      | ub => rw [h2] at hs; cases hs
      | ok s2 =>
        rw [h2] at hs
        cases hs
        refine ((SameData.release h1).trans (SameData.drop h2)).trans ⟨fun p sm w h => by simpa [State.see] using h, ?_⟩
        intro q d' h
        simp only [State.see, upd] at h
        split at h
        · cases h
        · exact ⟨d', h, rfl, rfl⟩
  | cancel id =>
    simp only [step] at hs
    repeat' split at hs
    all_goals first | (cases hs; done) | (cases hs; exact .of (evs := [_]) rfl (by simp) rfl) | (cases hs; exact .of (evs := []) (by simp) (by simp) rfl)
  | check p =>
    simp only [step] at hs
    split at hs
    all_goals first | (cases hs; done) | (cases hs; exact .of (evs := []) (by simp) (by simp) rfl)
  | post p =>
    simp only [step] at hs
    split at hs
    all_goals first | (cases hs; done) | (cases hs; exact .of (evs := []) (by simp) (by simp) rfl)
  | flush p =>
    simp only [step] at hs
    split at hs
    all_goals first | (cases hs; done) | (cases hs; exact .of (evs := []) (by simp) (by simp) rfl)

/-- The data is about what has been asked for. -/
theorem data_asked {s : State} (h : Reach step {} s) {p : Nat} {d : Data} (hd : s.data p = some d) {sm : Nat} {w : What}
    (ha : Ev.asked p sm w ∈ s.log) : d.sm = sm ∧ d.what = w := by
  have key : Reach step {} s ∧ ∀ p d sm w, s.data p = some d → Ev.asked p sm w ∈ s.log → d.sm = sm ∧ d.what = w := by
    refine Reach.invariant (P := fun s => Reach step {} s ∧ ∀ p d sm w, s.data p = some d → Ev.asked p sm w ∈ s.log →
      d.sm = sm ∧ d.what = w) ⟨Reach.init, by simp⟩ ?_ h
    clear hd ha
    rintro s l s' ⟨hr, ih⟩ hs
    refine ⟨hr.step hs, ?_⟩
    intro p d sm w hd ha
    by_cases hl : ∃ self f v, l = .ask self f v
    · obtain ⟨self, f, v, rfl⟩ := hl
      simp only [step] at hs
      split at hs
      · cases hs; exact ih p d sm w hd (by simpa [State.see] using ha)
      · split at hs
        · split at hs
          · cases hs
          · cases hs
          · cases hs
            simp only [State.see, State.take, List.mem_append, List.mem_map, List.mem_singleton, reduceCtorEq, and_false, exists_false,
              or_false, Ev.asked.injEq] at ha
            simp only [State.see, State.take, upd] at hd
            split at hd
            · rename_i hp
              cases hd
              rcases ha with ha | ⟨_, rfl, rfl⟩
              · have := past (((reach_inv hr).calls p).new (by omega)) _ ha
                exact absurd rfl this
              · exact ⟨rfl, rfl⟩
            · rename_i hp
              rcases ha with ha | ⟨he, _⟩
              · exact ih p d sm w hd ha
              · exact absurd he hp
        · cases hs; exact ih p d sm w hd (by simpa [State.see] using ha)
    · have hsd := same_data (fun self f v e => hl ⟨self, f, v, e⟩) hs
      obtain ⟨d0, h0, h1, h2⟩ := hsd.data p d hd
      obtain ⟨h3, h4⟩ := ih p d0 sm w h0 (hsd.log p sm w ha)
      exact ⟨h1.symm.trans h3, h2.symm.trans h4⟩
  exact key.2 p d sm w hd ha

/-- Each reference which is taken is dropped, and not until then the last reference of the library to the service manager or to
the object may go away. While the call isn't over, the library has a reference to the service manager which has been asked and to
the object which is being added. -/
theorem C67_refs {s : State} (h : Reach step {} s) (r : Ref) :
    s.log.count (.unref r) ≤ s.log.count (.ref r) ∧
      ((∀ p sm w, Ev.asked p sm w ∈ s.log → Ev.freed p ∈ s.log) → s.log.count (.ref r) = s.log.count (.unref r)) ∧
      ∀ p sm w, Ev.asked p sm w ∈ s.log → Ev.freed p ∉ s.log →
        (r = .sm sm ∨ ∃ name o, w = .add name (some o) ∧ r = .loc o) → s.log.count (.unref r) < s.log.count (.ref r) := by
  have hi := reach_inv h
  have hb := hi.refs.bal r
  have live : ∀ p, (∃ d, s.data p = some d) ↔ ((∃ sm w, Ev.asked p sm w ∈ s.log) ∧ Ev.freed p ∉ s.log) := by
    intro p
    obtain ⟨c, hc, hn, hg⟩ := C67_life h p
    have hp := past hc
    cases c with
    | new =>
      constructor
      · rintro ⟨d, hd⟩
        have := hi.refs.lt p d hd
        have := hn.1 rfl
        omega
      · rintro ⟨⟨sm, w, ha⟩, _⟩
        exact absurd rfl (hp _ ha)
    | live w x t c =>
      constructor
      · intro _
        exact ⟨⟨_, w, hp.1.choose_spec⟩, hp.2.2.2.2.1⟩
      · intro _
        have h1 : ¬s.tx.calls ≤ p := fun hh => by have := hn.2 hh; cases this
        cases hd : s.data p with
        | some d => exact ⟨d, rfl⟩
        | none => have := hg.2 ⟨by omega, hd⟩; cases this
    | gone =>
      constructor
      · rintro ⟨d, hd⟩
        rw [(hg.1 rfl).2] at hd; cases hd
      · rintro ⟨_, hf⟩
        exact absurd hp hf
  refine ⟨by omega, ?_, ?_⟩
  · intro hall
    have : s.held r = 0 := by
      rw [hi.refs.held r]
      have : ∀ n, Buffers.total (fun p => refsOf r (s.data p)) n = 0 := by
        intro n
        induction n with
        | zero => rfl
        | succ n ih =>
          have h0 : s.data n = none := by
            cases hd : s.data n with
            | none => rfl
            | some d =>
              obtain ⟨⟨sm, w, ha⟩, hf⟩ := (live n).1 ⟨d, hd⟩
              exact absurd (hall n sm w ha) hf
          show Buffers.total _ n + refsOf r (s.data n) = 0
          rw [ih, h0]; rfl
      exact this _
    omega
  · intro p sm w ha hf hr
    obtain ⟨d, hd⟩ := (live p).2 ⟨⟨sm, w, ha⟩, hf⟩
    obtain ⟨rfl, rfl⟩ := data_asked h hd ha
    have : 0 < s.held r := by
      refine hi.refs.used hd r ?_
      rcases hr with rfl | ⟨name, o, hw, rfl⟩
      · simp [Data.holds]
      · simp [Data.holds, hw]
    omega

/-- Nothing is asked for if the service manager, the callback or the name is NULL; and it's, if they aren't. -/
theorem C67_refused (s s' : State) (self : Option Nat) (func : Bool) (w : What) (hs : step s (.ask self func w) = .ok s') :
    (self = none ∨ func = false ∨ w = .get none ∨ (∃ o, w = .add none o) → s'.log = s.log ++ [.refused w] ∧ s'.tx = s.tx) ∧
      (∀ sm, self = some sm → func = true → w ≠ .get none → (∀ o, w ≠ .add none o) →
        s'.log.getLast? = some (.asked s.tx.calls sm w) ∧ s'.tx.calls = s.tx.calls + 1) := by
  simp only [step] at hs
  split at hs
  · cases hs; simp [State.see]
  · rename_i sm
    split at hs
    · rename_i hn
      split at hs
      · cases hs
      · cases hs
      · rename_i tx ha
        cases hs
        obtain ⟨_, hc, _⟩ := Async.submit_facts ha
        simp only [Bool.and_eq_true] at hn
        refine ⟨?_, ?_⟩
        · rintro (h | h | h | ⟨o, h⟩)
          · cases h
          · rw [hn.1] at h; cases h
          · subst h; simp [named] at hn
          · subst h; simp [named] at hn
        · intro sm' h _ _ _
          cases h
          simp [State.see, hc]
    · rename_i hn
      cases hs
      refine ⟨fun _ => ⟨rfl, rfl⟩, ?_⟩
      intro sm' _ hf h1 h2
      exfalso
      apply hn
      rw [hf]
      cases w with
      | list => rfl
      | get name => cases name <;> simp_all [named]
      | add name o => cases name <;> simp_all [named]

/-- The result is what the method of the class has returned. -/
def Says (x : Result) : Reply → Prop
  | .list b => x.names.isSome = b
  | .get obj status => x.obj = obj ∧ x.status = status
  | .add status => x.status = status

/-- What the method of the class has returned is what's stored for the callback. -/
theorem C67_reply (s s' : State) (p : Nat) (r : Reply) (hs : step s (.executed p r) = .ok s') :
    ∃ w x, s'.log.getLast? = some (.performed p w x) ∧ Says x r := by
  simp only [step] at hs
  split at hs
  · cases hs
  · cases hs
  · split at hs
    · cases hs
    · rename_i d hd
      split at hs
      · split at hs
        · cases hs
        · rename_i x hx
          cases hs
          refine ⟨d.what, x, by simp [State.see], ?_⟩
          cases r <;> cases hw : d.what <;> rw [hw] at hx <;> simp only [result, Option.some.injEq, reduceCtorEq] at hx <;> subst hx
          · rename_i b; cases b <;> rfl
          · exact ⟨rfl, rfl⟩
          · rfl
      · cases hs

/-- If the callback gets a list of names, then it's the callback who decides whether it's freed. -/
theorem C67_keep (s s' : State) (p : Nat) (keep : Bool) (hs : step s (.done p keep) = .ok s') (r : Result) (n : Nat) (hn : r.names = some n)
    (ht : Ev.told p r ∈ s'.log) (h0 : Ev.told p r ∉ s.log) : s'.log.getLast? = some (if keep then .kept n else .released n) := by
  simp only [step] at hs
  split at hs
  · cases hs
  · cases hs
  · split at hs
    · cases hs
    · split at hs
      · cases hs; exact absurd ht h0
      · split at hs
        · cases hs
        · rename_i d hd
          split at hs
          · split at hs
            · rename_i hm
              cases hs
              simp [State.see, h0] at ht
              rw [ht, hm] at hn
              cases hn
            · split at hs
              · rename_i m hm ha
                cases keep
                · simp only [Bool.false_eq_true, if_false, State.release] at hs
                  rw [if_pos ha] at hs
                  cases hs
                  simp [State.see, h0] at ht ⊢
                  rw [ht, hm] at hn
                  exact Option.some.inj hn
                · simp only [if_true] at hs
                  cases hs
                  simp [State.see, h0] at ht ⊢
                  rw [ht, hm] at hn
                  exact Option.some.inj hn
              · cases hs
          · cases hs

/-! ### Such calls exist -/

def run (s : State) : List Label → Option State
  | [] => some s
  | l :: ls =>
    match step s l with
    | .ok s' => run s' ls
    | _ => none

theorem run_reach {s s' : State} {ls : List Label} (h : ReachIf step (fun _ l => ∀ p, l ≠ .flush p) {} s)
    (hn : ls.all (fun l => match l with | .flush _ => false | _ => true) = true) (hr : run s ls = some s') :
    ReachIf step (fun _ l => ∀ p, l ≠ .flush p) {} s' := by
  induction ls generalizing s with
  | nil => cases hr; exact h
  | cons l ls ih =>
    simp only [run] at hr
    simp only [List.all_cons, Bool.and_eq_true] at hn
    split at hr
    · rename_i s1 h1
      refine ih (.step l h ?_ h1) hn.2 hr
      rintro p rfl
      cases hn.1
    · cases hr

/-- Two lists, one of them is kept and another one isn't; an object which is added; an object which is looked up but the call is
cancelled meanwhile. -/
def script : List Label := [.ask (some 7) true .list, .ask (some 7) true .list, .ask (some 7) true (.add (some [97]) (some 3)),
  .ask (some 8) true (.get (some [98])), .ask none true .list, .ask (some 8) true (.get none),
  .check 0, .exec 0, .check 1, .check 3, .exec 3, .executed 0 (.list true), .exec 1, .executed 1 (.list true), .post 0, .done 0 true,
  .check 2, .exec 2, .executed 2 (.add 0), .post 2, .cancel 4, .executed 3 (.get (some 5) 0), .post 3, .post 1, .done 3 false,
  .done 1 false, .done 2 false, .free 2, .free 3, .free 0, .free 1]

example : ∃ s, ReachIf step (fun _ l => ∀ p, l ≠ .flush p) {} s ∧
    Ev.told 2 { status := 0 } ∈ s.log ∧ Ev.told 0 { names := some 0 } ∈ s.log ∧ Ev.kept 0 ∈ s.log ∧ Ev.released 1 ∈ s.log ∧
    Ev.cancelled 3 ∈ s.log ∧ Ev.performed 3 (.get (some [98])) { obj := some 5, status := 0 } ∈ s.log ∧
    s.log.count (.ref (.rem 5)) = 1 ∧ s.log.count (.unref (.rem 5)) = 1 ∧ s.log.count (.ref (.sm 7)) = 3 ∧
    s.log.count (.unref (.sm 7)) = 3 ∧ (∀ p ∈ [0, 1, 2, 3], Ev.freed p ∈ s.log) := by
  have h : (run {} script).map (fun s => decide (
    Ev.told 2 { status := 0 } ∈ s.log ∧ Ev.told 0 { names := some 0 } ∈ s.log ∧ Ev.kept 0 ∈ s.log ∧ Ev.released 1 ∈ s.log ∧
    Ev.cancelled 3 ∈ s.log ∧ Ev.performed 3 (.get (some [98])) { obj := some 5, status := 0 } ∈ s.log ∧
    s.log.count (.ref (.rem 5)) = 1 ∧ s.log.count (.unref (.rem 5)) = 1 ∧ s.log.count (.ref (.sm 7)) = 3 ∧
    s.log.count (.unref (.sm 7)) = 3 ∧ (∀ p ∈ [0, 1, 2, 3], Ev.freed p ∈ s.log))) = some true := by decide +kernel
  obtain ⟨s, hs, hd⟩ := Option.map_eq_some_iff.1 h
  exact ⟨s, run_reach .init (by decide) hs, of_decide_eq_true hd⟩

/-- Calls which aren't over. -/
example : ∃ s, Reach step {} s ∧ Ev.asked 2 7 (.add (some [97]) (some 3)) ∈ s.log ∧ Ev.freed 2 ∉ s.log ∧
    s.log.count (.ref (.loc 3)) = 1 ∧ s.log.count (.unref (.loc 3)) = 0 := by
  have h : (run {} (script.take 20)).map (fun s => decide (Ev.asked 2 7 (.add (some [97]) (some 3)) ∈ s.log ∧ Ev.freed 2 ∉ s.log ∧
    s.log.count (.ref (.loc 3)) = 1 ∧ s.log.count (.unref (.loc 3)) = 0)) = some true := by decide +kernel
  obtain ⟨s, hs, hd⟩ := Option.map_eq_some_iff.1 h
  exact ⟨s, (run_reach .init (by decide) hs).reach, of_decide_eq_true hd⟩

/-- One which isn't over, while nothing has been cancelled or exited. -/
example : ∃ s, ReachIf step (fun _ l => ∀ p, l ≠ .flush p) {} s ∧ Ev.asked 2 7 (.add (some [97]) (some 3)) ∈ s.log ∧ Ev.freed 2 ∉ s.log ∧
    Ev.cancelled 2 ∉ s.log ∧ Suits (.add (some [97]) (some 3)) (.add 0) := by
  have h : (run {} (script.take 20)).map (fun s => decide (Ev.asked 2 7 (.add (some [97]) (some 3)) ∈ s.log ∧ Ev.freed 2 ∉ s.log ∧
    Ev.cancelled 2 ∉ s.log)) = some true := by decide +kernel
  obtain ⟨s, hs, hd⟩ := Option.map_eq_some_iff.1 h
  obtain ⟨h1, h2, h3⟩ := of_decide_eq_true hd
  exact ⟨s, run_reach .init (by decide) hs, h1, h2, h3, trivial⟩

end Gb.C67
