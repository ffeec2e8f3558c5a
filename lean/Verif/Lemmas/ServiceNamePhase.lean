import Verif.Lemmas.ServiceName
/-
What a name is waiting for depending on whether the service manager is there, provided that there's one
GBinderServiceManager.
-/
set_option autoImplicit false

namespace Gb.ServiceName

open Manager (One Zero Phase Trans)

def Idle (x : Name) : Prop := x.call = 0 ∧ x.timer = none

/-- Registered, or being registered, or it will be tried again. -/
def Busy (x : Name) (r : Option Int) : Prop :=
  (r = some 0 ∧ x.call = 0 ∧ x.timer = none) ∨
  (r ≠ some 0 ∧ x.call ≠ 0 ∧ x.timer = none) ∨
  (r ≠ some 0 ∧ x.call = 0 ∧ x.timer ≠ none)

def Proper (ph : Phase) (inCalls : Prop) (x : Name) (r : Option Int) : Prop :=
  match ph with
  | .up => (inCalls → Idle x) ∧ (¬inCalls → Busy x r)
  | .dying => True
  | .down => inCalls ∨ Idle x

inductive F (s : State) : Prop
  | zero (hz : Zero s.mgr) (hn : ∀ n, s.names n = none) (hc : s.calls = [])
  | one (m : Nat) (y : Manager.Mgr) (ph : Phase) (ho : One s.mgr m y ph)
      (hc : s.calls.Nodup) (hd : ph = .dying → s.calls = [])
      (hn : ∀ n x, s.names n = some x → x.mgr = m ∧ Proper ph (n ∈ s.calls) x (lastResult n s.log))

theorem lastResult_append (n : Nat) (a b : List Ev) :
    lastResult n (a ++ b) = b.foldl (result1 n) (lastResult n a) := by
  simp [lastResult, List.foldl_append]

theorem phase_eq {s s' : Manager.State} {m m' : Nat} {y y' : Manager.Mgr} {ph ph' : Phase} (h : One s m y ph)
    (h' : One s' m' y' ph') (hd : s'.dead = s.dead) (hp : ∀ k, k ∈ s'.pending → k ∈ s.pending)
    (hf : s.free = true) : ph' = ph := by
  have h1 := h.dead
  have h2 := h'.dead
  have h3 := h.free_iff.mp hf
  have h4 := h.pending
  have h5 := h'.pending
  rw [if_neg h3] at h4
  rw [hd, h1] at h2
  cases ph <;> cases ph' <;> simp at h2 h3 h5 <;> try rfl
  rw [h5, h4] at hp
  have := hp m' (by simp)
  cases this

theorem emitted_append (a b : List Manager.Ev) : emitted (a ++ b) = emitted a ++ emitted b := by
  induction a with
  | nil => rfl
  | cons e a ih => cases e <;> simp [emitted, ih]

theorem emitted_unwatch {α : Type} (m : Nat) (f : α → Bytes) (l : List α) :
    emitted (l.map fun w => Manager.Ev.unwatch m (f w)) = [] := by
  induction l with
  | nil => rfl
  | cons e a ih => simp [emitted, ih]

theorem emitted_watch {α : Type} (m : Nat) (f : α → Bytes) (g : α → Bool) (l : List α) :
    emitted (l.map fun w => Manager.Ev.watch m (f w) (g w)) = [] := by
  induction l with
  | nil => rfl
  | cons e a ih => simp [emitted, ih]

/-- The signal is emitted when the phase changes. -/
theorem trans_emitted {m : Nat} {ph ph' : Phase} {x x' : Manager.Mgr} {es : List Manager.Ev}
    (h : Trans m ph x es ph' x') :
    (emitted es = [] ∧ ph' = ph) ∨ (emitted es = [] ∧ ph = .up ∧ ph' = .dying) ∨
    (emitted es = [m] ∧ ph = .dying ∧ ph' = .down) ∨ (emitted es = [m] ∧ ph = .down ∧ ph' = .up) := by
  cases h with
  | die => exact .inr (.inl ⟨rfl, rfl, rfl⟩)
  | died c =>
    refine .inr (.inr (.inl ⟨?_, rfl, rfl⟩))
    simp [emitted, emitted_append, emitted_unwatch]
  | back watch =>
    refine .inr (.inr (.inr ⟨?_, rfl, rfl⟩))
    simp [emitted, emitted_append, emitted_watch]
  | remove ids hph h0 => exact .inl ⟨emitted_unwatch m (fun w => w) _, rfl⟩
  | _ => exact .inl ⟨rfl, rfl⟩

/-- A name is changed while the service manager isn't. -/
theorem F.change {s s' : State} {m : Nat} {y : Manager.Mgr} {ph : Phase} (ho : One s'.mgr m y ph)
    (hc : s'.calls.Nodup) (hd : ph = .dying → s'.calls = []) {n : Nat} {z : Option Name}
    (h1 : s'.names = upd s.names n z)
    (hother : ∀ k x, k ≠ n → s.names k = some x → x.mgr = m ∧ Proper ph (k ∈ s'.calls) x (lastResult k s'.log))
    (hself : ∀ x, z = some x → x.mgr = m ∧ Proper ph (n ∈ s'.calls) x (lastResult n s'.log)) : F s' := by
  refine .one m y ph ho hc hd ?_
  intro k x hx
  rw [h1] at hx
  by_cases hk : k = n
  · subst hk
    rw [upd_same] at hx
    exact hself x hx
  · rw [upd_ne _ _ hk] at hx
    exact hother k x hk hx

theorem Proper.congr {ph : Phase} {a b : Prop} {x : Name} {r : Option Int} (h : Proper ph a x r) (he : b ↔ a) :
    Proper ph b x r := by
  have : b = a := propext he
  rw [this]; exact h

theorem idle_iff {s : State} : s.idle = true ↔ s.calls = [] ∧ s.mgr.pending = [] := by
  simp [State.idle, List.isEmpty_iff]

theorem F.next {s s' : State} {l : Label} (g : G s) (g' : G s') (hu : Usual s l) (he : Eff s s' l)
    (h : F s) : F s' := by
  cases h with
  | zero hz hn hc =>
    cases he with
    | quiet hl h1 h2 h3 h4 =>
      exact .zero (by rw [h2]; exact hz) (by rw [h1]; exact hn) (by rw [h3]; exact hc)
    | create x hn' hx ht h1 h2 h3 h4 =>
      exfalso
      simp only [Manager.step, hz.mgrs] at h2
      split at h2 <;> cases h2
    | refs x hl hx h1 h2 h3 h4 => rw [hn] at hx; cases hx
    | free x hx h1 h2 h3 h4 => rw [hn] at hx; cases hx
    | up x id p hcc hx hd hid h1 h2 h3 h4 => rw [hn] at hx; cases hx
    | down x hcc hx hd h1 h2 h3 h4 => rw [hn] at hx; cases hx
    | retry x id p hi hx ht hid h1 h2 h3 h4 => rw [hn] at hx; cases hx
    | done x hi hx hcc h1 h2 h3 h4 => rw [hn] at hx; cases hx
    | mgr ha h1 h2 h3 h4 =>
      have hcalls : s'.calls = [] := by
        cases hcc : s'.calls with
        | nil => rfl
        | cons k rest =>
          exfalso
          have := g'.calls k (by rw [hcc]; exact List.mem_cons_self ..)
          rw [h1] at this
          exact this (hn k)
      rcases Manager.zero_step hz h2 with ⟨z1, _⟩ | ⟨m, kind, ph, x, es, o1, _⟩
      · exact .zero z1 (by rw [h1]; exact hn) hcalls
      · refine .one m x ph o1 (by rw [hcalls]; exact List.nodup_nil) (fun _ => hcalls) ?_
        intro n x hx
        rw [h1, hn] at hx
        cases hx
  | one m y ph ho hc hd hn =>
    cases he with
    | quiet hl h1 h2 h3 h4 =>
      refine .one m y ph (by rw [h2]; exact ho) (by rw [h3]; exact hc) (by rw [h3]; exact hd) ?_
      rw [h1, h3, h4]
      exact hn
    | @create n k x hnn hx ht h1 h2 h3 h4 =>
      have hf := flags_step h2
      have hfree : s.mgr.free = true := by
        simp only [Manager.step] at h2
        split at h2
        · cases h2
        · rename_i hh; exact Classical.not_not.mp hh
      have hk : k = m := by
        obtain ⟨y', hy', _⟩ := g'.mgr n x (by rw [h1]; exact upd_same ..)
        simp only [Manager.step] at h2
        split at h2
        · cases h2
        · split at h2
          · cases h2
          · rename_i z hz
            exact (ho.get hz).1
      rcases Manager.one_step ho (by intro _ _ _ _ hh; cases hh) h2 with ⟨es, ph', y', o1, tr, _⟩ | ⟨hh, _⟩
      · have hph := phase_eq ho o1 hf.1 hf.2 hfree
        subst hph
        have hnc : n ∉ s.calls := fun hh => g.calls n hh hnn
        refine F.change o1 (by rw [h3]; exact hc) (by rw [h3]; exact hd) h1 ?_ ?_
        · intro j z hj hz
          obtain ⟨q1, q2⟩ := hn j z hz
          refine ⟨q1, ?_⟩
          rw [h3]
          have : lastResult j s'.log = lastResult j s.log := by
            rcases h4 with ⟨_, _, h4⟩ | ⟨_, _, p, h4⟩ <;> rw [h4, lastResult_append] <;> simp [result1, Ne.symm hj]
          rw [this]
          exact q2
        · rintro z ⟨⟩
          refine ⟨hx.trans hk, ?_⟩
          rw [h3]
          have hdead := ho.dead
          have hnd := ho.free_iff.mp hfree
          cases ph' with
          | dying => exact absurd rfl hnd
          | up =>
            rcases h4 with ⟨h5, _⟩ | ⟨_, h6, p, h4⟩
            · rw [h5] at hdead; simp at hdead
            · refine ⟨fun hh => absurd hh hnc, fun _ => .inr (.inl ⟨?_, h6, ht⟩)⟩
              rw [h4, lastResult_append]
              simp [result1]
          | down =>
            rcases h4 with ⟨_, h6, _⟩ | ⟨h5, _⟩
            · exact .inr ⟨h6, ht⟩
            · rw [h5] at hdead; simp at hdead
      · cases hh
    | @refs l n r x hl hx h1 h2 h3 h4 =>
      refine F.change (s := s) (by rw [h2]; exact ho) (by rw [h3]; exact hc) (by rw [h3]; exact hd) h1 ?_ ?_
      · intro j z _ hz
        rw [h3, h4]
        exact hn j z hz
      · rintro z ⟨⟩
        rw [h3, h4]
        obtain ⟨q1, q2⟩ := hn n x hx
        refine ⟨q1, ?_⟩
        cases ph <;> exact q2
    | @free n x hx h1 h2 h3 h4 =>
      have hf := flags_step h2
      have hfree : s.mgr.free = true := by
        simp only [Manager.step] at h2
        split at h2
        · cases h2
        · rename_i hh; exact Classical.not_not.mp hh
      rcases Manager.one_step ho (by intro _ _ _ _ hh; cases hh) h2 with ⟨es, ph', y', o1, tr, _⟩ | ⟨hh, _⟩
      · have hph := phase_eq ho o1 hf.1 hf.2 hfree
        subst hph
        refine F.change o1 ?_ ?_ h1 ?_ ?_
        · rw [h3]; exact List.Nodup.sublist List.filter_sublist hc
        · intro hh; rw [h3, hd hh]; rfl
        · intro j z hj hz
          obtain ⟨q1, q2⟩ := hn j z hz
          refine ⟨q1, ?_⟩
          have : lastResult j s'.log = lastResult j s.log := by
            rw [h4, lastResult_append]; simp [result1, Ne.symm hj]
          rw [this]
          refine q2.congr ?_
          rw [h3]
          simp [hj]
        · rintro z ⟨⟩
      · cases hh
    | @up n rest x id p hcc hx hdd hid h1 h2 h3 h4 =>
      have hph : ph = .up := by
        have := ho.dead
        rw [hdd] at this
        simpa using this.symm
      subst hph
      rw [hcc, List.nodup_cons] at hc
      refine F.change (s := s) (by rw [h2]; exact ho) (by rw [h3]; exact hc.2) (by intro hh; cases hh) h1 ?_ ?_
      · intro j z hj hz
        obtain ⟨q1, q2⟩ := hn j z hz
        refine ⟨q1, ?_⟩
        have : lastResult j s'.log = lastResult j s.log := by
          rw [h4, lastResult_append]; simp [result1, Ne.symm hj]
        rw [this]
        refine q2.congr ?_
        rw [h3, hcc]
        simp [hj]
      · rintro z ⟨⟩
        obtain ⟨q1, q2⟩ := hn n x hx
        refine ⟨q1, ?_⟩
        rw [h3]
        refine ⟨fun hh => absurd hh hc.1, fun _ => .inr (.inl ⟨?_, hid, ?_⟩)⟩
        · rw [h4, lastResult_append]; simp [result1]
        · exact (q2.1 (by rw [hcc]; exact List.mem_cons_self ..)).2
    | @down n rest x hcc hx hdd h1 h2 h3 h4 =>
      have hph : ph = .down := by
        have := ho.dead
        rw [hdd] at this
        cases ph with
        | up => simp at this
        | dying => rw [hd rfl] at hcc; cases hcc
        | down => rfl
      subst hph
      rw [hcc, List.nodup_cons] at hc
      refine F.change (s := s) (by rw [h2]; exact ho) (by rw [h3]; exact hc.2) (by intro hh; cases hh) h1 ?_ ?_
      · intro j z hj hz
        obtain ⟨q1, q2⟩ := hn j z hz
        refine ⟨q1, ?_⟩
        have : lastResult j s'.log = lastResult j s.log := by
          rw [h4, lastResult_append]; simp [result1, Ne.symm hj]
        rw [this]
        refine q2.congr ?_
        rw [h3, hcc]
        simp [hj]
      · rintro z ⟨⟩
        exact ⟨(hn n x hx).1, .inr ⟨rfl, rfl⟩⟩
    | @retry t x id p hi hx ht hid h1 h2 h3 h4 =>
      obtain ⟨i1, i2⟩ := idle_iff.mp hi
      obtain ⟨q1, q2⟩ := hn t.name x hx
      have hph : ph = .up := by
        cases ph with
        | up => rfl
        | dying => have := ho.pending; rw [i2] at this; cases this
        | down =>
          rcases q2 with q2 | q2
          · rw [i1] at q2; cases q2
          · rw [q2.2] at ht; cases ht
      subst hph
      refine F.change (s := s) (by rw [h2]; exact ho) (by rw [h3]; exact hc) (by rw [h3]; exact hd) h1 ?_ ?_
      · intro j z hj hz
        obtain ⟨q1, q2⟩ := hn j z hz
        refine ⟨q1, ?_⟩
        have : lastResult j s'.log = lastResult j s.log := by
          rw [h4, lastResult_append]; simp [result1, Ne.symm hj]
        rw [this, h3]
        exact q2
      · rintro z ⟨⟩
        refine ⟨q1, ?_⟩
        rw [h3, i1]
        refine ⟨(fun hh => by cases hh), fun _ => .inr (.inl ⟨?_, hid, rfl⟩)⟩
        rw [h4, lastResult_append]; simp [result1]
    | @done p tid n x hi hx hcc h1 h2 h3 h4 =>
      obtain ⟨i1, i2⟩ := idle_iff.mp hi
      obtain ⟨q1, q2⟩ := hn n x hx
      have hph : ph = .up := by
        cases ph with
        | up => rfl
        | dying => have := ho.pending; rw [i2] at this; cases this
        | down =>
          rcases q2 with q2 | q2
          · rw [i1] at q2; cases q2
          · exact absurd q2.1 hcc
      subst hph
      refine F.change (s := s) (by rw [h2]; exact ho) (by rw [h3]; exact hc) (by rw [h3]; exact hd) h1 ?_ ?_
      · intro j z hj hz
        obtain ⟨q1, q2⟩ := hn j z hz
        refine ⟨q1, ?_⟩
        have : lastResult j s'.log = lastResult j s.log := by
          rw [h4, lastResult_append]; simp [result1, Ne.symm hj]
        rw [this, h3]
        exact q2
      · rintro z ⟨⟩
        refine ⟨q1, ?_⟩
        rw [h3, i1]
        refine ⟨(fun hh => by cases hh), fun _ => ?_⟩
        have hlr : lastResult n s'.log = some (s.status p) := by
          rw [h4, lastResult_append]; simp [result1]
        rw [hlr]
        have hb := q2.2 (by rw [i1]; simp)
        have htn : x.timer = none := by
          rcases hb with ⟨_, hb, _⟩ | ⟨_, _, hb⟩ | ⟨_, hb, _⟩
          · exact absurd hb hcc
          · exact hb
          · exact absurd hb hcc
        by_cases hst : s.status p = 0
        · exact .inl ⟨by rw [hst], rfl, by simp [hst, htn]⟩
        · exact .inr (.inr ⟨by simp [hst], rfl, by simp [hst]⟩)
    | @mgr k ha h1 h2 h3 h4 =>
      have hnc : ∀ m kind ok tid, k ≠ .create m kind ok tid := by
        intro m' kind ok tid hh
        have := hu.2.1 m' kind ok tid (by rw [hh]) m
        rw [ho.self] at this
        cases this
      rcases Manager.one_step ho hnc h2 with ⟨es, ph', y', o1, tr, hlog⟩ | ⟨hk, hz, hlog⟩
      · have hes : s'.mgr.log.drop s.mgr.log.length = es := by rw [hlog]; simp
        rw [hes] at h3
        have hall : ∀ n x, s'.names n = some x → n ∈ s'.handlers m := by
          intro n x hx
          have hm : x.mgr = m := by rw [h1] at hx; exact (hn n x hx).1
          obtain ⟨z, z1, z2⟩ := g'.mgr n x hx
          unfold State.handlers
          rw [hm] at z1
          rw [z1]
          exact List.mem_filter.mpr ⟨z2, by rw [hx]; rfl⟩
        have hnod : (s'.handlers m).Nodup := by
          unfold State.handlers
          rw [o1.self]
          exact List.Nodup.sublist List.filter_sublist (g'.nodup m y' o1.self)
        rcases trans_emitted tr with ⟨t1, t2⟩ | ⟨t1, t2, t3⟩ | ⟨t1, t2, t3⟩ | ⟨t1, t2, t3⟩
        · rw [t1] at h3
          simp only [List.flatMap_nil, List.nil_append] at h3
          subst t2
          refine .one m y' ph' o1 (by rw [h3]; exact hc) (by rw [h3]; exact hd) ?_
          rw [h1, h3, h4]
          exact hn
        · rw [t1] at h3
          simp only [List.flatMap_nil, List.nil_append] at h3
          subst t2 t3
          have hcalls : s.calls = [] := by
            have hp := ho.pending
            have hp' := o1.pending
            simp only [if_true] at hp'
            have hgrow : ∃ j, j ∈ s'.mgr.pending ∧ j ∉ s.mgr.pending := by
              refine ⟨m, by rw [hp']; simp, ?_⟩
              rw [hp]; simp
            obtain ⟨j, j1, j2⟩ := hgrow
            have hf := flags_step h2
            cases k with
            | die => simpa [State.allows, List.isEmpty_iff] using ha
            | fire t ok tid w => simp only [] at hf; rw [hf] at j1; exact absurd j1 j2
            | wait t ok w => simp only [] at hf; rw [hf] at j1; exact absurd j1 j2
            | create a b c d => exact absurd rfl (hnc a b c d)
            | _ => exact absurd (hf.2 j j1) j2
          refine .one m y' .dying o1 (by rw [h3]; exact hc) (fun _ => by rw [h3]; exact hcalls) ?_
          intro n x hx
          rw [h1] at hx
          exact ⟨(hn n x hx).1, trivial⟩
        · rw [t1] at h3
          subst t2 t3
          rw [hd rfl] at h3
          simp only [List.flatMap_cons, List.flatMap_nil, List.append_nil] at h3
          refine .one m y' .down o1 (by rw [h3]; exact hnod) (by intro hh; cases hh) ?_
          intro n x hx
          refine ⟨by rw [h1] at hx; exact (hn n x hx).1, .inl ?_⟩
          rw [h3]
          exact hall n x hx
        · rw [t1] at h3
          subst t2 t3
          have hcalls : s.calls = [] := by
            have hd1 : s.mgr.dead = true := by rw [ho.dead]; rfl
            have hd2 : s'.mgr.dead = false := by rw [o1.dead]; rfl
            have hf := flags_step h2
            cases k with
            | die =>
              exfalso
              simp only [Manager.step, hd1] at h2
              simp at h2
            | fire t ok tid w => exact (idle_iff.mp (by simpa [State.allows] using ha)).1
            | wait t ok w => exact hu.2.2 t ok w rfl
            | create a b c d => exact absurd rfl (hnc a b c d)
            | _ => have := hf.1; rw [hd1, hd2] at this; cases this
          rw [hcalls] at h3
          simp only [List.flatMap_cons, List.flatMap_nil, List.append_nil] at h3
          refine .one m y' .up o1 (by rw [h3]; exact hnod) (by intro hh; cases hh) ?_
          intro n x hx
          have hx' := hx
          rw [h1] at hx'
          obtain ⟨q1, q2⟩ := hn n x hx'
          refine ⟨q1, fun _ => ?_, fun hh => ?_⟩
          · rcases q2 with q2 | q2
            · rw [hcalls] at q2; cases q2
            · exact q2
          · rw [h3] at hh
            exact absurd (hall n x hx) hh
      · subst hk
        have hnone : ∀ n, s'.names n = none := by
          intro n
          cases hx : s'.names n with
          | none => rfl
          | some x =>
            exfalso
            obtain ⟨z, z1, _⟩ := g'.mgr n x hx
            rw [hz.mgrs] at z1
            cases z1
        refine .zero hz hnone ?_
        cases hcc : s'.calls with
        | nil => rfl
        | cons j rest => exact absurd (hnone j) (g'.calls j (by rw [hcc]; exact List.mem_cons_self ..))

theorem usual_reach {s : State} (h : ReachIf step Usual {} s) : G s ∧ F s := by
  induction h with
  | init => exact ⟨G.init, .zero ⟨rfl, rfl, rfl, rfl⟩ (fun _ => rfl) rfl⟩
  | @step s0 s1 l _ hu hs ih =>
    obtain ⟨g, e⟩ := eff_step ih.1 hu.1 hs
    exact ⟨g, F.next ih.1 g hu e ih.2⟩

end Gb.ServiceName
