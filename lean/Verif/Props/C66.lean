import Verif.Lemmas.SmTable
/-
C66. One service manager for a device.
-/
set_option autoImplicit false

namespace Gb.C66
open SmTable
open Client (Kind)
open Config (str)

/-- No memory is used after it has been freed. Proved if nobody asks for a manager whose last reference is being dropped, the
name of the device isn't empty, and aidl2, aidl3 and aidl4 are first used when there's no aidl manager; not otherwise, see
`C66_fails_race`, `C66_fails_empty` and `C66_fails_dangling`. -/
theorem C66_safe_partial {auto : Bytes → Protocol} {s : State} (h : ReachIf (step auto) Good {} s) {l : Label} (hok : Good s l) :
    step auto s l ≠ .ub := (step_inv (reach_inv h) hok).1

/-- A manager isn't freed while somebody has a reference to it. -/
theorem C66_live_partial {auto : Bytes → Protocol} {s : State} (h : ReachIf (step auto) Good {} s) {i : Nat}
    (ho : 0 < owned i s.log) : Ev.freed i ∉ s.log := by
  have hi := reach_inv h
  obtain ⟨x, hx, _⟩ := hi.owner ho
  intro hf
  rw [((hi.freed i).1 hf).2] at hx
  cases hx

/-- It's freed when there are no more references to it, and the one who has dropped the last one has finished. -/
theorem C66_freed_partial {auto : Bytes → Protocol} {s : State} (h : ReachIf (step auto) Good {} s) {i : Nat} {k : Kind}
    {d : Bytes} (hf : IsFor i k d s.log) (ho : owned i s.log = 0) (hb : ¬Doomed s i) : Ev.freed i ∈ s.log := by
  have hi := reach_inv h
  obtain ⟨p, hp⟩ := hf
  rw [hi.freed]
  refine ⟨(hi.isFor _ _ _ _ hp).1, ?_⟩
  cases hx : s.sm i with
  | none => rfl
  | some x =>
    rcases hi.live i x hx with h1 | h1
    · omega
    · exact absurd h1.2.2 hb

/-- A manager which has been returned is of the kind which has been asked for, and talks to the device which has been asked
for. -/
theorem C66_kind_partial {auto : Bytes → Protocol} {s : State} (h : ReachIf (step auto) Good {} s) {i : Nat} {k : Kind}
    {d : Bytes} (hf : IsFor i k d s.log) (ho : 0 < owned i s.log) : ∃ x, s.sm i = some x ∧ x.kind = k ∧ x.dev = d := by
  have hi := reach_inv h
  obtain ⟨p, hp⟩ := hf
  obtain ⟨x, hx, _⟩ := hi.owner ho
  exact ⟨x, hx, (hi.isFor _ _ _ _ hp).2 x hx⟩

/-- So it's never returned to those who have asked for different things. -/
theorem C66_for_partial {auto : Bytes → Protocol} {s : State} (h : ReachIf (step auto) Good {} s) {i : Nat} {k k' : Kind}
    {d d' : Bytes} (h1 : IsFor i k d s.log) (h2 : IsFor i k' d' s.log) (ho : 0 < owned i s.log) : k = k' ∧ d = d' := by
  obtain ⟨x, hx, a1, a2⟩ := C66_kind_partial h h1 ho
  obtain ⟨y, hy, b1, b2⟩ := C66_kind_partial h h2 ho
  rw [hx] at hy
  cases hy
  exact ⟨a1.symm.trans b1, a2.symm.trans b2⟩

theorem new_of {auto : Bytes → Protocol} {s : State} (h : Inv s) {k : Kind} {d : Bytes} {name : Option Bytes}
    (hg : Good s (.new k d name true)) : ∃ s' i, step auto s (.new k d name true) = .ok s' ∧
      s'.log = s.log ++ [.got k d (IpcTable.protocol auto d name) i] ∧
      ((∃ x, s.sm i = some x ∧ x.kind = k ∧ x.dev = d ∧ 0 < owned i s.log ∧ s'.sm i = some { x with refs := x.refs + 1 }) ∨
       (i = s.no ∧ (∀ j x, s.sm j = some x → ¬(x.kind = k ∧ x.dev = d)) ∧ s'.sm i = some ⟨1, k, d, IpcTable.protocol auto d name⟩)) := by
  obtain ⟨hd, hcalm, hfirst⟩ := hg.2 k d name true rfl
  have h1 := h.classRef hfirst
  obtain ⟨_, _, c3, c4, c5, c6⟩ := classRef_rest s k
  obtain ⟨s', i, hs, hi, hlog, hor⟩ := h1.lookup hd (IpcTable.protocol auto d name)
    (by rw [c3]; unfold Doomed; rw [c5]; exact hcalm)
  refine ⟨s', i, ?_, ?_, ?_⟩
  · simp only [step, if_true, device_eq hd, hs]
  · rw [hlog, c6]
  · simpa only [c3, c4, c6] using hor

/-- While somebody has a reference to the manager of a certain kind for a device, gbinder_servicemanager_new returns that
one. -/
theorem C66_same_partial {auto : Bytes → Protocol} {s : State} (h : ReachIf (step auto) Good {} s) {i : Nat} {k : Kind}
    {d : Bytes} {name : Option Bytes} (hf : IsFor i k d s.log) (ho : 0 < owned i s.log) (hg : Good s (.new k d name true)) :
    ∃ s', step auto s (.new k d name true) = .ok s' ∧ s'.log = s.log ++ [.got k d (IpcTable.protocol auto d name) i] := by
  have hi := reach_inv h
  obtain ⟨x, hx, xk, xd⟩ := C66_kind_partial h hf ho
  obtain ⟨s', j, hs, hlog, ⟨y, hy, yk, yd, hoj, _⟩ | ⟨_, hn, _⟩⟩ := new_of (auto := auto) hi hg
  · have hL : ∀ a, 0 < owned a s.log → Listed s a := by
      intro a ha t ph ht
      obtain ⟨_, _, _, hnd⟩ := hi.owner ha
      exact absurd ⟨t, ph, ht⟩ hnd
    have h1 := (hi.entry k d i).2 ⟨x, hx, xk, xd, hL i ho⟩
    have h2 := (hi.entry k d j).2 ⟨y, hy, yk, yd, hL j hoj⟩
    rw [hi.keys _ _ _ _ h1 h2]
    exact ⟨s', hs, hlog⟩
  · exact absurd ⟨xk, xd⟩ (hn i x hx)

/-- There are no two of them. -/
theorem C66_one_partial {auto : Bytes → Protocol} {s : State} (h : ReachIf (step auto) Good {} s) {i j : Nat} {k : Kind}
    {d : Bytes} (h1 : IsFor i k d s.log) (h2 : IsFor j k d s.log) (hi0 : 0 < owned i s.log) (hj0 : 0 < owned j s.log) : i = j := by
  have hi := reach_inv h
  obtain ⟨x, hx, xk, xd⟩ := C66_kind_partial h h1 hi0
  obtain ⟨y, hy, yk, yd⟩ := C66_kind_partial h h2 hj0
  have hL : ∀ a, 0 < owned a s.log → Listed s a := by
    intro a ha t ph ht
    obtain ⟨_, _, _, hnd⟩ := hi.owner ha
    exact absurd ⟨t, ph, ht⟩ hnd
  exact hi.keys k d i j ((hi.entry k d i).2 ⟨x, hx, xk, xd, hL i hi0⟩) ((hi.entry k d j).2 ⟨y, hy, yk, yd, hL j hj0⟩)

/-- If nobody has a reference to a manager of this kind for this device, then a new one is created, which nobody has seen
before. It has the protocol which has been asked for. -/
theorem C66_new_partial {auto : Bytes → Protocol} {s : State} (h : ReachIf (step auto) Good {} s) {k : Kind} {d : Bytes}
    {name : Option Bytes} (hn : ∀ i, IsFor i k d s.log → owned i s.log = 0) (hg : Good s (.new k d name true)) :
    ∃ s' i, step auto s (.new k d name true) = .ok s' ∧
      s'.log = s.log ++ [.got k d (IpcTable.protocol auto d name) i] ∧ (∀ k' d', ¬IsFor i k' d' s.log) ∧
      s'.sm i = some ⟨1, k, d, IpcTable.protocol auto d name⟩ := by
  have hi := reach_inv h
  obtain ⟨s', i, hs, hlog, ⟨x, hx, xk, xd, hoi, _⟩ | ⟨hno, _, hsm⟩⟩ := new_of (auto := auto) hi hg
  · exfalso
    have := hn i ⟨x.protocol, by rw [← xk, ← xd]; exact hi.asked i x hx⟩
    omega
  · refine ⟨s', i, hs, hlog, ?_, hsm⟩
    rintro k' d' ⟨p, hm⟩
    have := (hi.isFor _ _ _ _ hm).1
    omega

/-- The protocol is the one which was asked for when the manager was created. -/
theorem C66_protocol_partial {auto : Bytes → Protocol} {f : Kind → Bytes → Protocol} {s : State}
    (h : ReachIf (step auto) (fun s l => Good s l ∧
      ∀ k d name opens, l = .new k d name opens → IpcTable.protocol auto d name = f k d) {} s) {i : Nat} {k : Kind}
    {d : Bytes} {p : Protocol} (hf : Ev.got k d p i ∈ s.log) {x : Sm} (hx : s.sm i = some x) : x.protocol = p := by
  have hg : ReachIf (step auto) Good {} s := by
    clear hf hx
    induction h with
    | init => exact .init
    | step l _ hok hs ih => exact .step l ih hok.1 hs
  have hi := reach_inv hg
  have hall : ∀ k d p i, Ev.got k d p i ∈ s.log → p = f k d := by
    clear hf hx hi hg
    induction h with
    | init => simp
    | @step s s' l h0 hok hs ih =>
      have hsame : ∀ e, s'.log = s.log ++ [e] → (∀ k d p i, e = .got k d p i → p = f k d) →
          ∀ k d p i, Ev.got k d p i ∈ s'.log → p = f k d := by
        intro e h1 h2 k d p i hm
        rw [h1] at hm
        rcases List.mem_append.1 hm with hm | hm
        · exact ih k d p i hm
        · exact h2 k d p i (List.mem_singleton.1 hm).symm
      have h0' : ReachIf (step auto) Good {} s := by
        clear ih hs hok hsame
        induction h0 with
        | init => exact .init
        | step l _ hok hs ih => exact .step l ih hok.1 hs
      have hi := reach_inv h0'
      cases l with
      | new k d name opens =>
        cases opens with
        | true =>
          obtain ⟨s'', i, h1, h2, _⟩ := new_of (auto := auto) hi hok.1
          rw [h1] at hs
          cases hs
          refine hsame _ h2 ?_
          rintro k' d' p i ⟨⟩
          exact hok.2 _ _ _ _ rfl
        | false =>
          simp only [step, Bool.false_eq_true, if_false] at hs
          cases hs
          refine hsame (.failed k d (IpcTable.protocol auto (IpcTable.device (some d)) name)) ?_ (by simp)
          simp only [State.see, (classRef_rest s k).2.2.2.2.2]
      | ref i =>
        simp only [step] at hs
        split at hs
        · cases hs
        · cases hs; exact hsame (.ref i) rfl (by simp)
      | unref t i =>
        simp only [step] at hs
        split at hs
        · cases hs
        · split at hs
          · cases hs
          · split at hs <;> cases hs <;> exact hsame (.unref i) rfl (by simp)
      | remove t =>
        simp only [step] at hs
        split at hs
        · rename_i i hd
          obtain ⟨x, hx⟩ := hi.there hd
          simp only [hx, forget] at hs
          repeat' split at hs
          all_goals first
            | cases hs; exact ih
            | (cases hs; done)
        · cases hs
      | recheck t =>
        simp only [step] at hs
        repeat' split at hs
        all_goals first
          | cases hs; exact ih
          | (cases hs; done)
      | drop t =>
        simp only [step] at hs
        split at hs
        · rename_i i hd
          split at hs
          · cases hs
          · split at hs
            · cases hs; exact ih
            · cases hs; exact hsame (.freed i) rfl (by simp)
        · cases hs
  have h1 := hall _ _ _ _ (hi.asked i x hx)
  obtain ⟨a, b⟩ := (hi.isFor _ _ _ _ hf).2 x hx
  rw [h1, hall _ _ _ _ hf, a, b]

/-! ### Examples -/

def auto (d : Bytes) : Protocol := if d = str "/dev/hwbinder" then .hidl else .aidl3

/-- A check for `Good`. -/
def goodB (s : State) : Label → Bool
  | .ref i => 0 < owned i s.log
  | .unref _ i => 0 < owned i s.log
  | .new k d _ _ => d ≠ [] && (List.range s.no).all fun i =>
      match s.sm i with
      | none => true
      | some x => (!(x.kind = k ∧ x.dev = d) || decide (0 < owned i s.log)) && (s.cls k ≠ none || parent k ≠ some x.kind)
  | _ => true

theorem goodB_sound {s : State} (h : Inv s) {l : Label} (hg : goodB s l = true) : Good s l := by
  cases l with
  | ref i => exact ⟨by simpa [goodB, Ok] using hg, by simp⟩
  | unref t i => exact ⟨by simpa [goodB, Ok] using hg, by simp⟩
  | new k d name opens =>
    refine ⟨trivial, ?_⟩
    rintro k' d' name' opens' ⟨⟩
    simp only [goodB, Bool.and_eq_true, decide_eq_true_eq, List.all_eq_true, List.mem_range] at hg
    obtain ⟨h1, h2⟩ := hg
    refine ⟨h1, ?_, ?_⟩
    · intro i x hD hx hkd
      have := h2 i (h.lt _ _ hx)
      simp only [hx, Bool.and_eq_true, Bool.or_eq_true, decide_eq_true_eq] at this
      rcases this.1 with h3 | h3
      · simp [hkd] at h3
      · rcases h.live i x hx with h4 | h4
        · exact h4.2.2 hD
        · omega
    · intro hc q hq i x hx hk
      have := h2 i (h.lt _ _ hx)
      simp only [hx, Bool.and_eq_true, Bool.or_eq_true, decide_eq_true_eq] at this
      rcases this.2 with h3 | h3
      · exact h3 hc
      · exact h3 (by rw [hq, hk])
  | remove t => exact ⟨trivial, by simp⟩
  | recheck t => exact ⟨trivial, by simp⟩
  | drop t => exact ⟨trivial, by simp⟩

def runIf (ok : State → Label → Bool) (s : State) : List Label → Option State
  | [] => some s
  | l :: ls =>
    if ok s l then
      match step auto s l with
      | .ok s' => runIf ok s' ls
      | _ => none
    else none

theorem runIf_reach {ok : State → Label → Bool} {P : State → Label → Prop} (hP : ∀ s l, ReachIf (step auto) P {} s → ok s l = true → P s l)
    {s s' : State} {ls : List Label} (h : ReachIf (step auto) P {} s) (hr : runIf ok s ls = some s') :
    ReachIf (step auto) P {} s' := by
  induction ls generalizing s with
  | nil => cases hr; exact h
  | cons l ls ih =>
    simp only [runIf] at hr
    split at hr
    · rename_i hok
      split at hr
      · rename_i s1 h1; exact ih (.step l h (hP s l h hok) h1) hr
      · cases hr
    · cases hr

theorem good_reach {s : State} {ls : List Label} (hr : runIf goodB {} ls = some s) : ReachIf (step auto) Good {} s :=
  runIf_reach (fun _ _ h hg => goodB_sound (reach_inv h) hg) .init hr

def okB (s : State) : Label → Bool
  | .ref i => 0 < owned i s.log
  | .unref _ i => 0 < owned i s.log
  | _ => true

theorem ok_reach {s : State} {ls : List Label} (hr : runIf okB {} ls = some s) : ReachIf (step auto) Ok {} s :=
  runIf_reach (fun s l _ h => by cases l <;> simpa [okB, Ok] using h) .init hr

def binder : Bytes := str "/dev/binder"
def hwbinder : Bytes := str "/dev/hwbinder"

/-- Three managers for two devices, one of which has been freed; another one is being disposed of by thread 1. -/
def sample : List Label :=
  [.new .aidl2 binder none true, .new .aidl binder none true, .new .hidl hwbinder none true, .new .aidl2 binder none true,
   .ref 2, .unref 1 1, .remove 1, .recheck 1, .drop 1, .unref 0 2, .unref 1 2, .remove 1]

example : ∃ s, ReachIf (step auto) Good {} s ∧ owned 0 s.log = 2 ∧ IsFor 0 .aidl2 binder s.log ∧ Ev.freed 1 ∈ s.log ∧
    Doomed s 2 ∧ Good s (.new .aidl2 binder none true) ∧ Good s (.new .aidl binder none true) := by
  have hc : (runIf goodB {} sample).map (fun s => decide (owned 0 s.log = 2 ∧ Ev.got .aidl2 binder .aidl3 0 ∈ s.log ∧
      Ev.freed 1 ∈ s.log ∧ s.doing 1 = some (2, .disposed)) && goodB s (.new .aidl2 binder none true) &&
        goodB s (.new .aidl binder none true)) = some true := by
    decide +kernel
  obtain ⟨s, hr, he⟩ := Option.map_eq_some_iff.1 hc
  simp only [Bool.and_eq_true, decide_eq_true_eq] at he
  obtain ⟨⟨⟨h1, h2, h3, h4⟩, h5⟩, h6⟩ := he
  have hg := good_reach hr
  exact ⟨s, hg, h1, ⟨_, h2⟩, h3, ⟨_, _, h4⟩, goodB_sound (reach_inv hg) h5, goodB_sound (reach_inv hg) h6⟩

/-- Nobody insists on a protocol. -/
def plainB (s : State) (l : Label) : Bool :=
  goodB s l && match l with
    | .new _ _ name _ => decide (name = none)
    | _ => true

example : ∃ s x, ReachIf (step auto) (fun s l => Good s l ∧
      ∀ k d name opens, l = .new k d name opens → IpcTable.protocol auto d name = auto d) {} s ∧
    Ev.got .aidl2 binder .aidl3 0 ∈ s.log ∧ s.sm 0 = some x := by
  have hc : (runIf plainB {} sample).map (fun s => decide (Ev.got .aidl2 binder .aidl3 0 ∈ s.log ∧ (s.sm 0).isSome = true)) =
      some true := by
    decide +kernel
  obtain ⟨s, hr, he⟩ := Option.map_eq_some_iff.1 hc
  obtain ⟨h1, h2⟩ := of_decide_eq_true he
  obtain ⟨x, hx⟩ := Option.isSome_iff_exists.1 h2
  refine ⟨s, x, runIf_reach (fun s l h hp => ?_) .init hr, h1, hx⟩
  simp only [plainB, Bool.and_eq_true] at hp
  have hg : ReachIf (step auto) Good {} s := by
    clear hp hc hr he h1 h2 hx
    induction h with
    | init => exact .init
    | step l _ hok hs ih => exact .step l ih hok.1 hs
  refine ⟨goodB_sound (reach_inv hg) hp.1, ?_⟩
  rintro k d name opens rfl
  have : name = none := by simpa using hp.2
  subst this
  rfl

theorem step_idle {s s' : State} {l : Label} {t : Nat} (ht : s.doing t = none) (hl : ∀ i, l ≠ .unref t i)
    (hs : step auto s l = .ok s') : s'.doing t = none := by
  have hbec : ∀ (s : State) t' x, s.doing t = none → t ≠ t' → (s.becomes t' x).doing t = none := by
    intro s t' x h1 h2
    simp only [State.becomes]
    rw [upd_ne _ _ h2]
    exact h1
  cases l with
  | new k d name opens =>
    have hc : (classRef s k).doing t = none := by rw [(classRef_rest s k).2.2.2.2.1]; exact ht
    simp only [step, lookup] at hs
    repeat' split at hs
    all_goals first
      | cases hs; exact hc
      | (cases hs; done)
  | ref i =>
    simp only [step] at hs
    split at hs <;> cases hs
    exact ht
  | unref t' i =>
    have hne : t ≠ t' := by rintro rfl; exact hl i rfl
    simp only [step] at hs
    repeat' split at hs
    all_goals first
      | cases hs; exact ht
      | cases hs; exact hbec s _ _ ht hne
      | (cases hs; done)
  | remove t' =>
    simp only [step] at hs
    split at hs
    · rename_i i hd
      have hne : t ≠ t' := by rintro rfl; rw [ht] at hd; cases hd
      simp only [forget] at hs
      repeat' split at hs
      all_goals first
        | cases hs; exact hbec _ _ _ ht hne
        | (cases hs; done)
    · cases hs
  | recheck t' =>
    simp only [step] at hs
    split at hs
    · rename_i i hd
      have hne : t ≠ t' := by rintro rfl; rw [ht] at hd; cases hd
      repeat' split at hs
      all_goals first
        | cases hs; exact hbec _ _ _ ht hne
        | (cases hs; done)
    · cases hs
  | drop t' =>
    simp only [step] at hs
    split at hs
    · rename_i i hd
      have hne : t ≠ t' := by rintro rfl; rw [ht] at hd; cases hd
      repeat' split at hs
      all_goals first
        | cases hs; exact hbec _ _ _ ht hne
        | (cases hs; done)
    · cases hs

theorem runIf_idle {ok : State → Label → Bool} {s s' : State} {ls : List Label} {t : Nat} (ht : s.doing t = none)
    (hl : ∀ l ∈ ls, ∀ i, l ≠ .unref t i) (hr : runIf ok s ls = some s') : s'.doing t = none := by
  induction ls generalizing s with
  | nil => cases hr; exact ht
  | cons l ls ih =>
    simp only [runIf] at hr
    split at hr
    · split at hr
      · rename_i s1 h1
        exact ih (step_idle ht (hl l (by simp)) h1) (fun l h => hl l (by simp [h])) hr
      · cases hr
    · cases hr

/-! ### What goes wrong -/

/-- If there's an aidl manager for a device when aidl2 (or aidl3, or aidl4) is used for the first time, then the same
manager is returned to the one who has asked for aidl2: it's not of the right kind. -/
theorem C66_fails_inherited : ∃ s, ReachIf (step auto) Ok {} s ∧ ∃ x, 0 < owned 0 s.log ∧ IsFor 0 .aidl2 binder s.log ∧
    s.sm 0 = some x ∧ x.kind = .aidl := by
  have hc : (runIf okB {} [.new .aidl binder none true, .new .aidl2 binder none true]).map (fun s =>
      decide (0 < owned 0 s.log ∧ Ev.got .aidl2 binder .aidl3 0 ∈ s.log ∧ (s.sm 0).map Sm.kind = some .aidl)) = some true := by
    decide +kernel
  obtain ⟨s, hr, he⟩ := Option.map_eq_some_iff.1 hc
  obtain ⟨h1, h2, h3⟩ := of_decide_eq_true he
  obtain ⟨x, h4, h5⟩ := Option.map_eq_some_iff.1 h3
  exact ⟨s, ok_reach hr, x, h1, ⟨_, h2⟩, h4, h5⟩

/-- And the table, which belongs to both classes, is freed by one of them and then used by the other, even if nobody does
anything at the same time as anybody else. -/
theorem C66_fails_dangling : ∃ s, ReachIf (step auto) Ok {} s ∧ (∀ i, ¬Doomed s i) ∧
    ∃ l, Ok s l ∧ step auto s l = .ub := by
  have hc : (runIf okB {} [.new .aidl binder none true, .new .aidl2 binder none true, .unref 0 0, .unref 0 0, .remove 0,
      .recheck 0, .drop 0]).map (fun s => decide (s.doing 0 = none) && (step auto s (.new .aidl2 binder none true)).isUb) = some true := by
    decide +kernel
  obtain ⟨s, hr, he⟩ := Option.map_eq_some_iff.1 hc
  simp only [Bool.and_eq_true, decide_eq_true_eq] at he
  refine ⟨s, ok_reach hr, ?_, .new .aidl2 binder none true, trivial, Out.isUb_iff.1 he.2⟩
  rintro i ⟨t, ph, ht⟩
  by_cases h0 : t = 0
  · subst h0; rw [he.1] at ht; cases ht
  · rw [runIf_idle (t := t) rfl (by simp; omega) hr] at ht
    cases ht

/-- Somebody who asks for another protocol gets a manager which uses the old one. -/
theorem C66_fails_protocol : ∃ s, ReachIf (step auto) Good {} s ∧ Ev.got .aidl binder .aidl2 0 ∈ s.log ∧
    (s.sm 0).map Sm.protocol = some .aidl3 := by
  have hc : (runIf goodB {} [.new .aidl binder none true, .new .aidl binder (some (str "aidl2")) true]).map (fun s =>
      decide (Ev.got .aidl binder .aidl2 0 ∈ s.log ∧ (s.sm 0).map Sm.protocol = some .aidl3)) = some true := by
    decide +kernel
  obtain ⟨s, hr, he⟩ := Option.map_eq_some_iff.1 hc
  exact ⟨s, good_reach hr, of_decide_eq_true he⟩

/-- A manager for the device with an empty name is never removed from the table. -/
theorem C66_fails_empty : ∃ s, ReachIf (step auto) Ok {} s ∧ Ev.freed 1 ∈ s.log ∧
    ∃ l, Ok s l ∧ step auto s l = .ub := by
  have hc : (runIf okB {} [.new .aidl hwbinder none true, .new .aidl [] none true, .unref 0 1, .remove 0, .recheck 0, .drop 0]).map
      (fun s => decide (Ev.freed 1 ∈ s.log) && (step auto s (.new .aidl [] none true)).isUb) = some true := by
    decide +kernel
  obtain ⟨s, hr, he⟩ := Option.map_eq_some_iff.1 hc
  simp only [Bool.and_eq_true, decide_eq_true_eq] at he
  exact ⟨s, ok_reach hr, he.1, .new .aidl [] none true, trivial, Out.isUb_iff.1 he.2⟩

/-- A manager which is found when its last reference is being dropped stays in the table after it has been freed: thread 1
finds it before thread 0 gets to the lock, and drops its reference before thread 0 gets to decrement the
counter. -/
theorem C66_fails_race : ∃ s, ReachIf (step auto) Ok {} s ∧ Ev.freed 0 ∈ s.log ∧
    ∃ l, Ok s l ∧ step auto s l = .ub := by
  have hc : (runIf okB {} [.new .aidl binder none true, .unref 0 0, .new .aidl binder none true, .remove 0, .unref 1 0,
      .recheck 0, .drop 0]).map
      (fun s => decide (Ev.freed 0 ∈ s.log) && (step auto s (.new .aidl binder none true)).isUb) = some true := by
    decide +kernel
  obtain ⟨s, hr, he⟩ := Option.map_eq_some_iff.1 hc
  simp only [Bool.and_eq_true, decide_eq_true_eq] at he
  exact ⟨s, ok_reach hr, he.1, .new .aidl binder none true, trivial, Out.isUb_iff.1 he.2⟩

end Gb.C66
