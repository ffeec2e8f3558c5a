import Verif.Lemmas.IpcTable
/-
C51. One GBinderIpc for a device and a protocol.
-/
set_option autoImplicit false

namespace Gb.C51
open IpcTable
open Config (str)

/-- No memory is used after it has been freed, whatever the threads are doing, provided that they only use what
they have references to. -/
theorem C51_safe {auto : Bytes → Protocol} {s : State} (h : ReachIf (step auto) Ok {} s) {l : Label} (hok : Ok s l) :
    step auto s l ≠ .ub := (step_inv (reach_inv h) hok).1

/-- An object isn't freed while somebody has a reference to it. In particular, the one returned by gbinder_ipc_new is never
one which has been freed. -/
theorem C51_live {auto : Bytes → Protocol} {s : State} (h : ReachIf (step auto) Ok {} s) {i : Nat}
    (ho : 0 < owned i s.log) : Ev.freed i ∉ s.log := by
  have hi := reach_inv h
  obtain ⟨x, hx⟩ := hi.alive ho
  intro hf
  rw [(hi.freed i).1 hf |>.2] at hx
  cases hx

/-- What gbinder_ipc_new returns is for the device and the protocol which have been asked for: an object
is never for two of them. -/
theorem C51_for {auto : Bytes → Protocol} {s : State} (h : ReachIf (step auto) Ok {} s) {i : Nat} {d e : Bytes}
    {p q : Protocol} (h1 : IsFor i d p s.log) (h2 : IsFor i e q s.log) (ho : 0 < owned i s.log) : d = e ∧ p = q := by
  have hi := reach_inv h
  obtain ⟨x, hx⟩ := hi.alive ho
  obtain ⟨a1, a2⟩ := hi.isFor i x d p hx h1
  obtain ⟨b1, b2⟩ := hi.isFor i x e q hx h2
  exact ⟨a1.symm.trans b1, a2.symm.trans b2⟩

/-- It's freed when there are no more references to it, and all threads have finished dropping them. -/
theorem C51_freed {auto : Bytes → Protocol} {s : State} (h : ReachIf (step auto) Ok {} s) {i : Nat} {d : Bytes}
    {p : Protocol} (hf : IsFor i d p s.log) (ho : owned i s.log = 0) (hb : ∀ t ph, s.doing t ≠ some (i, ph)) :
    Ev.freed i ∈ s.log := by
  have hi := reach_inv h
  rw [hi.freed]
  refine ⟨hi.known d p i hf, ?_⟩
  have h1 := hi.owned i
  have hw : s.work i = 0 := by
    refine List.countP_eq_zero.2 fun b hb' => ?_
    intro he
    have he : b.2.1 = i := by simpa using he
    have := mem_doing hi.uniq (t := b.1) (y := b.2) hb'
    exact hb b.1 b.2.2 (by rw [this, ← he])
  cases hx : s.ipc i with
  | none => rfl
  | some x =>
    have := (hi.pos i x hx).1
    simp only [State.refs, hx, Option.map_some, Option.getD_some] at h1
    omega

/-- A new object is created if nobody has a reference to the one for this device and this protocol, and there's none
which is being disposed of. Nobody has seen it before. -/
theorem C51_new {auto : Bytes → Protocol} {s : State} (h : ReachIf (step auto) Ok {} s) {dev name : Option Bytes}
    (h1 : ∀ i, IsFor i (device dev) (protocol auto (device dev) name) s.log → owned i s.log = 0 ∧ ¬Doomed s i) :
    ∃ s' i, step auto s (.new dev name true) = .ok s' ∧
      s'.log = s.log ++ [.got (device dev) (protocol auto (device dev) name) i] ∧
      (∀ d p, ¬IsFor i d p s.log) ∧ Ev.freed i ∉ s.log := by
  have hi := reach_inv h
  have hn : s.lookup (makeKey (device dev) (protocol auto (device dev) name)) = none := by
    cases hl : s.lookup (makeKey (device dev) (protocol auto (device dev) name)) with
    | none => rfl
    | some i =>
      exfalso
      obtain ⟨hm, x, hx, hk⟩ := lookup_some hl
      obtain ⟨a1, a2⟩ := makeKey_inj hk
      have ha := hi.asked i x hx
      rw [a1, a2] at ha
      obtain ⟨b1, b2⟩ := h1 i ha
      have hp := (hi.pos i x hx).1
      have ho := hi.owned i
      simp only [State.refs, hx, Option.map_some, Option.getD_some] at ho
      obtain ⟨⟨t, j, ph⟩, hb, hj⟩ := List.countP_pos_iff.1 (show 0 < s.work i by omega)
      have hj : j = i := by simpa using hj
      subst hj
      by_cases hph : ph = .dispose
      · subst hph; exact b2 ⟨t, mem_doing hi.uniq hb⟩
      · exact hi.gone t j ph hb hph hm
  refine ⟨_, s.no, by simp only [step]; rw [if_pos hi.intact, hn]; simp only [if_true]; rfl, rfl, ?_, ?_⟩
  · intro d p hf
    have := hi.known d p _ hf
    omega
  · intro hf
    have := (hi.freed _).1 hf
    omega

/-! ### If nobody is looking for an object which is being disposed of -/

structure Quiet (s : State) : Prop where
  there : ∀ i, 0 < owned i s.log → i ∈ s.table
  alone : ∀ t i ph, (t, i, ph) ∈ s.busy → s.refs i = 1
  doomed : ∀ t i, (t, i, Phase.dispose) ∈ s.busy → i ∈ s.table

theorem calm_ok {auto : Bytes → Protocol} {s : State} (h : ReachIf (step auto) (Calm auto) {} s) :
    ReachIf (step auto) Ok {} s := by
  induction h with
  | init => exact .init
  | step l _ hok hs ih => exact .step l ih hok.1 hs

theorem Quiet.idle {s : State} (hi : Inv s) (hq : Quiet s) {i : Nat} (ho : 0 < owned i s.log) (t : Nat) (ph : Phase) :
    (t, i, ph) ∉ s.busy := by
  intro hm
  have h1 := hq.alone t i ph hm
  have h2 := hi.owned i
  have h3 : 0 < s.work i := List.countP_pos_iff.2 ⟨_, hm, by simp⟩
  omega

/-- One more reference to an object which no thread is disposing of. -/
theorem Quiet.more {s : State} (hq : Quiet s) {i : Nat} {x : Ipc} {e : Ev} (hi : i ∈ s.table)
    (hb : ∀ t ph, (t, i, ph) ∉ s.busy) (he : ∀ j, j ≠ i → gives j e = false ∧ takes j e = false) :
    Quiet ((s.set i (some x)).see [e]) := by
  constructor
  · intro j hj
    by_cases hji : j = i
    · rw [hji]; exact hi
    · refine hq.there j ?_
      obtain ⟨a1, a2⟩ := he j hji
      simpa [owned, State.see, State.set, List.countP_append, List.countP_cons, a1, a2] using hj
  · intro t j ph hm
    have hji : j ≠ i := fun hji => hb t ph (hji ▸ hm)
    have := hq.alone t j ph hm
    simp only [State.refs, State.see, State.set] at this ⊢
    rwa [upd_ne _ _ hji]
  · exact hq.doomed

theorem refAll_quiet {s s' : State} (hq : Quiet s) {l : List Nat} (hl : ∀ i ∈ l, i ∈ s.table)
    (hb : ∀ i ∈ l, ∀ t ph, (t, i, ph) ∉ s.busy) (hs : s.refAll l = .ok s') : Quiet s' := by
  induction l generalizing s with
  | nil => cases hs; exact hq
  | cons i l ih =>
    simp only [State.refAll] at hs
    split at hs
    · cases hs
    · refine ih (hq.more (hl i (by simp)) (hb i (by simp)) fun j hj => ?_) (fun j hj => hl j (by simp [hj]))
        (fun j hj => hb j (by simp [hj])) hs
      exact ⟨by simp [gives, hj], rfl⟩

theorem step_quiet {auto : Bytes → Protocol} {s s' : State} {l : Label} (h : Inv s) (hq : Quiet s)
    (hc : Calm auto s l) (hs : step auto s l = .ok s') : Quiet s' := by
  have h' := (step_inv (auto := auto) h hc.1).2 s' hs
  cases l with
  | new dev name opens =>
    simp only [step] at hs
    rw [if_pos h.intact] at hs
    cases hl : s.lookup (makeKey (device dev) (protocol auto (device dev) name)) with
    | some i =>
      obtain ⟨hm, x, hx, hk⟩ := lookup_some hl
      simp only [hl, hx] at hs
      cases hs
      obtain ⟨a1, a2⟩ := makeKey_inj hk
      refine hq.more hm (fun t ph hb => ?_) fun j hj => ⟨by simp [gives, hj], rfl⟩
      by_cases hph : ph = .dispose
      · subst hph
        exact hc.2 i x ⟨t, mem_doing h.uniq hb⟩ hx ⟨a1, a2⟩
      · exact h.gone t i ph hb hph hm
    | none =>
      simp only [hl] at hs
      cases opens with
      | false =>
        simp only [Bool.false_eq_true, if_false] at hs
        cases hs
        exact ⟨fun j hj => hq.there j (by
          simpa [owned, State.see, List.countP_append, List.countP_cons, gives, takes] using hj), hq.alone, hq.doomed⟩
      | true =>
        simp only [if_true] at hs
        cases hs
        have hno : s.ipc s.no = none := by
          cases hx : s.ipc s.no with
          | none => rfl
          | some x => have := (h.pos _ x hx).2; omega
        have hb : ∀ t ph, (t, s.no, ph) ∉ s.busy := by
          intro t ph hm
          obtain ⟨x, hx⟩ := h.busy_alive hm
          rw [hno] at hx; cases hx
        refine Quiet.more (s := { s with no := s.no + 1, table := s.no :: s.table })
          ⟨fun j hj => List.mem_cons_of_mem _ (hq.there j hj), hq.alone,
            fun t j hm => List.mem_cons_of_mem _ (hq.doomed t j hm)⟩ (by simp) hb fun j hj => ⟨by simp [gives, hj], rfl⟩
  | ref i =>
    have hok : 0 < owned i s.log := hc.1
    simp only [step] at hs
    split at hs
    · cases hs
    · cases hs
      exact hq.more (hq.there i hok) (hq.idle h hok) fun j hj => ⟨by simp [gives, hj], rfl⟩
  | unref t i =>
    have hok : 0 < owned i s.log := hc.1
    simp only [step] at hs
    split at hs
    · cases hs
    · rename_i hd
      split at hs
      · cases hs
      · rename_i x hx
        split at hs
        · cases hs
          refine hq.more (hq.there i hok) (hq.idle h hok) fun j hj => ⟨rfl, by simp [takes, hj]⟩
        · rename_i hr
          cases hs
          have hle : ∀ j, owned j (s.log ++ [Ev.unref i]) ≤ owned j s.log := by
            intro j
            simp only [owned, List.countP_append, List.countP_cons, List.countP_nil, gives, takes]
            simp only [Bool.false_eq_true, if_false]
            omega
          refine ⟨fun j hj => hq.there j (Nat.lt_of_lt_of_le hj (hle j)), fun t' j ph hm => ?_, fun t' j hm => ?_⟩
          · rcases mem_becomes hm with ⟨_, h1⟩ | ⟨_, h1⟩
            · cases h1
              have := (h.pos i x hx).1
              simp only [State.refs, State.see, State.becomes, hx, Option.map_some, Option.getD_some]
              omega
            · exact hq.alone t' j ph h1
          · rcases mem_becomes hm with ⟨_, h1⟩ | ⟨_, h1⟩
            · cases h1; exact hq.there i hok
            · exact hq.doomed t' j h1
  | remove t =>
    simp only [step] at hs
    split at hs
    · rename_i i hd
      have hm := doing_mem hd
      obtain ⟨x, hx⟩ := h.busy_alive hm
      simp only [hx] at hs
      rw [if_pos h.intact] at hs
      cases hs
      have hr := hq.alone t i _ hm
      have hw := h.owned i
      have hw1 : 0 < s.work i := List.countP_pos_iff.2 ⟨_, hm, by simp⟩
      have hkeep : ∀ j, j ∈ s.table → j ≠ i → j ∈ (s.forget x.key).table := by
        intro j hj hji
        exact mem_forget.2 ⟨hj, fun y hy hk => hji (h.keys j i y x hj (hq.doomed t i hm) hy hx hk)⟩
      refine ⟨fun j hj => ?_, fun t' j ph hm' => ?_, fun t' j hm' => ?_⟩
      · have hj : 0 < owned j s.log := hj
        refine hkeep j (hq.there j hj) ?_
        rintro rfl; omega
      · rcases mem_becomes hm' with ⟨_, h1⟩ | ⟨_, h1⟩
        · cases h1; exact hr
        · exact hq.alone t' j ph h1
      · rcases mem_becomes hm' with ⟨_, h1⟩ | ⟨h0, h1⟩
        · cases h1
        · refine hkeep j (hq.doomed t' j h1) ?_
          rintro rfl
          have h2 := rest_count h.uniq hm j
          simp only [if_true] at h2
          have h3 : 0 < (s.busy.filter fun b => b.1 != t).countP fun b => b.2.1 == j :=
            List.countP_pos_iff.2 ⟨(t', j, .dispose), List.mem_filter.2 ⟨h1, by simp [h0]⟩, by simp⟩
          simp only [State.work] at hw
          omega
    · cases hs
  | recheck t =>
    simp only [step] at hs
    split at hs
    · rename_i i hd
      have hm := doing_mem hd
      obtain ⟨x, hx⟩ := h.busy_alive hm
      have hr := hq.alone t i _ hm
      simp only [State.refs, hx, Option.map_some, Option.getD_some] at hr
      simp only [hx] at hs
      rw [if_neg (by omega)] at hs
      cases hs
      refine ⟨hq.there, fun t' j ph hm' => ?_, fun t' j hm' => ?_⟩
      · rcases mem_becomes hm' with ⟨_, h1⟩ | ⟨_, h1⟩
        · cases h1; exact hq.alone t i _ hm
        · exact hq.alone t' j ph h1
      · rcases mem_becomes hm' with ⟨_, h1⟩ | ⟨_, h1⟩
        · cases h1
        · exact hq.doomed t' j h1
    · cases hs
  | drop t =>
    simp only [step] at hs
    split at hs
    · rename_i i hd
      have hm := doing_mem hd
      obtain ⟨x, hx⟩ := h.busy_alive hm
      have hr := hq.alone t i _ hm
      simp only [State.refs, hx, Option.map_some, Option.getD_some] at hr
      simp only [hx] at hs
      rw [if_neg (by omega)] at hs
      cases hs
      have hw := h.owned i
      simp only [State.refs, hx, Option.map_some, Option.getD_some] at hw
      refine ⟨fun j hj => hq.there j ?_, fun t' j ph hm' => ?_, fun t' j hm' => ?_⟩
      · simpa [owned, State.see, State.set, State.becomes, List.countP_append, List.countP_cons, gives, takes] using hj
      · obtain ⟨h0, h1⟩ := mem_rest (s := s.set i none) hm'
        have hji : j ≠ i := by
          rintro rfl
          have h2 := rest_count h.uniq hm j
          simp only [if_true] at h2
          have h3 : 0 < (s.busy.filter fun b => b.1 != t).countP fun b => b.2.1 == j :=
            List.countP_pos_iff.2 ⟨(t', j, ph), List.mem_filter.2 ⟨h1, by simp [h0]⟩, by simp⟩
          simp only [State.work] at hw
          omega
        have := hq.alone t' j ph h1
        simp only [State.refs, State.see, State.set, State.becomes] at this ⊢
        rwa [upd_ne _ _ hji]
      · exact hq.doomed t' j (mem_rest (s := s.set i none) hm').2
    · cases hs
  | exit =>
    simp only [step] at hs
    rw [if_pos h.intact] at hs
    refine refAll_quiet hq (fun _ hi => hi) (fun i hi t ph hb => ?_) hs
    by_cases hph : ph = .dispose
    · subst hph; exact hc.2 i ⟨t, mem_doing h.uniq hb⟩
    · exact h.gone t i ph hb hph hi

theorem reach_quiet {auto : Bytes → Protocol} {s : State} (h : ReachIf (step auto) (Calm auto) {} s) : Quiet s := by
  induction h with
  | init => exact ⟨by simp [owned], by simp, by simp⟩
  | @step s0 s1 l h0 hok hs ih => exact step_quiet (reach_inv (calm_ok h0)) ih hok hs

/-- While somebody has a reference to the object for a device and a protocol, gbinder_ipc_new returns that object. Proved
if gbinder_ipc_new (or gbinder_ipc_exit) has never found an object in the moment between the beginning of its
disposal and its removal from the table; not otherwise, see `C51_fails_race`. -/
theorem C51_same_partial {auto : Bytes → Protocol} {s : State} (h : ReachIf (step auto) (Calm auto) {} s) {i : Nat}
    {dev name : Option Bytes} (ho : 0 < owned i s.log)
    (hf : IsFor i (device dev) (protocol auto (device dev) name) s.log) (opens : Bool) :
    ∃ s', step auto s (.new dev name opens) = .ok s' ∧
      s'.log = s.log ++ [.got (device dev) (protocol auto (device dev) name) i] := by
  have hi := reach_inv (calm_ok h)
  have hq := reach_quiet h
  obtain ⟨x, hx⟩ := hi.alive ho
  have hm := hq.there i ho
  obtain ⟨a1, a2⟩ := hi.isFor i x _ _ hx hf
  have hl : s.lookup (makeKey (device dev) (protocol auto (device dev) name)) = some i := by
    cases hl : s.lookup (makeKey (device dev) (protocol auto (device dev) name)) with
    | none => exact absurd (by rw [Ipc.key, a1, a2]) (lookup_none hl hm hx)
    | some j =>
      obtain ⟨hj, y, hy, hk⟩ := lookup_some hl
      rw [hi.keys j i y x hj hm hy hx (by rw [hk, Ipc.key, a1, a2])]
  exact ⟨_, by simp only [step]; rw [if_pos hi.intact, hl]; simp only [hx]; rfl, rfl⟩

/-- So there are no two of them. -/
theorem C51_one_partial {auto : Bytes → Protocol} {s : State} (h : ReachIf (step auto) (Calm auto) {} s) {i j : Nat}
    {d : Bytes} {p : Protocol} (h1 : IsFor i d p s.log) (h2 : IsFor j d p s.log) (hi0 : 0 < owned i s.log)
    (hj0 : 0 < owned j s.log) : i = j := by
  have hi := reach_inv (calm_ok h)
  have hq := reach_quiet h
  obtain ⟨x, hx⟩ := hi.alive hi0
  obtain ⟨y, hy⟩ := hi.alive hj0
  obtain ⟨a1, a2⟩ := hi.isFor i x d p hx h1
  obtain ⟨b1, b2⟩ := hi.isFor j y d p hy h2
  exact hi.keys i j x y (hq.there i hi0) (hq.there j hj0) hx hy (by rw [Ipc.key, Ipc.key, a1, a2, b1, b2])

/-! ### Names -/

/-- No name and an empty name mean /dev/binder, any other name is the name of a device. -/
theorem C51_device (d : Option Bytes) :
    device d = (if d = none ∨ d = some [] then str "/dev/binder" else d.getD []) := by
  cases d with
  | none => rfl
  | some d => simp [device]

/-- The protocol which has been asked for is used if there is one with such a name (see C48_protocol_names), otherwise
it's the one which is configured for the device. -/
theorem C51_protocol (auto : Bytes → Protocol) (dev : Bytes) (name : Option Bytes) :
    (∀ n p, name = some n → Config.findProtocol n = some p → protocol auto dev name = p) ∧
    ((∀ n, name = some n → Config.findProtocol n = none) → protocol auto dev name = auto dev) := by
  constructor
  · rintro n p rfl h; simp [protocol, h]
  · intro h
    cases name with
    | none => rfl
    | some n => simp [protocol, h n rfl]

/-! ### Examples -/

def auto (d : Bytes) : Protocol := if d = str "/dev/hwbinder" then .hidl else .aidl3

instance (s : State) (l : Label) : Decidable (Ok s l) := by
  cases l <;> simp only [Ok] <;> infer_instance

def runIf (s : State) : List Label → Option State
  | [] => some s
  | l :: ls =>
    if Ok s l then
      match step auto s l with
      | .ok s' => runIf s' ls
      | _ => none
    else none

theorem runIf_reach {s0 s s' : State} {ls : List Label} (h : ReachIf (step auto) Ok s0 s) (hr : runIf s ls = some s') :
    ReachIf (step auto) Ok s0 s' := by
  induction ls generalizing s with
  | nil => cases hr; exact h
  | cons l ls ih =>
    simp only [runIf] at hr
    split at hr
    · rename_i hok
      split at hr
      · rename_i s1 h1; exact ih (.step l h hok h1) hr
      · cases hr
    · cases hr

/-- No thread is waiting in gbinder_ipc_dispose when there's a lookup. -/
def calmB (s : State) (l : Label) : Bool :=
  match l with
  | .new .. | .exit => s.busy.all fun b => b.2.2 != .dispose
  | _ => true

theorem calmB_sound {s : State} {l : Label} (hok : Ok s l) (h : calmB s l = true) : Calm auto s l := by
  have hd : ∀ i, (s.busy.all fun b => b.2.2 != .dispose) = true → ¬Doomed s i := by
    rintro i ha ⟨t, ht⟩
    have := List.all_eq_true.1 ha _ (doing_mem ht)
    simp at this
  refine ⟨hok, ?_⟩
  cases l with
  | new => intro i x hdo; exact absurd hdo (hd i h)
  | exit => intro i; exact hd i h
  | _ => trivial

def runCalm (s : State) : List Label → Option State
  | [] => some s
  | l :: ls =>
    if Ok s l ∧ calmB s l = true then
      match step auto s l with
      | .ok s' => runCalm s' ls
      | _ => none
    else none

theorem runCalm_reach {s0 s s' : State} {ls : List Label} (h : ReachIf (step auto) (Calm auto) s0 s)
    (hr : runCalm s ls = some s') : ReachIf (step auto) (Calm auto) s0 s' := by
  induction ls generalizing s with
  | nil => cases hr; exact h
  | cons l ls ih =>
    simp only [runCalm] at hr
    split at hr
    · rename_i hok
      split at hr
      · rename_i s1 h1; exact ih (.step l h (calmB_sound hok.1 hok.2) h1) hr
      · cases hr
    · cases hr

instance (i : Nat) (d : Bytes) (p : Protocol) (log : List Ev) : Decidable (IsFor i d p log) :=
  inferInstanceAs (Decidable (_ ∈ _))

/-- One object for three callers, and another one for another device; then it's freed by two threads and created again. -/
def story : List Label :=
  [.new none none true, .new (some []) (some (str "AIDL3")) true, .new (some (str "/dev/binder")) (some (str "what")) true,
    .new (some (str "/dev/hwbinder")) none true, .new (some (str "/dev/nosuch")) none false, .exit,
    .unref 1 0, .unref 2 0, .unref 1 0, .unref 2 0, .unref 1 1,
    .remove 2, .recheck 2, .new none none true, .drop 2]

example : ∃ s, ReachIf (step auto) (Calm auto) {} s ∧ 0 < owned 2 s.log ∧ 0 < owned 1 s.log ∧
    IsFor 2 (device none) (protocol auto (device none) none) s.log ∧ Ev.freed 0 ∈ s.log ∧
    s.log.take 4 = [.got (str "/dev/binder") .aidl3 0, .got (str "/dev/binder") .aidl3 0,
      .got (str "/dev/binder") .aidl3 0, .got (str "/dev/hwbinder") .hidl 1] := by
  have h : (runCalm {} story).map (fun s => decide (0 < owned 2 s.log ∧ 0 < owned 1 s.log ∧
    Ev.got (device none) (protocol auto (device none) none) 2 ∈ s.log ∧ Ev.freed 0 ∈ s.log ∧
    s.log.take 4 = [.got (str "/dev/binder") .aidl3 0, .got (str "/dev/binder") .aidl3 0,
      .got (str "/dev/binder") .aidl3 0, .got (str "/dev/hwbinder") .hidl 1])) = some true := by decide +kernel
  obtain ⟨s, hs, h⟩ := Option.map_eq_some_iff.1 h
  exact ⟨s, runCalm_reach .init hs, of_decide_eq_true h⟩

/-- The hypotheses of `C51_new` and `C51_freed`, nontrivially. -/
example : ∃ s, ReachIf (step auto) Ok {} s ∧ IsFor 0 (device none) (protocol auto (device none) none) s.log ∧
    (∀ t ph, s.doing t ≠ some (0, ph)) ∧
    ∀ i, IsFor i (device none) (protocol auto (device none) none) s.log → owned i s.log = 0 ∧ ¬Doomed s i := by
  have h : (runIf {} [.new none none true, .unref 1 0, .remove 1, .recheck 1, .drop 1]).map
      (fun s => decide (s.busy = [] ∧ s.log = [.got (device none) .aidl3 0, .unref 0, .freed 0])) = some true := by
    decide +kernel
  obtain ⟨s, hs, h⟩ := Option.map_eq_some_iff.1 h
  obtain ⟨hb, hl⟩ := of_decide_eq_true h
  have hd : ∀ t, s.doing t = none := fun t => by rw [State.doing, hb]; rfl
  refine ⟨s, runIf_reach .init hs, by rw [hl]; decide +kernel, fun t ph => by rw [hd t]; simp, fun i hi => ⟨?_, ?_⟩⟩
  · rw [IsFor, hl] at hi
    simp only [List.mem_cons, Ev.got.injEq, reduceCtorEq, List.not_mem_nil, or_false] at hi
    rw [hi.2.2, hl]
    decide +kernel
  · rintro ⟨t, ht⟩
    rw [hd t] at ht
    cases ht

/-- gbinder_ipc.c:2102-2128: the object is removed from the table even if gbinder_ipc_new has just found it there. Thread 1
is about to drop the last reference, another thread gets a new one, and from now on there's an object which is
in use but not in the table. The next gbinder_ipc_new creates another object (1) for the same device and protocol. When the
first one is gone, it's the second one that's removed from the table, and the third one is created. -/
def race : List Label :=
  [.new none none true, .unref 1 0, .new none none true, .remove 1, .recheck 1, .new none none true,
   .unref 1 0, .remove 1, .recheck 1, .drop 1, .new none none true]

/-- While somebody has a reference to the object, gbinder_ipc_new may return a different one. -/
theorem C51_fails_race : ∃ s, ReachIf (step auto) Ok {} s ∧ (∀ t, s.doing t = none) ∧
    0 < owned 0 s.log ∧ 0 < owned 1 s.log ∧ IsFor 0 (str "/dev/binder") .aidl3 s.log ∧
    IsFor 1 (str "/dev/binder") .aidl3 s.log := by
  have h : (runIf {} (race.take 6)).map (fun s => decide (s.busy = [] ∧ 0 < owned 0 s.log ∧ 0 < owned 1 s.log ∧
    Ev.got (str "/dev/binder") .aidl3 0 ∈ s.log ∧ Ev.got (str "/dev/binder") .aidl3 1 ∈ s.log)) = some true := by
    decide +kernel
  obtain ⟨s, hs, h⟩ := Option.map_eq_some_iff.1 h
  obtain ⟨hb, h⟩ := of_decide_eq_true h
  exact ⟨s, runIf_reach .init hs, fun t => by rw [State.doing, hb]; rfl, h⟩

/-- And even after the object which was found at a wrong time has been freed. -/
theorem C51_fails_later : ∃ s, ReachIf (step auto) Ok {} s ∧ (∀ t, s.doing t = none) ∧ Ev.freed 0 ∈ s.log ∧
    0 < owned 1 s.log ∧ 0 < owned 2 s.log ∧ IsFor 1 (str "/dev/binder") .aidl3 s.log ∧
    IsFor 2 (str "/dev/binder") .aidl3 s.log := by
  have h : (runIf {} race).map (fun s => decide (s.busy = [] ∧ Ev.freed 0 ∈ s.log ∧ 0 < owned 1 s.log ∧
    0 < owned 2 s.log ∧
    Ev.got (str "/dev/binder") .aidl3 1 ∈ s.log ∧ Ev.got (str "/dev/binder") .aidl3 2 ∈ s.log)) = some true := by
    decide +kernel
  obtain ⟨s, hs, h⟩ := Option.map_eq_some_iff.1 h
  obtain ⟨hb, h⟩ := of_decide_eq_true h
  exact ⟨s, runIf_reach .init hs, fun t => by rw [State.doing, hb]; rfl, h⟩

end Gb.C51
