import Verif.Lemmas.Config
/-
C48: which protocol and which service manager is used for a device.
-/
set_option autoImplicit false

namespace Gb.C48

open Config

/-! ### Names -/

theorem lower_eq (x y : UInt8) : lower x = lower y ↔ x = y ∨
    (0x41 ≤ x ∧ x ≤ 0x5a ∧ y = x + 0x20) ∨ (0x41 ≤ y ∧ y ≤ 0x5a ∧ x = y + 0x20) := by
  have hx := x.toNat_lt
  have hy := y.toNat_lt
  unfold lower
  simp only [UInt8.le_iff_toNat_le, UInt8.reduceToNat]
  split <;> split <;> simp only [← UInt8.toNat_inj, UInt8.toNat_add, UInt8.reduceToNat] <;> omega

theorem letters {a b : Bytes} : a.map lower = b.map lower ↔ SameLetters a b := by
  induction a generalizing b with
  | nil => cases b <;> simp [SameLetters]
  | cons x a ih =>
    cases b with
    | nil => simp [SameLetters]
    | cons y b =>
      simp only [List.map_cons, List.cons.injEq, ih, lower_eq, SameLetters, List.length_cons, List.zip_cons_cons,
        List.forall_mem_cons]
      constructor
      · rintro ⟨h1, h2, h3⟩; exact ⟨by omega, h1, h3⟩
      · rintro ⟨h1, h2, h3⟩; exact ⟨h2, by omega, h3⟩

/-- The names of protocols, in any case. -/
theorem C48_protocol_names (v : Bytes) (p : Protocol) :
    findProtocol v = some p ↔ SameLetters (str (isProtocol p)) v := by
  rw [← letters]
  unfold findProtocol protocols
  constructor
  · intro h
    rw [Option.map_eq_some_iff] at h
    obtain ⟨e, he, rfl⟩ := h
    have h1 := List.find?_some he
    have h2 := List.mem_of_find?_eq_some he
    simp only [beq_iff_eq] at h1
    rw [← h1]
    simp only [List.mem_cons, List.not_mem_nil, or_false] at h2
    rcases h2 with rfl | rfl | rfl | rfl <;> rfl
  · intro h
    rw [← h]
    cases p <;> decide +kernel

example : findProtocol (str "AiDL3") = some .aidl3 := by decide +kernel

/-- The names of service managers. -/
theorem C48_manager_names (v : Bytes) (k : Client.Kind) :
    findManager v = some k ↔ v = str (isManager k) := by
  unfold findManager managers
  constructor
  · intro h
    rw [Option.map_eq_some_iff] at h
    obtain ⟨e, he, rfl⟩ := h
    have h1 := List.find?_some he
    have h2 := List.mem_of_find?_eq_some he
    simp only [beq_iff_eq] at h1
    rw [← h1]
    simp only [List.mem_cons, List.not_mem_nil, or_false] at h2
    rcases h2 with rfl | rfl | rfl | rfl | rfl <;> rfl
  · rintro rfl
    cases k <;> decide +kernel

example : findManager (str "AIDL3") = none := by decide +kernel

/-! ### Presets -/

theorem preset_protocol (n : Int) (dev : Bytes) :
    (presetValue n protocolGroup dev).bind findProtocol = protocolPreset dev n := by
  have h0 : ∀ p ∈ presets, dev ≠ str "/dev/binder" → dev ≠ str "/dev/vndbinder" →
      p.2.find? (Is protocolGroup dev) = none := by
    intro p hp h1 h2
    rw [List.find?_eq_none]
    have : ∀ p ∈ presets, ∀ e ∈ p.2, e.2.1 = str "/dev/binder" ∨ e.2.1 = str "/dev/vndbinder" := by decide +kernel
    intro e he hi
    rcases this p hp e he with h | h
    · exact h1 ((Is_iff.1 hi).2.symm.trans h)
    · exact h2 ((Is_iff.1 hi).2.symm.trans h)
  unfold presetValue protocolPreset
  have hf : presets.find? (fun p => decide (n ≥ (p.1 : Int))) =
      if n ≥ 31 then presets[0]? else if n ≥ 30 then presets[1]? else if n ≥ 29 then presets[2]?
      else if n ≥ 28 then presets[3]? else none := by
    unfold presets
    simp only [List.find?_cons, List.find?_nil]
    by_cases h1 : n ≥ 31
    · simp [h1]
    · by_cases h2 : n ≥ 30
      · simp [h1, h2]
      · by_cases h3 : n ≥ 29
        · simp [h1, h2, h3]
        · by_cases h4 : n ≥ 28 <;> simp [h1, h2, h3, h4]
  by_cases hb : dev = str "/dev/binder" ∨ dev = str "/dev/vndbinder"
  · rw [if_pos hb, hf]
    by_cases h31 : n ≥ 31
    · rw [if_pos (by omega), if_pos h31, if_neg (by omega), if_neg (by omega)]
      rcases hb with rfl | rfl <;> decide +kernel
    by_cases h30 : n ≥ 30
    · rw [if_pos (by omega), if_neg h31, if_pos h30, if_neg (by omega), if_neg (by omega)]
      rcases hb with rfl | rfl <;> decide +kernel
    by_cases h29 : n ≥ 29
    · rw [if_pos (by omega), if_neg h31, if_neg h30, if_pos h29, if_neg (by omega), if_pos (by omega)]
      rcases hb with rfl | rfl <;> decide +kernel
    by_cases h28 : n ≥ 28
    · rw [if_pos (by omega), if_neg h31, if_neg h30, if_neg h29, if_pos h28, if_pos (by omega)]
      rcases hb with rfl | rfl <;> decide +kernel
    · rw [if_neg h31, if_neg h30, if_neg h29, if_neg h28]
      have : n < 28 := by omega
      have : n < 29 := by omega
      simp [*]
  · rw [if_neg hb]
    simp only [not_or] at hb
    split
    · cases hp : presets.find? fun p => decide (n ≥ (p.1 : Int)) with
      | none => rfl
      | some p =>
        simp only [Option.bind_some, h0 p (List.mem_of_find?_eq_some hp) hb.1 hb.2]
        rfl
    · rfl

theorem preset_manager (n : Int) (dev : Bytes) :
    (presetValue n managerGroup dev).bind findManager = managerPreset dev n := by
  have h0 : ∀ p ∈ presets, dev ≠ str "/dev/binder" → dev ≠ str "/dev/vndbinder" →
      p.2.find? (Is managerGroup dev) = none := by
    intro p hp h1 h2
    rw [List.find?_eq_none]
    have : ∀ p ∈ presets, ∀ e ∈ p.2, e.2.1 = str "/dev/binder" ∨ e.2.1 = str "/dev/vndbinder" := by decide +kernel
    intro e he hi
    rcases this p hp e he with h | h
    · exact h1 ((Is_iff.1 hi).2.symm.trans h)
    · exact h2 ((Is_iff.1 hi).2.symm.trans h)
  unfold presetValue managerPreset
  have hf : presets.find? (fun p => decide (n ≥ (p.1 : Int))) =
      if n ≥ 31 then presets[0]? else if n ≥ 30 then presets[1]? else if n ≥ 29 then presets[2]?
      else if n ≥ 28 then presets[3]? else none := by
    unfold presets
    simp only [List.find?_cons, List.find?_nil]
    by_cases h1 : n ≥ 31
    · simp [h1]
    · by_cases h2 : n ≥ 30
      · simp [h1, h2]
      · by_cases h3 : n ≥ 29
        · simp [h1, h2, h3]
        · by_cases h4 : n ≥ 28 <;> simp [h1, h2, h3, h4]
  by_cases hb : dev = str "/dev/binder" ∨ dev = str "/dev/vndbinder"
  · rw [if_pos hb, hf]
    by_cases h31 : n ≥ 31
    · rw [if_pos (by omega), if_pos h31, if_neg (by omega), if_neg (by omega), if_neg (by omega)]
      rcases hb with rfl | rfl <;> decide +kernel
    by_cases h30 : n ≥ 30
    · rw [if_pos (by omega), if_neg h31, if_pos h30, if_neg (by omega), if_neg (by omega), if_pos (by omega)]
      rcases hb with rfl | rfl <;> decide +kernel
    by_cases h29 : n ≥ 29
    · rw [if_pos (by omega), if_neg h31, if_neg h30, if_pos h29, if_neg (by omega), if_pos (by omega)]
      rcases hb with rfl | rfl <;> decide +kernel
    by_cases h28 : n ≥ 28
    · rw [if_pos (by omega), if_neg h31, if_neg h30, if_neg h29, if_pos h28, if_neg (by omega), if_pos (by omega)]
      rcases hb with rfl | rfl <;> decide +kernel
    · rw [if_neg h31, if_neg h30, if_neg h29, if_neg h28]
      have : n < 28 := by omega
      have : n < 29 := by omega
      simp [*]
  · rw [if_neg hb]
    simp only [not_or] at hb
    split
    · cases hp : presets.find? fun p => decide (n ≥ (p.1 : Int)) with
      | none => rfl
      | some p =>
        simp only [Option.bind_some, h0 p (List.mem_of_find?_eq_some hp) hb.1 hb.2]
        rfl
    · rfl

/-! ### One table -/

/-- No preset says what is the default. -/
theorem preset_default (n : Int) (g : Bytes) : presetValue n g (str "Default") = none := by
  unfold presetValue
  split
  · cases hp : presets.find? fun p => decide (n ≥ (p.1 : Int)) with
    | none => rfl
    | some p =>
      have : ∀ p ∈ presets, ∀ e ∈ p.2, e.2.1 ≠ str "Default" := by decide +kernel
      have : p.2.find? (Is g (str "Default")) = none := by
        rw [List.find?_eq_none]
        intro e he hi
        exact this p (List.mem_of_find?_eq_some hp) e he (Is_iff.1 hi).2
      simp only [Option.bind_some, this]
      rfl
  · rfl

theorem actual {α : Type} {int : Bytes → Int} {known : Bytes → Option α} {g : Bytes} {preset : Bytes → Int → Option α}
    {aidl hidl : α} (hp : ∀ n dev, (presetValue n g dev).bind known = preset dev n) {fs : Fs} (hd : Distinct fs)
    (dev : Bytes) : Actual int known g preset aidl hidl fs dev
      ((table aidl hidl (load (loadFiles int fs true).1 g known)).choose dev) := by
  refine ⟨level int fs, (explicit fs g dev).bind known, (explicit fs g (str "Default")).bind known,
    if (explicit fs g dev).isSome then none else preset dev (level int fs), level_iff hd, ?_, ?_, ?_, ?_, ?_⟩
  · cases h : explicit fs g dev with
    | none => exact .inr ⟨(explicit_none hd).1 h, rfl⟩
    | some v => exact .inl ⟨v, (explicit_iff hd).1 h, rfl⟩
  · cases h : explicit fs g (str "Default") with
    | none => exact .inr ⟨(explicit_none hd).1 h, rfl⟩
    | some v => exact .inl ⟨v, (explicit_iff hd).1 h, rfl⟩
  · rintro ⟨v, hv⟩
    rw [(explicit_iff hd).2 hv]
    rfl
  · intro hn
    rw [(explicit_none hd).2 hn]
    rfl
  · rw [choose_table, get_load, get_load, get_loadFiles, get_loadFiles, preset_default]
    unfold rule
    cases h : explicit fs g dev with
    | none =>
      simp only [Option.isSome_none, Bool.false_eq_true, if_false, ← hp]
      cases explicit fs g (str "Default") <;> simp
    | some v =>
      simp only [Option.isSome_some, if_true]
      cases explicit fs g (str "Default") <;> simp

/-! ### Histories -/

/-- The files which are used: the main file isn't anymore after it was found to be broken. -/
def Seen (past : List Fs) (fs : Fs) : Prop :=
  fs ∈ past ∨ ∃ fs' ∈ past, ∃ bad ∈ past, bad.main = some none ∧ fs = { fs' with main := none }

theorem Seen.mono {a b : List Fs} (h : ∀ x ∈ a, x ∈ b) {fs : Fs} (hs : Seen a fs) : Seen b fs := by
  rcases hs with hs | ⟨f, hf, bad, hb, h1, h2⟩
  · exact .inl (h _ hs)
  · exact .inr ⟨f, h _ hf, bad, h _ hb, h1, h2⟩

structure I (int : Bytes → Int) (s : State) : Prop where
  fs : s.fs ∈ s.past
  en : s.en = false → ∃ bad ∈ s.past, bad.main = some none
  cache : s.cache ≠ none → ∃ f, Seen s.past f ∧ s.cache = (loadFiles int f true).1
  noP : s.protocols = none → ∀ dev p, Ev.protocol dev p ∉ s.log
  noM : s.managers = none → ∀ dev k, Ev.manager dev none k ∉ s.log
  p : ∀ t, s.protocols = some t → ∃ f, Seen s.past f ∧
    t = table .aidl .hidl (load (loadFiles int f true).1 protocolGroup findProtocol) ∧
    ∀ dev p, Ev.protocol dev p ∈ s.log → p = t.choose dev
  m : ∀ t, s.managers = some t → ∃ f, Seen s.past f ∧
    t = table .aidl .hidl (load (loadFiles int f true).1 managerGroup findManager) ∧
    ∀ dev k, Ev.manager dev none k ∈ s.log → k = some (t.choose dev)
  name : ∀ dev n k, Ev.manager dev (some n) k ∈ s.log → k = findManager n

theorem loadFiles_false (int : Bytes → Int) (fs : Fs) :
    (loadFiles int fs false).1 = (loadFiles int { fs with main := none } true).1 := rfl

theorem get_I {int : Bytes → Int} {s : State} (h : I int s) :
    I int (Config.get int s) ∧ (Config.get int s).past = s.past ∧ (Config.get int s).log = s.log ∧
      (Config.get int s).protocols = s.protocols ∧ (Config.get int s).managers = s.managers ∧
      ∃ f, Seen s.past f ∧ (Config.get int s).cache = (loadFiles int f true).1 := by
  unfold Config.get
  split
  · rename_i k hk
    exact ⟨h, rfl, rfl, rfl, rfl, h.cache (by rw [hk]; simp)⟩
  · have hseen : ∃ f, Seen s.past f ∧ (loadFiles int s.fs s.en).1 = (loadFiles int f true).1 := by
      cases he : s.en with
      | true => exact ⟨s.fs, .inl h.fs, rfl⟩
      | false =>
        obtain ⟨bad, hb, hm⟩ := h.en he
        exact ⟨{ s.fs with main := none }, .inr ⟨s.fs, h.fs, bad, hb, hm, rfl⟩, loadFiles_false int s.fs⟩
    refine ⟨⟨h.fs, fun he => ?_, fun _ => hseen, h.noP, h.noM, h.p, h.m, h.name⟩, rfl, rfl, rfl, rfl, hseen⟩
    have he : (loadFiles int s.fs s.en).2 = false := he
    cases hen : s.en with
    | false => exact h.en hen
    | true =>
      rw [hen] at he
      refine ⟨s.fs, h.fs, ?_⟩
      unfold loadFiles at he
      simp only [if_true] at he
      split at he
      · cases he
      · cases he
      · assumption

theorem start_I (int : Bytes → Int) (fs : Fs) : I int (start fs) :=
  ⟨List.mem_singleton.2 rfl, (fun h => by cases h), (fun h => absurd rfl h), (fun _ _ _ h => by cases h),
    (fun _ _ _ h => by cases h), (fun _ h => by cases h), (fun _ h => by cases h), (fun _ _ _ h => by cases h)⟩

theorem step_I {int : Bytes → Int} {s s' : State} {l : Label} (h : I int s) (hs : step int s l = .ok s') :
    I int s' := by
  cases l with
  | files fs =>
    cases hs
    have hm : ∀ x ∈ s.past, x ∈ s.past ++ [fs] := fun x hx => List.mem_append_left _ hx
    refine ⟨?_, fun he => ?_, fun hc => ?_, h.noP, h.noM, fun t ht => ?_, fun t ht => ?_, h.name⟩
    · exact List.mem_append_right _ (List.mem_singleton.2 rfl)
    · obtain ⟨b, hb, h1⟩ := h.en he
      exact ⟨b, hm b hb, h1⟩
    · obtain ⟨f, hf, h1⟩ := h.cache hc
      exact ⟨f, hf.mono hm, h1⟩
    · obtain ⟨f, hf, h1⟩ := h.p t ht
      exact ⟨f, hf.mono hm, h1⟩
    · obtain ⟨f, hf, h1⟩ := h.m t ht
      exact ⟨f, hf.mono hm, h1⟩
  | idle =>
    cases hs
    exact ⟨h.fs, h.en, fun hc => absurd rfl hc, h.noP, h.noM, h.p, h.m, h.name⟩
  | protocol dev =>
    simp only [step, initProtocols] at hs
    cases hp : s.protocols with
    | some t =>
      rw [hp] at hs
      cases hs
      obtain ⟨f, hf, ht, hl⟩ := h.p t hp
      refine ⟨h.fs, h.en, h.cache, fun hn => ?_, fun hn d k hm => ?_, fun t' ht' => ?_, fun t' ht' => ?_, fun d n k hm => ?_⟩
      · rw [hp] at hn; cases hn
      · rcases List.mem_append.1 hm with hm | hm
        · exact h.noM hn d k hm
        · simp at hm
      · rw [hp] at ht'; cases ht'
        refine ⟨f, hf, ht, fun d p hm => ?_⟩
        rcases List.mem_append.1 hm with hm | hm
        · exact hl d p hm
        · simp only [List.mem_singleton, Ev.protocol.injEq] at hm
          rw [hm.2, hm.1]
      · obtain ⟨f, hf, ht, hl⟩ := h.m t' ht'
        refine ⟨f, hf, ht, fun d p hm => ?_⟩
        rcases List.mem_append.1 hm with hm | hm
        · exact hl d p hm
        · simp at hm
      · rcases List.mem_append.1 hm with hm | hm
        · exact h.name d n k hm
        · simp at hm
    | none =>
      rw [hp] at hs
      cases hs
      obtain ⟨hg, h1, h2, h3, h4, f, hf, hc⟩ := get_I h
      refine ⟨hg.fs, hg.en, hg.cache, (fun hn => by cases hn), fun hn d k hm => ?_, fun t' ht' => ?_, fun t' ht' => ?_,
        fun d n k hm => ?_⟩
      · rcases List.mem_append.1 hm with hm | hm
        · exact hg.noM hn d k hm
        · simp at hm
      · cases ht'
        refine ⟨f, by rw [h1]; exact hf, by rw [hc], fun d p hm => ?_⟩
        rcases List.mem_append.1 hm with hm | hm
        · rw [h2] at hm; exact absurd hm (h.noP hp d p)
        · simp only [List.mem_singleton, Ev.protocol.injEq] at hm
          rw [hm.2, hm.1]
      · obtain ⟨f, hf, ht, hl⟩ := hg.m t' ht'
        refine ⟨f, hf, ht, fun d p hm => ?_⟩
        rcases List.mem_append.1 hm with hm | hm
        · exact hl d p hm
        · simp at hm
      · rcases List.mem_append.1 hm with hm | hm
        · exact hg.name d n k hm
        · simp at hm
  | manager dev name =>
    cases name with
    | some n =>
      cases hs
      refine ⟨h.fs, h.en, h.cache, fun hn d k hm => ?_, fun hn d k hm => ?_, fun t' ht' => ?_, fun t' ht' => ?_,
        fun d n k hm => ?_⟩
      · rcases List.mem_append.1 hm with hm | hm
        · exact h.noP hn d k hm
        · simp at hm
      · rcases List.mem_append.1 hm with hm | hm
        · exact h.noM hn d k hm
        · simp at hm
      · obtain ⟨f, hf, ht, hl⟩ := h.p t' ht'
        refine ⟨f, hf, ht, fun d p hm => ?_⟩
        rcases List.mem_append.1 hm with hm | hm
        · exact hl d p hm
        · simp at hm
      · obtain ⟨f, hf, ht, hl⟩ := h.m t' ht'
        refine ⟨f, hf, ht, fun d p hm => ?_⟩
        rcases List.mem_append.1 hm with hm | hm
        · exact hl d p hm
        · simp at hm
      · rcases List.mem_append.1 hm with hm | hm
        · exact h.name d n k hm
        · simp only [List.mem_singleton, Ev.manager.injEq, Option.some.injEq] at hm
          rw [hm.2.2, hm.2.1]
    | none =>
      simp only [step, initManagers] at hs
      cases hp : s.managers with
      | some t =>
        rw [hp] at hs
        cases hs
        obtain ⟨f, hf, ht, hl⟩ := h.m t hp
        refine ⟨h.fs, h.en, h.cache, fun hn d k hm => ?_, fun hn => ?_, fun t' ht' => ?_, fun t' ht' => ?_, fun d n k hm => ?_⟩
        · rcases List.mem_append.1 hm with hm | hm
          · exact h.noP hn d k hm
          · simp at hm
        · rw [hp] at hn; cases hn
        · obtain ⟨f, hf, ht, hl⟩ := h.p t' ht'
          refine ⟨f, hf, ht, fun d p hm => ?_⟩
          rcases List.mem_append.1 hm with hm | hm
          · exact hl d p hm
          · simp at hm
        · rw [hp] at ht'; cases ht'
          refine ⟨f, hf, ht, fun d p hm => ?_⟩
          rcases List.mem_append.1 hm with hm | hm
          · exact hl d p hm
          · simp only [List.mem_singleton, Ev.manager.injEq] at hm
            rw [hm.2.2, hm.1]
        · rcases List.mem_append.1 hm with hm | hm
          · exact h.name d n k hm
          · simp at hm
      | none =>
        rw [hp] at hs
        cases hs
        obtain ⟨hg, h1, h2, h3, h4, f, hf, hc⟩ := get_I h
        refine ⟨hg.fs, hg.en, hg.cache, fun hn d k hm => ?_, (fun hn => by cases hn), fun t' ht' => ?_, fun t' ht' => ?_,
          fun d n k hm => ?_⟩
        · rcases List.mem_append.1 hm with hm | hm
          · exact hg.noP hn d k hm
          · simp at hm
        · obtain ⟨f, hf, ht, hl⟩ := hg.p t' ht'
          refine ⟨f, hf, ht, fun d p hm => ?_⟩
          rcases List.mem_append.1 hm with hm | hm
          · exact hl d p hm
          · simp at hm
        · cases ht'
          refine ⟨f, by rw [h1]; exact hf, by rw [hc], fun d p hm => ?_⟩
          rcases List.mem_append.1 hm with hm | hm
          · rw [h2] at hm; exact absurd hm (h.noM hp d p)
          · simp only [List.mem_singleton, Ev.manager.injEq] at hm
            rw [hm.2.2, hm.1]
        · rcases List.mem_append.1 hm with hm | hm
          · exact hg.name d n k hm
          · simp at hm

theorem reach_I {int : Bytes → Int} {fs : Fs} {s : State} (h : Reach (step int) (start fs) s) : I int s :=
  h.invariant (start_I int fs) fun _ _ _ => step_I

theorem seen_distinct {past : List Fs} (hd : ∀ f ∈ past, Distinct f) {fs : Fs} (h : Seen past fs) : Distinct fs := by
  rcases h with h | ⟨f, hf, _, _, _, rfl⟩
  · exact hd fs h
  · exact hd f hf

/-- However the files change, all answers about protocols are those of one of the states the files were in
(perhaps without the main file, if it was broken): the last file which sets the key, unless there is none the preset of
the API level, the built-in value, the default which is configured, aidl. Unknown values aren't used, but presets
aren't either. -/
theorem C48_protocol {int : Bytes → Int} {fs0 : Fs} {s : State} (h : Reach (step int) (start fs0) s)
    (hd : ∀ f ∈ s.past, Distinct f) :
    ∃ fs, Seen s.past fs ∧ ∀ dev p, Ev.protocol dev p ∈ s.log →
      Actual int findProtocol (str "Protocol") protocolPreset .aidl .hidl fs dev p := by
  have hi := reach_I h
  cases hp : s.protocols with
  | none => exact ⟨s.fs, .inl hi.fs, fun dev p hm => absurd hm (hi.noP hp dev p)⟩
  | some t =>
    obtain ⟨f, hf, ht, hl⟩ := hi.p t hp
    refine ⟨f, hf, fun dev p hm => ?_⟩
    rw [hl dev p hm, ht]
    exact actual preset_protocol (seen_distinct hd hf) dev

/-- The same about service managers, unless the type is given. -/
theorem C48_manager {int : Bytes → Int} {fs0 : Fs} {s : State} (h : Reach (step int) (start fs0) s)
    (hd : ∀ f ∈ s.past, Distinct f) :
    ∃ fs, Seen s.past fs ∧ ∀ dev k, Ev.manager dev none k ∈ s.log →
      ∃ r, k = some r ∧ Actual int findManager (str "ServiceManager") managerPreset .aidl .hidl fs dev r := by
  have hi := reach_I h
  cases hp : s.managers with
  | none => exact ⟨s.fs, .inl hi.fs, fun dev p hm => absurd hm (hi.noM hp dev p)⟩
  | some t =>
    obtain ⟨f, hf, ht, hl⟩ := hi.m t hp
    refine ⟨f, hf, fun dev k hm => ⟨_, hl dev k hm, ?_⟩⟩
    rw [ht]
    exact actual preset_manager (seen_distinct hd hf) dev

/-- If the type is given, it's the one, and nothing is created if it's unknown. -/
theorem C48_explicit {int : Bytes → Int} {fs0 : Fs} {s : State} (h : Reach (step int) (start fs0) s)
    {dev name : Bytes} {k : Option Client.Kind} (hm : Ev.manager dev (some name) k ∈ s.log) (r : Client.Kind) :
    k = some r ↔ name = str (isManager r) := by
  rw [(reach_I h).name dev name k hm]
  exact C48_manager_names name r

/-! ### The property -/

/-- All the values of the key are known. -/
def AllKnown {α : Type} (known : Bytes → Option α) (fs : Fs) (g k : Bytes) : Prop :=
  (∀ f c v, IsConf fs f c → Says c g k v → (known v).isSome = true) ∧
  (∀ c v, fs.main = some (some c) → Says c g k v → (known v).isSome = true)

theorem last_known {α : Type} {known : Bytes → Option α} {fs : Fs} {g k v : Bytes} (h : AllKnown known fs g k) :
    Last (fun _ => True) fs g k v ↔ Last (fun v => (known v).isSome = true) fs g k v := by
  constructor
  · rintro (⟨f, c, hi, hv, _, hmax⟩ | ⟨c, hno, hm, hv, _⟩)
    · exact .dir f c hi hv (h.1 f c v hi hv) fun f' c' v' h1 h2 _ => hmax f' c' v' h1 h2 trivial
    · exact .main c (fun f' c' v' h1 h2 _ => hno f' c' v' h1 h2 trivial) hm hv (h.2 c v hm hv)
  · rintro (⟨f, c, hi, hv, _, hmax⟩ | ⟨c, hno, hm, hv, _⟩)
    · exact .dir f c hi hv trivial fun f' c' v' h1 h2 _ => hmax f' c' v' h1 h2 (h.1 f' c' v' h1 h2)
    · exact .main c (fun f' c' v' h1 h2 _ => hno f' c' v' h1 h2 (h.1 f' c' v' h1 h2)) hm hv trivial

theorem intended {α : Type} {int : Bytes → Int} {known : Bytes → Option α} {g : Bytes} {preset : Bytes → Int → Option α}
    {aidl hidl : α} {fs : Fs} {dev : Bytes} {r : α} (hdev : AllKnown known fs g dev)
    (hdef : AllKnown known fs g (str "Default")) (h : Actual int known g preset aidl hidl fs dev r) :
    Intended int known g preset aidl hidl fs dev r := by
  obtain ⟨n, a, d, q, hl, ha, hd, hq1, hq2, hr⟩ := h
  refine ⟨n, a, d, hl, ?_, ?_, ?_⟩
  · unfold Setting at ha ⊢
    simpa only [last_known hdev] using ha
  · unfold Setting at hd ⊢
    simpa only [last_known hdef] using hd
  · rw [hr]
    rcases ha with ⟨v, hv, rfl⟩ | ⟨hv, rfl⟩
    · have hk : (known v).isSome = true := by
        rcases (last_known hdev).1 hv with ⟨_, _, _, _, hk, _⟩ | ⟨_, _, _, _, hk⟩ <;> exact hk
      obtain ⟨x, hx⟩ := Option.isSome_iff_exists.1 hk
      rw [hx]; rfl
    · rw [hq2 hv]

/-- The protocol is the one which is set by the last file that sets it to a known value, etc., provided that no file
sets it (or the default) to an unknown one. -/
theorem C48_protocol_partial {int : Bytes → Int} {fs0 : Fs} {s : State} (h : Reach (step int) (start fs0) s)
    (hd : ∀ f ∈ s.past, Distinct f) (hk : ∀ f, Seen s.past f → ∀ key, AllKnown findProtocol f (str "Protocol") key) :
    ∃ fs, Seen s.past fs ∧ ∀ dev p, Ev.protocol dev p ∈ s.log →
      Intended int findProtocol (str "Protocol") protocolPreset .aidl .hidl fs dev p := by
  obtain ⟨fs, hs, ha⟩ := C48_protocol h hd
  exact ⟨fs, hs, fun dev p hm => intended (hk fs hs dev) (hk fs hs _) (ha dev p hm)⟩

/-- The same about service managers. -/
theorem C48_manager_partial {int : Bytes → Int} {fs0 : Fs} {s : State} (h : Reach (step int) (start fs0) s)
    (hd : ∀ f ∈ s.past, Distinct f) (hk : ∀ f, Seen s.past f → ∀ key, AllKnown findManager f (str "ServiceManager") key) :
    ∃ fs, Seen s.past fs ∧ ∀ dev k, Ev.manager dev none k ∈ s.log →
      ∃ r, k = some r ∧ Intended int findManager (str "ServiceManager") managerPreset .aidl .hidl fs dev r := by
  obtain ⟨fs, hs, ha⟩ := C48_manager h hd
  refine ⟨fs, hs, fun dev k hm => ?_⟩
  obtain ⟨r, h1, h2⟩ := ha dev k hm
  exact ⟨r, h1, intended (hk fs hs dev) (hk fs hs _) h2⟩

theorem last_unique {p : Bytes → Prop} {fs : Fs} (hd : Distinct fs) {g k v w : Bytes} (h1 : Last p fs g k v)
    (h2 : Last p fs g k w) : v = w := by
  have says : ∀ {c : KeyFile} {v w : Bytes}, Says c g k v → Says c g k w → v = w := by
    intro c v w hv hw
    have := get_says.2 hv
    rw [get_says.2 hw] at this
    simpa using this.symm
  rcases h1 with ⟨f, c, hi, hv, hp, hmax⟩ | ⟨c, hno, hm, hv, hp⟩
  · rcases h2 with ⟨f', c', hi', hv', hp', hmax'⟩ | ⟨c', hno', hm', hv', hp'⟩
    · have : f' = f := distinct_eq hd hi'.1 hi.1
        (Poll.le_antisymm _ _ (hmax f' c' w hi' hv' hp') (hmax' f c v hi hv hp))
      subst this
      have : c = c' := by have := hi.2.2.2; rw [hi'.2.2.2] at this; simpa using this.symm
      subst this
      exact says hv hv'
    · exact absurd hp (hno' f c v hi hv)
  · rcases h2 with ⟨f', c', hi', hv', hp', hmax'⟩ | ⟨c', hno', hm', hv', hp'⟩
    · exact absurd hp' (hno f' c' w hi' hv')
    · have : c = c' := by rw [hm] at hm'; simpa using hm'
      subst this
      exact says hv hv'

theorem setting_unique {α : Type} {known : Bytes → Option α} {p : Bytes → Prop} {fs : Fs} (hd : Distinct fs)
    {g k : Bytes} {a b : Option α} (h1 : Setting known p fs g k a) (h2 : Setting known p fs g k b) : a = b := by
  rcases h1 with ⟨v, hv, rfl⟩ | ⟨hn, rfl⟩
  · rcases h2 with ⟨w, hw, rfl⟩ | ⟨hn, rfl⟩
    · rw [last_unique hd hv hw]
    · exact absurd ⟨v, hv⟩ hn
  · rcases h2 with ⟨w, hw, rfl⟩ | ⟨_, rfl⟩
    · exact absurd ⟨w, hw⟩ hn
    · rfl

theorem level_unique {int : Bytes → Int} {fs : Fs} (hd : Distinct fs) {a b : Int} (h1 : Level int fs a)
    (h2 : Level int fs b) : a = b := by
  rcases h1 with ⟨v, hv, rfl⟩ | ⟨hn, rfl⟩
  · rcases h2 with ⟨w, hw, rfl⟩ | ⟨hn, rfl⟩
    · rw [last_unique hd hv hw]
    · exact absurd ⟨v, hv⟩ hn
  · rcases h2 with ⟨w, hw, rfl⟩ | ⟨_, rfl⟩
    · exact absurd ⟨w, hw⟩ hn
    · rfl

/-- There's only one answer. -/
theorem intended_unique {α : Type} {int : Bytes → Int} {known : Bytes → Option α} {g : Bytes}
    {preset : Bytes → Int → Option α} {aidl hidl : α} {fs : Fs} (hd : Distinct fs) {dev : Bytes} {r r' : α}
    (h1 : Intended int known g preset aidl hidl fs dev r) (h2 : Intended int known g preset aidl hidl fs dev r') :
    r = r' := by
  obtain ⟨n, a, d, hl, ha, hdf, rfl⟩ := h1
  obtain ⟨n', a', d', hl', ha', hdf', rfl⟩ := h2
  rw [level_unique hd hl hl', setting_unique hd ha ha', setting_unique hd hdf hdf']

/-- The actual rule has one answer, too. -/
theorem actual_unique {α : Type} {int : Bytes → Int} {known : Bytes → Option α} {g : Bytes}
    {preset : Bytes → Int → Option α} {aidl hidl : α} {fs : Fs} (hd : Distinct fs) {dev : Bytes} {r r' : α}
    (h1 : Actual int known g preset aidl hidl fs dev r) (h2 : Actual int known g preset aidl hidl fs dev r') :
    r = r' := by
  obtain ⟨n, a, d, q, hl, ha, hdf, hq1, hq2, rfl⟩ := h1
  obtain ⟨n', a', d', q', hl', ha', hdf', hq1', hq2', rfl⟩ := h2
  rw [setting_unique hd ha ha', setting_unique hd hdf hdf']
  by_cases he : ∃ v, Last (fun _ => True) fs g dev v
  · rw [hq1 he, hq1' he]
  · rw [hq2 he, hq2' he, level_unique hd hl hl']

/-- While the files don't change, the answer is the same each time, and it is the one the rule gives. -/
theorem C48_answer {int : Bytes → Int} {fs : Fs} (hd : Distinct fs) (dev : Bytes) (p : Protocol) :
    (step int (start fs) (.protocol dev)).holds (fun s => s.log == [.protocol dev p]) = true ↔
      Actual int findProtocol (str "Protocol") protocolPreset .aidl .hidl fs dev p := by
  have ha := actual (int := int) (aidl := Protocol.aidl) (hidl := .hidl) preset_protocol hd dev
  have : (step int (start fs) (.protocol dev)).holds (fun s => s.log == [.protocol dev p]) = true ↔
      (table .aidl .hidl (load (loadFiles int fs true).1 protocolGroup findProtocol)).choose dev = p := by
    simp [step, initProtocols, start, Config.get, Out.holds]
  rw [this]
  exact ⟨fun h => h ▸ ha, fun h => actual_unique hd ha h⟩

/-! ### Examples -/

/-- A number in decimal. -/
def decimal (v : Bytes) : Int := v.foldl (fun n d => n * 10 + ((d.toNat : Int) - 48)) 0

/-- API level 30 in the main file, which is overridden for one device, and the default is overridden twice. -/
def demo : Fs where
  main := some (some [(str "General", str "ApiLevel", str "30"), (str "Protocol", str "Default", str "hidl")])
  dir := [⟨str "20.conf", true, some [(str "Protocol", str "Default", str "AIDL2")]⟩, ⟨str "99.txt", true, none⟩,
    ⟨str "10.conf", true, some [(str "Protocol", str "Default", str "aidl"), (str "Protocol", str "/dev/binder", str "aidl")]⟩]

def answers (fs : Fs) (devs : List String) : Out State :=
  exec (step decimal) (start fs) (devs.flatMap fun d => [.protocol (str d), .idle, .files {}, .manager (str d) none])

instance (fs : Fs) : Decidable (Distinct fs) := by unfold Distinct; infer_instance

example : Distinct demo := by decide +kernel

example : (answers demo ["/dev/binder", "/dev/vndbinder", "/dev/hwbinder", "/dev/other"]).holds (fun s =>
    s.log == [.protocol (str "/dev/binder") .aidl, .manager (str "/dev/binder") none (some .aidl),
      .protocol (str "/dev/vndbinder") .aidl3, .manager (str "/dev/vndbinder") none (some .aidl),
      .protocol (str "/dev/hwbinder") .hidl, .manager (str "/dev/hwbinder") none (some .hidl),
      .protocol (str "/dev/other") .aidl2, .manager (str "/dev/other") none (some .aidl)]) = true := by
  decide +kernel

/-- A decision procedure for `AllKnown`. -/
theorem allKnown_check {α : Type} {known : Bytes → Option α} {fs : Fs} {g : Bytes}
    (h1 : ∀ f ∈ fs.dir, ∀ c, f.content = some c → ∀ e ∈ c, e.1 = g → (known e.2.2).isSome = true)
    (h2 : ∀ c, fs.main = some (some c) → ∀ e ∈ c, e.1 = g → (known e.2.2).isSome = true) (k : Bytes) :
    AllKnown known fs g k := by
  have key : ∀ {c : KeyFile} {v : Bytes}, Says c g k v → (g, k, v) ∈ c := by
    rintro c v ⟨b, a, rfl, _⟩
    simp
  exact ⟨fun f c v hi hv => h1 f hi.1 c hi.2.2.2 _ (key hv) rfl, fun c v hm hv => h2 c hm _ (key hv) rfl⟩

/-- The hypotheses of the partial theorem. -/
example : ∃ s, Reach (step decimal) (start demo) s ∧ (∀ f ∈ s.past, Distinct f) ∧
    (∀ f, Seen s.past f → ∀ key, AllKnown findProtocol f (str "Protocol") key) ∧ s.log ≠ [] := by
  have hne : demo.main ≠ some none := by decide +kernel
  refine ⟨_, ⟨[.protocol (str "/dev/vndbinder")], rfl⟩, ?_, ?_, ?_⟩
  · intro f hf
    have : f = demo := by simpa [step, initProtocols, start, Config.get] using hf
    subst this
    decide +kernel
  · intro f hf
    rcases hf with hf | ⟨_, _, bad, hb, hm, _⟩
    · have : f = demo := by simpa [step, initProtocols, start, Config.get] using hf
      subst this
      intro key
      refine allKnown_check ?_ ?_ key
      · intro f hf c hc
        simp only [demo, List.mem_cons, List.not_mem_nil, or_false] at hf
        rcases hf with rfl | rfl | rfl
        · cases hc; decide +kernel
        · cases hc
        · cases hc; decide +kernel
      · intro c hc
        cases hc; decide +kernel
    · have : bad = demo := by simpa [step, initProtocols, start, Config.get] using hb
      subst this
      exact absurd hm hne
  · simp [step, initProtocols, start, Config.get]

/-- The first file sets the protocol, and the second one tries to set an unknown one. -/
def hidden : Fs where
  dir := [⟨str "a.conf", true, some [(str "Protocol", str "/dev/binder", str "aidl2")]⟩,
    ⟨str "b.conf", true, some [(str "Protocol", str "/dev/binder", str "aidl9")]⟩]

theorem hidden_says {f : File} {c : KeyFile} {g k v : Bytes} (hi : IsConf hidden f c) (hv : Says c g k v) :
    g = str "Protocol" ∧ k = str "/dev/binder" ∧
      ((f.name = str "a.conf" ∧ v = str "aidl2") ∨ (f.name = str "b.conf" ∧ v = str "aidl9")) := by
  have hm := hi.1
  have hc := hi.2.2.2
  have : (g, k, v) ∈ c := by
    obtain ⟨b, a, rfl, _⟩ := hv
    simp
  simp only [hidden, List.mem_cons, List.not_mem_nil, or_false] at hm
  rcases hm with rfl | rfl
  · cases hc
    simp only [List.mem_singleton, Prod.mk.injEq] at this
    obtain ⟨rfl, rfl, rfl⟩ := this
    exact ⟨rfl, rfl, .inl ⟨rfl, rfl⟩⟩
  · cases hc
    simp only [List.mem_singleton, Prod.mk.injEq] at this
    obtain ⟨rfl, rfl, rfl⟩ := this
    exact ⟨rfl, rfl, .inr ⟨rfl, rfl⟩⟩

theorem hidden_none {p : Bytes → Prop} {g k : Bytes} (h : ¬(g = str "Protocol" ∧ k = str "/dev/binder")) :
    ¬∃ v, Last p hidden g k v := by
  rintro ⟨v, ⟨f, c, hi, hv, _⟩ | ⟨c, _, hm, _⟩⟩
  · have := hidden_says hi hv
    exact h ⟨this.1, this.2.1⟩
  · cases hm

/-- An unknown value isn't used but it hides the known one: aidl2 is what is expected, and aidl is the
answer. -/
theorem C48_fails_unknown :
    (step decimal (start hidden) (.protocol (str "/dev/binder"))).holds
        (fun s => s.log == [.protocol (str "/dev/binder") .aidl]) = true ∧
      Intended decimal findProtocol (str "Protocol") protocolPreset .aidl .hidl hidden (str "/dev/binder") .aidl2 ∧
      ¬Intended decimal findProtocol (str "Protocol") protocolPreset .aidl .hidl hidden (str "/dev/binder") .aidl := by
  have hi : Intended decimal findProtocol (str "Protocol") protocolPreset .aidl .hidl hidden (str "/dev/binder") .aidl2 := by
    refine ⟨0, some .aidl2, none, .inr ⟨hidden_none fun h => ?_, rfl⟩, .inl ⟨str "aidl2", ?_, by decide +kernel⟩,
      .inr ⟨hidden_none fun h => ?_, rfl⟩, rfl⟩
    · exact absurd h.1 (by decide +kernel)
    · refine .dir ⟨str "a.conf", true, some [(str "Protocol", str "/dev/binder", str "aidl2")]⟩ _
        ⟨by simp [hidden], rfl, ⟨str "a", by decide +kernel⟩, rfl⟩ ⟨[], [], rfl, fun e he => by cases he⟩
        (by decide +kernel) ?_
      intro f' c' v' h1 h2 h3
      rcases (hidden_says h1 h2).2.2 with ⟨hn, _⟩ | ⟨_, rfl⟩
      · show Poll.le f'.name (str "a.conf") = true
        rw [hn]; exact Poll.le_refl _
      · exact absurd h3 (by decide +kernel)
    · exact absurd h.2 (by decide +kernel)
  refine ⟨by decide +kernel, hi, fun h => ?_⟩
  have := intended_unique (by decide +kernel) hi h
  cases this

end Gb.C48
