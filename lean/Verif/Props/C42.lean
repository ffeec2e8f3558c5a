import Verif.Model.Manager
/-
C42: names of HIDL services, and which registration handlers are called.
-/
set_option autoImplicit false

namespace Gb.C42

open Manager Names

/-! ### Specification -/

/-- Letters, digits and a few more. -/
def Char (c : Byte) : Prop :=
  (0x30 ≤ c ∧ c ≤ 0x39) ∨ (0x41 ≤ c ∧ c ≤ 0x5a) ∨ (0x61 ≤ c ∧ c ≤ 0x7a) ∨
  c = 0x2e ∨ c = 0x2f ∨ c = 0x3a ∨ c = 0x40

instance (c : Byte) : Decidable (Char c) := by unfold Char; infer_instance

/-- Neither empty, nor has it any other characters. -/
def Valid : Kind → Bytes → Prop
  | .aidl, _ => True
  | .hidl, s => s ≠ [] ∧ ∀ c ∈ s, Char c

/-- `s` is `i`, or `i` followed by a slash and the instance. -/
def Iface (s i : Bytes) : Prop := 0x2f ∉ i ∧ (s = i ∨ ∃ r, s = i ++ 0x2f :: r)

/-- The handler added for `a` is interested in `b`. -/
def Wants : Kind → Bytes → Bytes → Prop
  | .aidl, a, b => a = b
  | .hidl, a, b => Valid .hidl a ∧ Valid .hidl b ∧ ∃ i, Iface a i ∧ Iface b i

/-! ### Names -/

theorem allowed_iff (c : Byte) : allowed.contains c = decide (Char c) := by
  have h : ∀ i : Fin 256, allowed.contains (UInt8.ofNat i.val) = decide (Char (UInt8.ofNat i.val)) := by
    decide +kernel
  have := h ⟨c.toNat, c.toNat_lt⟩
  simpa using this

theorem takeWhile_length {p : Byte → Bool} {s : Bytes} (h : (s.takeWhile p).length = s.length) : ∀ c ∈ s, p c = true := by
  induction s with
  | nil => intro c hc; cases hc
  | cons a s ih =>
    rw [List.takeWhile_cons] at h
    split at h
    · rename_i ha
      simp only [List.length_cons, Nat.add_right_cancel_iff] at h
      intro c hc
      rcases List.mem_cons.mp hc with rfl | hc
      · exact ha
      · exact ih h c hc
    · simp at h

theorem takeWhile_self {p : Byte → Bool} {s : Bytes} (h : ∀ c ∈ s, p c = true) : s.takeWhile p = s := by
  induction s with
  | nil => rfl
  | cons a s ih =>
    rw [List.takeWhile_cons, if_pos (h a List.mem_cons_self), ih (fun c hc => h c (List.mem_cons_of_mem _ hc))]

theorem valid_iff (s : Bytes) : s.length ≠ 0 ∧ strspn s allowed = s.length ↔ Valid .hidl s := by
  unfold Valid strspn
  constructor
  · rintro ⟨h1, h2⟩
    refine ⟨by intro h; subst h; exact h1 rfl, ?_⟩
    intro c hc
    have := takeWhile_length h2 c hc
    rw [allowed_iff] at this
    exact of_decide_eq_true this
  · rintro ⟨h1, h2⟩
    refine ⟨by simpa using h1, ?_⟩
    rw [takeWhile_self]
    intro c hc
    rw [allowed_iff]
    exact decide_eq_true (h2 c hc)

theorem iface_unique {s i j : Bytes} (h : Iface s i) (h' : Iface s j) : i = j := by
  induction s generalizing i j with
  | nil =>
    obtain ⟨_, rfl | ⟨r, hr⟩⟩ := h
    · obtain ⟨_, h | ⟨r, hr⟩⟩ := h'
      · exact h
      · cases j <;> cases hr
    · cases i <;> cases hr
  | cons a s ih =>
    have key : ∀ {k}, Iface (a :: s) k → (k = [] ∧ a = 0x2f) ∨ ∃ k', k = a :: k' ∧ Iface s k' ∧ a ≠ 0x2f := by
      intro k hk
      obtain ⟨h1, h2 | ⟨r, h2⟩⟩ := hk
      · subst h2
        simp only [List.mem_cons, not_or] at h1
        exact .inr ⟨s, rfl, ⟨h1.2, .inl rfl⟩, fun hh => h1.1 hh.symm⟩
      · cases k with
        | nil => cases h2; exact .inl ⟨rfl, rfl⟩
        | cons b k =>
          cases h2
          simp only [List.mem_cons, not_or] at h1
          exact .inr ⟨k, rfl, ⟨h1.2, .inr ⟨r, rfl⟩⟩, fun hh => h1.1 hh.symm⟩
    rcases key h with ⟨rfl, ha⟩ | ⟨i', rfl, h1, h2⟩ <;> rcases key h' with ⟨rfl, ha'⟩ | ⟨j', rfl, h1', h2'⟩
    · rfl
    · exact absurd ha h2'
    · exact absurd ha' h2
    · rw [ih h1 h1']

theorem iface_normalize (s : Bytes) : Iface s (normalize s) := by
  induction s with
  | nil => exact ⟨by simp [normalize], .inl rfl⟩
  | cons a s ih =>
    unfold normalize at ih ⊢
    rw [List.takeWhile_cons]
    split
    · rename_i ha
      have ha : a ≠ slash := by simpa using ha
      refine ⟨?_, ?_⟩
      · simp only [List.mem_cons, not_or]
        exact ⟨fun hh => ha hh.symm, ih.1⟩
      · rcases ih.2 with h | ⟨r, h⟩
        · left; rw [← h]
        · right; exact ⟨r, by rw [List.cons_append, ← h]⟩
    · rename_i ha
      have ha : a = slash := by simpa using ha
      exact ⟨by simp, .inr ⟨s, by rw [ha]; rfl⟩⟩

theorem iface_self {s : Bytes} (h : slash ∉ s) : Iface s s := ⟨h, .inl rfl⟩

/-- C42: only the interface matters. -/
theorem C42_hidl (s n : Bytes) : norm .hidl s = some n ↔ Valid .hidl s ∧ Iface s n := by
  unfold norm check
  by_cases hv : s.length ≠ 0 ∧ strspn s allowed = s.length
  · have hv' := (valid_iff s).mp hv
    simp only [if_pos hv]
    by_cases hc : s.contains slash = true
    · simp only [if_pos hc]
      constructor
      · intro h; cases h; exact ⟨hv', iface_normalize s⟩
      · rintro ⟨_, h⟩; rw [iface_unique h (iface_normalize s)]
    · simp only [if_neg hc]
      have : slash ∉ s := by simpa using hc
      constructor
      · intro h; cases h; exact ⟨hv', iface_self this⟩
      · rintro ⟨_, h⟩; rw [iface_unique h (iface_self this)]
  · simp only [if_neg hv]
    constructor
    · intro h; cases h
    · rintro ⟨h, _⟩; exact absurd ((valid_iff s).mpr h) hv

/-- C42: names which are empty or have unexpected characters are refused. -/
theorem C42_refused (k : Kind) (s : Bytes) : norm k s = none ↔ ¬Valid k s := by
  cases k with
  | aidl => simp [norm, check, Valid]
  | hidl =>
    unfold norm check
    by_cases hv : s.length ≠ 0 ∧ strspn s allowed = s.length
    · have hv' := (valid_iff s).mp hv
      simp only [if_pos hv]
      by_cases hc : s.contains slash = true
      · simp only [if_pos hc]; simp [hv']
      · simp only [if_neg hc]; simp [hv']
    · simp only [if_neg hv]
      have : ¬Valid .hidl s := fun h => hv ((valid_iff s).mpr h)
      simp [this]

/-- C42: a name is the same as the one it's normalized to, unless it begins with a slash. -/
theorem C42_idempotent_partial {k : Kind} {s n : Bytes} (h : norm k s = some n) (hn : s.head? ≠ some 0x2f) :
    norm k n = some n := by
  cases k with
  | aidl => simp [norm, check]
  | hidl =>
    obtain ⟨h1, h2⟩ := (C42_hidl s n).mp h
    refine (C42_hidl n n).mpr ⟨?_, ⟨h2.1, .inl rfl⟩⟩
    refine ⟨?_, ?_⟩
    · rintro rfl
      rcases h2.2 with rfl | ⟨r, rfl⟩
      · exact h1.1 rfl
      · exact hn rfl
    · intro c hc
      rcases h2.2 with rfl | ⟨r, rfl⟩
      · exact h1.2 c hc
      · exact h1.2 c (List.mem_append_left _ hc)

/-- C42 fails: "/x" is normalized to "", which isn't a name. -/
theorem C42_fails_slash : norm .hidl [0x2f, 0x78] = some [] ∧ norm .hidl [] = none := by
  decide +kernel

example : norm .hidl "android.hardware.radio@1.0::IRadio/slot1".toUTF8.data.toList =
    some "android.hardware.radio@1.0::IRadio".toUTF8.data.toList := by decide +kernel

theorem norm_wants {k : Kind} {a b n : Bytes} (h : norm k a = some n) : norm k b = some n ↔ Wants k a b := by
  cases k with
  | aidl =>
    simp only [norm, check, Option.some.injEq] at h ⊢
    subst h
    exact eq_comm
  | hidl =>
    obtain ⟨h1, h2⟩ := (C42_hidl a n).mp h
    rw [C42_hidl]
    constructor
    · rintro ⟨h3, h4⟩; exact ⟨h1, h3, n, h2, h4⟩
    · rintro ⟨_, h3, i, h4, h5⟩
      rw [iface_unique h2 h4]
      exact ⟨h3, h5⟩

/-! ### Handlers -/

/-- What the handlers and the table have in common. -/
structure Inv (x : Mgr) : Prop where
  normal : ∀ h ∈ x.handlers, norm x.kind h.raw = some h.detail
  entry : ∀ h ∈ x.handlers, h.detail ∈ x.watches.map (·.name)

theorem mgr_upd {s : State} {m k : Nat} {y z : Mgr} (hall : ∀ m x, s.mgrs m = some x → Inv x) (hy : Inv y)
    (h : upd s.mgrs m (some y) k = some z) : Inv z := by
  unfold upd at h
  split at h
  · cases h; exact hy
  · exact hall k z h

theorem reanimate_mgrs (s : State) (m : Nat) (ok : Bool) : (s.reanimate m ok).mgrs = s.mgrs := by
  unfold State.reanimate; split <;> rfl

theorem removeTimer_mgrs {s s' : State} {c : Option Nat} (h : s.removeTimer c = .ok s') : s'.mgrs = s.mgrs := by
  cases c <;> simp only [State.removeTimer] at h <;> (repeat' split at h) <;> cases h <;> rfl

theorem Inv.same {x y : Mgr} (h : Inv x) (hk : y.kind = x.kind) (hh : ∀ a ∈ y.handlers, a ∈ x.handlers)
    (hw : ∀ n, n ∈ x.watches.map (·.name) → n ∈ y.watches.map (·.name)) : Inv y :=
  ⟨fun a ha => by rw [hk]; exact h.normal a (hh a ha), fun a ha => hw _ (h.entry a (hh a ha))⟩

theorem Inv.added {x y : Mgr} {a : Handler} (h : Inv x) (hk : y.kind = x.kind) (hh : y.handlers = x.handlers ++ [a])
    (hn : norm x.kind a.raw = some a.detail)
    (hw : ∀ n, n ∈ x.watches.map (·.name) → n ∈ y.watches.map (·.name)) (hd : a.detail ∈ y.watches.map (·.name)) :
    Inv y := by
  refine ⟨?_, ?_⟩
  · intro b hb
    rw [hh] at hb
    rw [hk]
    rcases List.mem_append.mp hb with hb | hb
    · exact h.normal b hb
    · cases List.mem_singleton.mp hb; exact hn
  · intro b hb
    rw [hh] at hb
    rcases List.mem_append.mp hb with hb | hb
    · exact hw _ (h.entry b hb)
    · cases List.mem_singleton.mp hb; exact hd

theorem ensure_names (ws : List Watch) (name : Bytes) :
    (∀ n, n ∈ ws.map (·.name) → n ∈ (ensure ws name).map (·.name)) ∧ name ∈ (ensure ws name).map (·.name) := by
  unfold ensure
  split
  · rename_i h
    exact ⟨fun _ => id, by simpa using h⟩
  · exact ⟨fun n h => by rw [List.map_append]; exact List.mem_append_left _ h, by simp⟩

theorem map_names {ws : List Watch} {f : Watch → Watch} (h : ∀ w, (f w).name = w.name) :
    (ws.map f).map (·.name) = ws.map (·.name) := by
  rw [List.map_map]
  exact List.map_congr_left fun w _ => h w

theorem unused_names (hs : List Handler) (k : Nat) (ws : List Watch) :
    (unwatchUnused hs k ws).2.map (·.name) = ws.map (·.name) := by
  induction ws generalizing k with
  | nil => cases k <;> rfl
  | cons w ws ih =>
    cases k with
    | zero => rfl
    | succ k =>
      unfold unwatchUnused
      split
      · simp only [List.map_cons]; rw [ih]
      · simp only [List.map_cons]; rw [ih]

theorem reanimated_inv {s s' : State} {m : Nat} {x : Mgr} {watch : Bytes → Bool}
    (hall : ∀ m x, s.mgrs m = some x → Inv x) (hx : Inv x) (hs : s.reanimated m x watch = .ok s') :
    ∀ m x, s'.mgrs m = some x → Inv x := by
  unfold State.reanimated at hs
  split at hs
  · rename_i s1 hr
    cases hs
    intro k y hy
    simp only [State.add, State.set] at hy
    refine mgr_upd (s := s1) (m := m) (k := k) ?_ ?_ hy
    · rw [removeTimer_mgrs hr]; exact hall
    · exact hx.same rfl (fun _ => id) (fun n h => by simp only [rearm]; rw [map_names (f := fun w => { w with watched := watch w.name }) (fun _ => rfl)]; exact h)
  · cases hs
  · cases hs

theorem inv_step {s s' : State} {l : Label} (hall : ∀ m x, s.mgrs m = some x → Inv x)
    (hs : step s l = .ok s') : ∀ m x, s'.mgrs m = some x → Inv x := by
  cases l with
  | create m kind ok tid =>
    simp only [step] at hs
    split at hs
    · cases hs
    · have hy : Inv { kind := kind } := ⟨by simp, by simp⟩
      have hy' : Inv { kind := kind, check := some tid, delay := waitMin } := ⟨by simp, by simp⟩
      cases hs
      intro k y h
      split at h
      · simp only [State.checkStart, State.add, State.set, reanimate_mgrs] at h
        refine mgr_upd (s := { s with mgrs := upd s.mgrs m (some { kind := kind }) }) (fun i z hz => mgr_upd hall hy hz) hy' h
      · simp only [State.add, reanimate_mgrs, State.set] at h
        exact mgr_upd hall hy h
  | die =>
    simp only [step] at hs
    split at hs
    · cases hs
    · cases hs; exact hall
  | died tid =>
    simp only [step] at hs
    (repeat' split at hs) <;> cases hs
    rename_i x hx
    intro k y h
    refine mgr_upd (s := s) (k := k) hall ?_ h
    exact (hall _ x hx).same rfl (fun _ => id) (fun n h => by
      simp only [unwatchAll]; rw [map_names (f := fun w => { w with watched := false }) (fun _ => rfl)]; exact h)
  | fire t ok tid watch =>
    simp only [step] at hs
    split at hs
    · cases hs
    · split at hs
      · cases hs
      · rename_i x hx
        split at hs
        · refine reanimated_inv ?_ ?_ hs
          · intro m y h
            simp only [State.dropTimer, reanimate_mgrs] at h
            exact hall m y h
          · exact (hall _ x hx).same rfl (fun _ => id) (fun _ => id)
        · split at hs
          · cases hs
            intro k y h
            simp only [State.add, State.set, State.dropTimer, reanimate_mgrs] at h
            refine mgr_upd (s := s) hall ?_ h
            exact (hall _ x hx).same rfl (fun _ => id) (fun _ => id)
          · cases hs
            intro k y h
            simp only [State.add, reanimate_mgrs] at h
            exact hall k y h
  | wait m ok watch =>
    simp only [step] at hs
    split at hs
    · cases hs
    · split at hs
      · cases hs
      · rename_i x hx
        split at hs
        · cases hs; exact hall
        · split at hs
          · refine reanimated_inv ?_ (hall _ x hx) hs
            intro k y h
            rw [reanimate_mgrs] at h
            exact hall k y h
          · cases hs
            intro k y h
            rw [reanimate_mgrs] at h
            exact hall k y h
  | addHandler m raw id ok =>
    simp only [step] at hs
    split at hs
    · cases hs
    · split at hs
      · cases hs
      · rename_i x hx
        split at hs
        · cases hs
        · split at hs
          · cases hs; exact hall
          · rename_i name hn
            have he := ensure_names x.watches name
            split at hs
            · cases hs
              intro k y h
              refine mgr_upd (s := s) hall ?_ h
              exact (hall _ x hx).added rfl rfl hn he.1 he.2
            · cases hs
              intro k y h
              refine mgr_upd (s := s) hall ?_ h
              have hmap : ((ensure x.watches name).map fun w => if w.name = name then { w with watched := ok } else w).map (·.name)
                  = (ensure x.watches name).map (·.name) := map_names (fun w => by split <;> rfl)
              exact (hall _ x hx).added rfl rfl hn (fun n h => by rw [hmap]; exact he.1 n h) (by rw [hmap]; exact he.2)
  | addPresence m id =>
    simp only [step] at hs
    (repeat' split at hs) <;> cases hs
    rename_i x hx _
    intro k y h
    refine mgr_upd (s := s) hall ?_ h
    exact (hall _ x hx).same rfl (fun _ => _root_.id) (fun _ => _root_.id)
  | removeHandlers m ids =>
    simp only [step] at hs
    (repeat' split at hs) <;> cases hs
    rename_i x hx
    intro k y h
    refine mgr_upd (s := s) hall ?_ h
    exact (hall _ x hx).same rfl (fun a ha => (List.mem_filter.mp ha).1) (fun n h => by
      simp only [unused_names]; exact h)
  | registered m name =>
    simp only [step] at hs
    (repeat' split at hs) <;> cases hs <;> exact hall
  | rehash m ws =>
    simp only [step] at hs
    (repeat' split at hs) <;> cases hs
    rename_i x hx hp
    intro k y h
    refine mgr_upd (s := s) hall ?_ h
    have hperm := (List.isPerm_iff.mp hp).map (fun w : Watch => w.name)
    exact (hall _ x hx).same rfl (fun _ => id) (fun n h => hperm.mem_iff.mpr h)
  | free m =>
    simp only [step] at hs
    split at hs
    · cases hs
    · split at hs
      · cases hs
      · split at hs
        · rename_i hr
          cases hs
          intro k y h
          simp only [removeTimer_mgrs hr] at h
          unfold upd at h
          split at h
          · cases h
          · exact hall k y h
        · cases hs
        · cases hs

theorem inv_reach {s : State} (h : Reach step {} s) : ∀ m x, s.mgrs m = some x → Inv x := by
  refine Reach.invariant (P := fun s => ∀ m x, s.mgrs m = some x → Inv x) ?_ (fun s l s' hg hs => inv_step hg hs) h
  intro m x hm
  cases hm

/-- C42: when something has been registered, those handlers are called which are interested in it, and no
others, no matter what has happened before. -/
theorem C42_delivered {s s' : State} (h : Reach step {} s) {m : Nat} {x : Mgr} (hm : s.mgrs m = some x)
    {name : Bytes} (hs : step s (.registered m name) = .ok s') :
    ∃ ids, s'.log = s.log ++ [.registered m name ids] ∧ s'.mgrs = s.mgrs ∧
      List.Sublist ids (x.handlers.map (·.id)) ∧
      (∀ a ∈ x.handlers, Wants x.kind a.raw name → a.id ∈ ids) ∧
      ∀ id ∈ ids, ∃ a ∈ x.handlers, a.id = id ∧ Wants x.kind a.raw name := by
  have hi := inv_reach h m x hm
  simp only [step, hm] at hs
  split at hs
  · cases hs
  · split at hs
    · rename_i w hw
      cases hs
      obtain ⟨n, hn, hf⟩ := Option.bind_eq_some_iff.mp hw
      have hname : w.name = n := by simpa using List.find?_some hf
      have key : ∀ a ∈ x.handlers, a.detail = w.name ↔ Wants x.kind a.raw name := by
        intro a ha
        rw [← norm_wants (hi.normal a ha), hn, hname]
        simp [eq_comm]
      refine ⟨_, rfl, rfl, List.Sublist.map _ List.filter_sublist, ?_, ?_⟩
      · intro a ha hwant
        exact List.mem_map.mpr ⟨a, List.mem_filter.mpr ⟨ha, by simpa using (key a ha).mpr hwant⟩, rfl⟩
      · intro id hid
        obtain ⟨a, ha, rfl⟩ := List.mem_map.mp hid
        obtain ⟨h1, h2⟩ := List.mem_filter.mp ha
        exact ⟨a, h1, rfl, (key a h1).mp (by simpa using h2)⟩
    · rename_i hw
      cases hs
      refine ⟨_, rfl, rfl, by simp, ?_, by simp⟩
      intro a ha hwant
      exfalso
      have hn := (norm_wants (hi.normal a ha)).mpr hwant
      rw [hn] at hw
      simp only [Option.bind_some] at hw
      obtain ⟨w, hw1, hw2⟩ := List.mem_map.mp (hi.entry a ha)
      have := List.find?_eq_none.mp hw w hw1
      simp [hw2] at this

/-- C42: handlers aren't added for the names which aren't valid. -/
theorem C42_add {s s' : State} {m : Nat} {x : Mgr} (hm : s.mgrs m = some x) {raw : Bytes} {id : Nat} {ok : Bool}
    (hs : step s (.addHandler m raw id ok) = .ok s') :
    ∃ y, s'.mgrs m = some y ∧
      y.handlers.map (fun a => (a.id, a.raw)) =
        if norm x.kind raw = none then x.handlers.map (fun a => (a.id, a.raw))
        else x.handlers.map (fun a => (a.id, a.raw)) ++ [(id, raw)] := by
  simp only [step, hm] at hs
  split at hs
  · cases hs
  · split at hs
    · cases hs
    · split at hs
      · rename_i hn; cases hs; exact ⟨x, hm, by rw [if_pos hn]⟩
      · rename_i name hn
        split at hs <;>
        · cases hs
          refine ⟨_, by simp only [State.add, State.set]; rw [upd_same], ?_⟩
          rw [if_neg (by rw [hn]; simp)]
          simp

/-! ### Example -/

def iface : Bytes := [0x49, 0x41]
def inst1 : Bytes := [0x49, 0x41, 0x2f, 0x31]
def inst2 : Bytes := [0x49, 0x41, 0x2f, 0x32]
def other : Bytes := [0x49, 0x42, 0x2f, 0x31]

/-- Handlers for an instance, for the interface and for something else; another instance is registered. -/
example : (exec step {} [.create 0 .hidl true 10, .addHandler 0 inst1 1 true, .addHandler 0 iface 2 true,
    .addHandler 0 other 3 true, .addHandler 0 [0x20] 4 true, .registered 0 inst2]).holds fun s =>
      s.log == [.ping 0 true, .created 0 true, .watch 0 iface true, .watch 0 [0x49, 0x42] true,
        .registered 0 inst2 [1, 2]] := by decide +kernel

end Gb.C42
