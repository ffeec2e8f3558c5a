import Verif.Lemmas.Manager
import Verif.Props.C40
/-
C41: the service manager is asked to watch a name if (and only if) the application wants to know about it.
-/
set_option autoImplicit false

namespace Gb.C41

open Manager Names

theorem watch_append (m : Nat) (n : Bytes) (a b : List Ev) :
    lastWatch m n (a ++ b) = b.foldl (lastWatch1 m n) (lastWatch m n a) := by
  simp [lastWatch, List.foldl_append]

/-- Events which have nothing to do with the name. -/
def Other (m : Nat) (n : Bytes) : Ev → Bool
  | .created m' _ => m' != m
  | .watch m' n' _ => m' != m || n' != n
  | .unwatch m' n' => m' != m || n' != n
  | _ => true

theorem other_watch {m : Nat} {n : Bytes} {es : List Ev} (h : es.all (Other m n) = true) (a : Option Bool) :
    es.foldl (lastWatch1 m n) a = a := by
  induction es generalizing a with
  | nil => rfl
  | cons e es ih =>
    simp only [List.all_cons, Bool.and_eq_true] at h
    simp only [List.foldl_cons]
    have : lastWatch1 m n a e = a := by
      cases e <;> simp only [lastWatch1] <;> simp only [Other] at h <;> grind
    rw [this]
    exact ih h.2 a

theorem unwatch_fold {m : Nat} {n : Bytes} {ns : List Bytes} (a : Option Bool) :
    (ns.map fun n => Ev.unwatch m n).foldl (lastWatch1 m n) a = if n ∈ ns then none else a := by
  induction ns generalizing a with
  | nil => rfl
  | cons k ns ih =>
    simp only [List.map_cons, List.foldl_cons]
    rw [ih]
    simp only [lastWatch1, List.mem_cons]
    grind

theorem watch_fold {m : Nat} {n : Bytes} {ns : List Bytes} (f : Bytes → Bool) (a : Option Bool) :
    (ns.map fun n => Ev.watch m n (f n)).foldl (lastWatch1 m n) a = if n ∈ ns then some (f n) else a := by
  induction ns generalizing a with
  | nil => rfl
  | cons k ns ih =>
    simp only [List.map_cons, List.foldl_cons]
    rw [ih]
    simp only [lastWatch1, List.mem_cons]
    grind

def names (ws : List Watch) : List Bytes := ws.map (·.name)

/-- What has been proved about the table and the log. -/
structure Inv (m : Nat) (ph : Phase) (x : Mgr) (log : List Ev) : Prop where
  nodup : (names x.watches).Nodup
  ids : (x.handlers.map (·.id)).Nodup
  watched : ∀ w ∈ x.watches, (w.watched = true ↔ lastWatch m w.name log = some true)
  unknown : ∀ n, n ∉ names x.watches → lastWatch m n log = none
  down : ph = .down → ∀ w ∈ x.watches, w.watched = false
  entry : ∀ h ∈ x.handlers, h.detail ∈ names x.watches
  tried : ph ≠ .down → ∀ h ∈ x.handlers, lastWatch m h.detail log ≠ none
  normal : ∀ h ∈ x.handlers, norm x.kind h.raw = some h.detail

theorem names_ensure (ws : List Watch) (n : Bytes) :
    names (ensure ws n) = if n ∈ names ws then names ws else names ws ++ [n] := by
  unfold ensure names
  split
  · rename_i h
    rw [if_pos]
    simpa using h
  · rename_i h
    rw [if_neg]
    · simp
    · simpa using h

theorem mem_ensure {ws : List Watch} {n : Bytes} {w : Watch} :
    w ∈ ensure ws n ↔ w ∈ ws ∨ (n ∉ names ws ∧ w = ⟨n, false⟩) := by
  unfold ensure names
  split
  · rename_i h
    simp at h
    grind
  · rename_i h
    simp at h
    grind

theorem ensure_nodup {ws : List Watch} {n : Bytes} (h : (names ws).Nodup) : (names (ensure ws n)).Nodup := by
  rw [names_ensure]
  split
  · exact h
  · rename_i hn
    rw [List.nodup_append]
    exact ⟨h, by simp, by grind⟩

theorem mem_names {ws : List Watch} {n : Bytes} : n ∈ names ws ↔ ∃ w ∈ ws, w.name = n := by
  simp [names]

theorem names_unused (hs : List Handler) (k : Nat) (ws : List Watch) :
    names (unwatchUnused hs k ws).2 = names ws := by
  induction ws generalizing k with
  | nil => cases k <;> rfl
  | cons w ws ih =>
    cases k with
    | zero => rfl
    | succ k =>
      unfold unwatchUnused
      split
      · simp only [names, List.map_cons] at ih ⊢; rw [ih]
      · simp only [names, List.map_cons] at ih ⊢; rw [ih]

/-- What becomes of each entry. -/
theorem unused_mem (hs : List Handler) {k : Nat} {ws : List Watch} (hn : (names ws).Nodup) {w : Watch}
    (h : w ∈ (unwatchUnused hs k ws).2) :
    (w ∈ ws ∧ w.name ∉ (unwatchUnused hs k ws).1) ∨
    (w.watched = false ∧ ⟨w.name, true⟩ ∈ ws ∧ w.name ∈ (unwatchUnused hs k ws).1 ∧
      ∀ h ∈ hs, h.detail ≠ w.name) := by
  induction ws generalizing k with
  | nil => cases k <;> cases h
  | cons a ws ih =>
    have hsub : ∀ k n, n ∈ (unwatchUnused hs k ws).1 → n ∈ names ws := by
      clear ih h hn
      induction ws with
      | nil => intro k n; cases k <;> exact fun h => by cases h
      | cons b ws ih =>
        intro k n
        cases k with
        | zero => intro h; cases h
        | succ k =>
          unfold unwatchUnused
          split
          · intro h
            rcases List.mem_cons.mp h with rfl | h
            · simp [names]
            · have := ih k n h
              exact List.mem_cons_of_mem _ this
          · intro h
            have := ih (k + 1) n h
            exact List.mem_cons_of_mem _ this
    have hn' : (names ws).Nodup ∧ a.name ∉ names ws := by
      simp only [names, List.map_cons, List.nodup_cons] at hn
      exact ⟨hn.2, hn.1⟩
    cases k with
    | zero => exact .inl ⟨h, by unfold unwatchUnused; simp⟩
    | succ k =>
      unfold unwatchUnused at h ⊢
      split at h
      · rename_i hc
        rw [if_pos hc]
        rcases List.mem_cons.mp h with rfl | h
        · refine .inr ⟨rfl, ?_, List.mem_cons_self, ?_⟩
          · have : a = ⟨a.name, true⟩ := by cases a; simp at hc ⊢; exact hc.1
            rw [← this]
            exact List.mem_cons_self
          · have := hc.2
            simp at this
            exact this
        · have hne : w.name ≠ a.name := by
            intro he
            apply hn'.2
            rw [← he, ← names_unused hs k ws]
            exact List.mem_map_of_mem h
          rcases ih hn'.1 h with ⟨h1, h2⟩ | ⟨h1, h2, h3, h4⟩
          · exact .inl ⟨List.mem_cons_of_mem _ h1, by simp only [List.mem_cons]; grind⟩
          · exact .inr ⟨h1, List.mem_cons_of_mem _ h2, List.mem_cons_of_mem _ h3, h4⟩
      · rename_i hc
        rw [if_neg hc]
        rcases List.mem_cons.mp h with rfl | h
        · refine .inl ⟨List.mem_cons_self, fun hh => hn'.2 (hsub _ _ hh)⟩
        · rcases ih hn'.1 h with ⟨h1, h2⟩ | ⟨h1, h2, h3, h4⟩
          · exact .inl ⟨List.mem_cons_of_mem _ h1, h2⟩
          · exact .inr ⟨h1, List.mem_cons_of_mem _ h2, h3, h4⟩

/-- The names which have been unwatched, were watched and there are no handlers for those. -/
theorem unused_fst (hs : List Handler) {k : Nat} {ws : List Watch} {n : Bytes} (h : n ∈ (unwatchUnused hs k ws).1) :
    ⟨n, true⟩ ∈ ws ∧ ∀ h ∈ hs, h.detail ≠ n := by
  induction ws generalizing k with
  | nil => cases k <;> cases h
  | cons a ws ih =>
    cases k with
    | zero => cases h
    | succ k =>
      unfold unwatchUnused at h
      split at h
      · rename_i hc
        rcases List.mem_cons.mp h with rfl | h
        · refine ⟨?_, ?_⟩
          · have : a = ⟨a.name, true⟩ := by cases a; simp at hc ⊢; exact hc.1
            rw [← this]
            exact List.mem_cons_self
          · have := hc.2
            simp at this
            exact this
        · exact ⟨List.mem_cons_of_mem _ (ih h).1, (ih h).2⟩
      · exact ⟨List.mem_cons_of_mem _ (ih h).1, (ih h).2⟩

theorem same_name {ws : List Watch} (hn : (names ws).Nodup) {a b : Watch} (ha : a ∈ ws) (hb : b ∈ ws)
    (h : a.name = b.name) : a = b := by
  induction ws with
  | nil => cases ha
  | cons w ws ih =>
    simp only [names, List.map_cons, List.nodup_cons] at hn
    rcases List.mem_cons.mp ha with rfl | ha' <;> rcases List.mem_cons.mp hb with rfl | hb'
    · rfl
    · exact absurd (List.mem_map.mpr ⟨b, hb', h.symm⟩) hn.1
    · exact absurd (List.mem_map.mpr ⟨a, ha', h⟩) hn.1
    · exact ih hn.2 ha' hb'

theorem filter_ids {hs : List Handler} (h : (hs.map (·.id)).Nodup) (p : Handler → Bool) :
    ((hs.filter p).map (·.id)).Nodup :=
  List.Sublist.nodup (List.Sublist.map _ List.filter_sublist) h

theorem add_ids {hs : List Handler} {a : Handler} (h : (hs.map (·.id)).Nodup)
    (hf : hs.any (fun h => h.id == a.id) = false) : ((hs ++ [a]).map (·.id)).Nodup := by
  simp only [List.map_append, List.map_cons, List.map_nil]
  rw [List.nodup_append]
  refine ⟨h, by simp, ?_⟩
  simp at hf
  grind

theorem inv_trans {m : Nat} {ph ph' : Phase} {x x' : Mgr} {log es : List Ev} (hi : Inv m ph x log)
    (ht : Trans m ph x es ph' x') : Inv m ph' x' (log ++ es) := by
  cases ht with
  | stay => simpa using hi
  | die => 
    rw [List.append_nil]
    exact ⟨hi.nodup, hi.ids, hi.watched, hi.unknown, fun h => (by cases h), hi.entry, fun _ => hi.tried (by simp), hi.normal⟩
  | died c =>
    have hfold : ∀ n, lastWatch m n (log ++ (.armed m 100 :: (((x.watches.filter (·.watched)).map
        fun w => Ev.unwatch m w.name) ++ [.presence m false]))) =
        if n ∈ names (x.watches.filter (·.watched)) then none else lastWatch m n log := by
      intro n
      rw [watch_append]
      simp only [List.foldl_cons, List.foldl_append, List.foldl_nil, lastWatch1]
      have := unwatch_fold (m := m) (n := n) (ns := names (x.watches.filter (·.watched))) (lastWatch m n log)
      simp only [names, List.map_map] at this ⊢
      exact this
    have hnames : names (unwatchAll x.watches) = names x.watches := by
      simp [names, unwatchAll, Function.comp_def]
    refine ⟨by simpa only [hnames] using hi.nodup, hi.ids, ?_, ?_, ?_, by simpa only [hnames] using hi.entry,
      fun h => absurd rfl h, hi.normal⟩
    · intro w hw
      simp only [unwatchAll, List.mem_map] at hw
      obtain ⟨a, ha, rfl⟩ := hw
      simp only [Bool.false_eq_true, false_iff]
      rw [hfold]
      split
      · simp
      · rename_i hne
        intro hc
        apply hne
        rw [mem_names]
        exact ⟨a, List.mem_filter.mpr ⟨ha, (hi.watched a ha).mpr hc⟩, rfl⟩
    · intro n hn
      rw [hfold]
      split
      · rfl
      · simp only [hnames] at hn
        exact hi.unknown n hn
    · intro _ w hw
      simp only [unwatchAll, List.mem_map] at hw
      obtain ⟨a, ha, rfl⟩ := hw
      rfl
  | retry c =>
    have hw : ∀ n, lastWatch m n (log ++ [.ping m false, .armed m (min (x.delay + 100) 1000)]) = lastWatch m n log := by
      intro n; rw [watch_append]; rfl
    refine ⟨hi.nodup, hi.ids, ?_, ?_, hi.down, hi.entry, ?_, hi.normal⟩
    · intro w h; rw [hw]; exact hi.watched w h
    · intro n h; rw [hw]; exact hi.unknown n h
    · intro h; exact absurd rfl h
  | timeout =>
    have hw : ∀ n, lastWatch m n (log ++ [.ping m false]) = lastWatch m n log := by
      intro n; rw [watch_append]; rfl
    refine ⟨hi.nodup, hi.ids, ?_, ?_, hi.down, hi.entry, ?_, hi.normal⟩
    · intro w h; rw [hw]; exact hi.watched w h
    · intro n h; rw [hw]; exact hi.unknown n h
    · intro h; exact absurd rfl h
  | back watch =>
    have hfold : ∀ n, lastWatch m n (log ++ (.ping m true :: ((x.watches.map
        fun w => Ev.watch m w.name (watch w.name)) ++ [.presence m true]))) =
        if n ∈ names x.watches then some (watch n) else lastWatch m n log := by
      intro n
      rw [watch_append]
      simp only [List.foldl_cons, List.foldl_append, List.foldl_nil, lastWatch1]
      have := watch_fold (m := m) (n := n) (ns := names x.watches) watch (lastWatch m n log)
      simp only [names, List.map_map] at this ⊢
      exact this
    have hnames : names (rearm watch x.watches) = names x.watches := by
      simp [names, rearm, Function.comp_def]
    refine ⟨by simpa only [hnames] using hi.nodup, hi.ids, ?_, ?_, fun h => (by cases h), by simpa only [hnames] using hi.entry, ?_, hi.normal⟩
    · intro w hw
      simp only [rearm, List.mem_map] at hw
      obtain ⟨a, ha, rfl⟩ := hw
      simp only []
      rw [hfold, if_pos (mem_names.mpr ⟨a, ha, rfl⟩)]
      simp
    · intro n hn
      simp only [hnames] at hn
      rw [hfold, if_neg hn]
      exact hi.unknown n hn
    · intro _ h hh
      rw [hfold, if_pos (hi.entry h hh)]
      simp
  | add hn hw hid hfresh hph hc =>
    rename_i raw name id ws
    rw [List.append_nil]
    subst hw
    have hlast : lastWatch m name log = some true ∨ ph = .down := by
      rcases hc with hc | hc
      · left
        simp only [List.any_eq_true, Bool.and_eq_true, beq_iff_eq] at hc
        obtain ⟨w, h1, h2, h3⟩ := hc
        rcases mem_ensure.mp h1 with h1 | ⟨_, h1⟩
        · rw [← h2]; exact (hi.watched w h1).mp h3
        · rw [h1] at h3; cases h3
      · exact .inr hc
    refine ⟨ensure_nodup hi.nodup, add_ids hi.ids hfresh, ?_, ?_, ?_, ?_, ?_, ?_⟩
    · intro w hw
      rcases mem_ensure.mp hw with hw | ⟨h1, rfl⟩
      · exact hi.watched w hw
      · simp only [Bool.false_eq_true, false_iff]
        rw [hi.unknown _ h1]
        simp
    · intro n hn
      refine hi.unknown n (fun hh => hn ?_)
      rw [names_ensure]
      split
      · exact hh
      · exact List.mem_append_left _ hh
    · intro hd w hw
      rcases mem_ensure.mp hw with hw | ⟨h1, rfl⟩
      · exact hi.down hd w hw
      · rfl
    · intro h hh
      rw [names_ensure]
      rcases List.mem_append.mp hh with hh | hh
      · have := hi.entry h hh
        split
        · exact this
        · exact List.mem_append_left _ this
      · simp only [List.mem_singleton] at hh
        subst hh
        split
        · assumption
        · simp
    · intro hd h hh
      rcases List.mem_append.mp hh with hh | hh
      · exact hi.tried hd h hh
      · simp only [List.mem_singleton] at hh
        subst hh
        rcases hlast with hl | hl
        · simp [hl]
        · exact absurd hl hd
    · intro h hh
      rcases List.mem_append.mp hh with hh | hh
      · exact hi.normal h hh
      · simp only [List.mem_singleton] at hh
        subst hh
        exact hn
  | addWatch ok hn hw hid hfresh hc =>
    rename_i raw name id ws
    subst hw
    have hfold : ∀ n, lastWatch m n (log ++ [.watch m name ok]) = if name = n then some ok else lastWatch m n log := by
      intro n; rw [watch_append]; simp [lastWatch1]
    have hnames : names ((ensure x.watches name).map fun w => if w.name = name then { w with watched := ok } else w) =
        names (ensure x.watches name) := by
      simp only [names, List.map_map]
      apply List.map_congr_left
      intro w _
      simp only [Function.comp_def]
      split <;> rfl
    have hin : name ∈ names (ensure x.watches name) := by
      rw [names_ensure]; split
      · assumption
      · simp
    refine ⟨by simp only [hnames]; exact ensure_nodup hi.nodup, add_ids hi.ids hfresh, ?_, ?_, fun h => (by cases h), ?_, ?_, ?_⟩
    · intro w hw
      simp only [List.mem_map] at hw
      obtain ⟨a, ha, rfl⟩ := hw
      split
      · rename_i he
        rw [hfold, if_pos he.symm]
        simp
      · rename_i he
        rw [hfold, if_neg (fun hh => he hh.symm)]
        rcases mem_ensure.mp ha with hw | ⟨h1, rfl⟩
        · exact hi.watched a hw
        · exact absurd rfl he
    · intro n hn
      simp only [hnames] at hn
      rw [hfold, if_neg (fun hh : name = n => hn (hh ▸ hin))]
      refine hi.unknown n (fun hh => hn ?_)
      rw [names_ensure]
      split
      · exact hh
      · exact List.mem_append_left _ hh
    · intro h hh
      simp only [hnames]
      rcases List.mem_append.mp hh with hh | hh
      · have := hi.entry h hh
        rw [names_ensure]
        split
        · exact this
        · exact List.mem_append_left _ this
      · simp only [List.mem_singleton] at hh
        subst hh
        exact hin
    · intro hd h hh
      rw [hfold]
      split
      · simp
      · rename_i hne
        rcases List.mem_append.mp hh with hh | hh
        · exact hi.tried hd h hh
        · simp only [List.mem_singleton] at hh
          subst hh
          exact absurd rfl hne
    · intro h hh
      rcases List.mem_append.mp hh with hh | hh
      · exact hi.normal h hh
      · simp only [List.mem_singleton] at hh
        subst hh
        exact hn
  | addPresence id =>
    rw [List.append_nil]
    exact ⟨hi.nodup, hi.ids, hi.watched, hi.unknown, hi.down, hi.entry, hi.tried, hi.normal⟩
  | remove ids hph h0 =>
    have hfold : ∀ n, lastWatch m n (log ++ (unwatchUnused (x.handlers.filter fun h => !ids.contains h.id) ids.length
        x.watches).1.map fun n => Ev.unwatch m n) = 
        if n ∈ (unwatchUnused (x.handlers.filter fun h => !ids.contains h.id) ids.length x.watches).1 then none
        else lastWatch m n log := by
      intro n; rw [watch_append, unwatch_fold]
    refine ⟨by simp only [names_unused]; exact hi.nodup, filter_ids hi.ids _, ?_, ?_, ?_, ?_, ?_, ?_⟩
    · intro w hw
      rw [hfold]
      rcases unused_mem _ hi.nodup hw with ⟨h1, h2⟩ | ⟨h1, h2, h3, h4⟩
      · rw [if_neg h2]
        exact hi.watched w h1
      · rw [if_pos h3, h1]
        simp
    · intro n hn
      simp only [names_unused] at hn
      rw [hfold]
      split
      · rfl
      · exact hi.unknown n hn
    · intro hd w hw
      rcases unused_mem _ hi.nodup hw with ⟨h1, h2⟩ | ⟨h1, h2, h3, h4⟩
      · exact hi.down hd w h1
      · exact h1
    · intro h hh
      simp only [names_unused]
      exact hi.entry h (List.mem_filter.mp hh).1
    · intro hd h hh
      rw [hfold]
      split
      · rename_i hc
        exact absurd rfl ((unused_fst _ hc).2 h hh)
      · exact hi.tried hd h (List.mem_filter.mp hh).1
    · intro h hh
      exact hi.normal h (List.mem_filter.mp hh).1
  | registered name ids hids =>
    have hw : ∀ n, lastWatch m n (log ++ [.registered m name ids]) = lastWatch m n log := by
      intro n; rw [watch_append]; rfl
    refine ⟨hi.nodup, hi.ids, ?_, ?_, hi.down, hi.entry, ?_, hi.normal⟩
    · intro w h; rw [hw]; exact hi.watched w h
    · intro n h; rw [hw]; exact hi.unknown n h
    · intro hd h hh; rw [hw]; exact hi.tried hd h hh
  | rehash h =>
    rename_i ws
    rw [List.append_nil]
    have hp := List.isPerm_iff.mp h
    have hnp : List.Perm (names ws) (names x.watches) := hp.map _
    refine ⟨hnp.nodup_iff.mpr hi.nodup, hi.ids, fun w h => hi.watched w (hp.mem_iff.mp h), fun n h => hi.unknown n (fun hh => h (hnp.mem_iff.mpr hh)), fun hd w h => hi.down hd w (hp.mem_iff.mp h),
      fun a ha => hnp.mem_iff.mpr (hi.entry a ha), hi.tried, hi.normal⟩

theorem inv_born {m : Nat} {kind : Kind} {ph : Phase} {x : Mgr} {log es : List Ev}
    (hb : Born m kind es ph x) : Inv m ph x (log ++ es) := by
  cases hb with
  | up es he =>
    refine ⟨by simp [names], by simp, by simp, ?_, by simp, by simp, by simp, by simp⟩
    intro n _
    rw [watch_append]
    simp [lastWatch1]
  | down c =>
    refine ⟨by simp [names], by simp, by simp, ?_, by simp, by simp, by simp, by simp⟩
    intro n _
    rw [watch_append]
    simp [lastWatch1]

theorem alone_inv {s : State} (h : ReachIf step Alone {} s) :
    (Zero s ∧ True) ∨ ∃ m x ph, One s m x ph ∧ Inv m ph x s.log := by
  refine alone_induction (fun _ _ h => h) (I := Inv) (Z := fun _ => True) trivial (fun _ _ _ _ _ => trivial) ?_ ?_ h
  · intro m kind ph x es log _ hb; exact inv_born hb
  · intro s l s' m ph x es ph' x' _ _ _ _ hi ht _; exact inv_trans hi ht

/-- C41: if there are handlers for the name, and the service manager is there, it has been asked to watch
it (in case if that has failed, it won't be asked again until it restarts).
Missing: several GBinderServiceManager objects of different types for the same device. -/
theorem C41_asked_partial {s : State} (h : ReachIf step Alone {} s) {m : Nat} {x : Mgr}
    (hm : s.mgrs m = some x) (hd : s.dead = false) {n : Bytes}
    (hh : ∃ a ∈ x.handlers, norm x.kind a.raw = some n) : lastWatch m n s.log ≠ none := by
  rcases alone_inv h with ⟨hz, _⟩ | ⟨k, y, ph, ho, hi⟩
  · rw [hz.mgrs] at hm; cases hm
  · obtain ⟨rfl, rfl⟩ := ho.get hm
    obtain ⟨a, h1, h2⟩ := hh
    rw [hi.normal a h1] at h2
    cases h2
    refine hi.tried ?_ a h1
    intro hc
    have := ho.dead
    rw [hd, hc] at this
    simp at this

/-- C41: nothing is being watched while it isn't there. -/
theorem C41_absent_partial {s : State} (h : ReachIf step Alone {} s) {m : Nat} {x : Mgr}
    (hm : s.mgrs m = some x) (hd : s.dead = true) (hp : s.pending = []) (n : Bytes) :
    lastWatch m n s.log ≠ some true := by
  rcases alone_inv h with ⟨hz, _⟩ | ⟨k, y, ph, ho, hi⟩
  · rw [hz.mgrs] at hm; cases hm
  · obtain ⟨rfl, rfl⟩ := ho.get hm
    have hph : ph = .down := by
      have h1 := ho.pending
      have h2 := ho.dead
      rw [hp] at h1
      rw [hd] at h2
      cases ph
      · simp at h2
      · simp at h1
      · rfl
    by_cases hn : n ∈ names x.watches
    · obtain ⟨w, h1, h2⟩ := mem_names.mp hn
      intro hc
      subst h2
      have := (hi.watched w h1).mpr hc
      rw [hi.down hph w h1] at this
      cases this
    · rw [hi.unknown n hn]
      simp

/-! ### Names which nobody is interested in anymore -/

/-- When the service manager comes back, there's a handler for each name which there ever was a handler
for. -/
def NoStale (s : State) (l : Label) : Prop :=
  Alone s l ∧ ((∃ t ok tid watch, l = .fire t ok tid watch) ∨ (∃ m ok watch, l = .wait m ok watch) →
    ∀ m x, s.mgrs m = some x → ∀ w ∈ x.watches, ∃ h ∈ x.handlers, norm x.kind h.raw = some w.name)

def Exact (x : Mgr) : Prop :=
  ∀ w ∈ x.watches, w.watched = true → ∃ h ∈ x.handlers, h.detail = w.name

theorem length_le_of_subset : ∀ {l ids : List Nat}, l.Nodup → (∀ a ∈ l, a ∈ ids) → l.length ≤ ids.length
  | [], _, _, _ => Nat.zero_le _
  | a :: l, ids, hn, hs => by
    have h1 := hs a List.mem_cons_self
    have hn' := List.nodup_cons.mp hn
    have h2 : ∀ b ∈ l, b ∈ ids.erase a := fun b hb =>
      (List.mem_erase_of_ne (fun hh : b = a => hn'.1 (hh ▸ hb))).mpr (hs b (List.mem_cons_of_mem _ hb))
    have h3 := length_le_of_subset hn'.2 h2
    rw [List.length_erase_of_mem h1] at h3
    have h4 : 0 < ids.length := List.length_pos_of_mem h1
    simp only [List.length_cons]
    omega

/-- Those to be unwatched. -/
def unused (hs : List Handler) (ws : List Watch) : List Watch :=
  ws.filter fun w => w.watched && !hs.any (fun h => h.detail == w.name)

theorem unused_all (hs : List Handler) : ∀ {k : Nat} {ws : List Watch}, (unused hs ws).length ≤ k →
    ∀ w ∈ (unwatchUnused hs k ws).2, w.watched = true → ∃ h ∈ hs, h.detail = w.name
  | 0, ws, hk, w, hw, hww => by
    have h0 : unused hs ws = [] := List.eq_nil_of_length_eq_zero (by omega)
    unfold unwatchUnused at hw
    have := List.filter_eq_nil_iff.mp h0 w hw
    simpa [hww] using this
  | k + 1, [], _, w, hw, _ => by cases hw
  | k + 1, a :: ws, hk, w, hw, hww => by
    unfold unwatchUnused at hw
    unfold unused at hk
    split at hw
    · rename_i hc
      rw [List.filter_cons_of_pos (by simpa using hc)] at hk
      simp only [List.length_cons] at hk
      rcases List.mem_cons.mp hw with rfl | hw
      · cases hww
      · exact unused_all hs (k := k) (ws := ws) (by unfold unused; omega) w hw hww
    · rename_i hc
      rw [List.filter_cons_of_neg (by simpa using hc)] at hk
      rcases List.mem_cons.mp hw with rfl | hw
      · have : ¬¬(hs.any fun h => h.detail == w.name) = true := fun hh => hc ⟨hww, hh⟩
        simpa using this
      · exact unused_all hs (k := k + 1) (ws := ws) hk w hw hww

/-- A handler for each of them is being removed. -/
theorem budget {x : Mgr} (hn : (names x.watches).Nodup) (hids : (x.handlers.map (·.id)).Nodup) (he : Exact x)
    (ids : List Nat) :
    (unused (x.handlers.filter fun h => !ids.contains h.id) x.watches).length ≤ ids.length := by
  -- the removed handlers, one for each name
  have key : ∀ us : List Watch, (names us).Nodup →
      (∀ w ∈ us, ∃ h ∈ x.handlers, h.detail = w.name ∧ h.id ∈ ids) →
      ∃ js : List Nat, js.length = us.length ∧ js.Nodup ∧ (∀ j ∈ js, j ∈ ids) ∧
        ∀ j ∈ js, ∃ h ∈ x.handlers, h.id = j ∧ h.detail ∈ names us := by
    intro us
    induction us with
    | nil => intro _ _; exact ⟨[], rfl, by simp, by simp, by simp⟩
    | cons w us ih =>
      intro hnd hall
      simp only [names, List.map_cons, List.nodup_cons] at hnd
      obtain ⟨js, h1, h2, h3, h4⟩ := ih hnd.2 (fun a ha => hall a (List.mem_cons_of_mem _ ha))
      obtain ⟨h, g1, g2, g3⟩ := hall w List.mem_cons_self
      refine ⟨h.id :: js, by simp [h1], List.nodup_cons.mpr ⟨?_, h2⟩, ?_, ?_⟩
      · intro hj
        obtain ⟨h', k1, k2, k3⟩ := h4 _ hj
        have : h' = h := by
          clear ih he h4
          generalize x.handlers = hs at hids g1 k1
          induction hs with
          | nil => cases g1
          | cons a hs ih =>
            simp only [List.map_cons, List.nodup_cons] at hids
            rcases List.mem_cons.mp g1 with rfl | g1' <;> rcases List.mem_cons.mp k1 with rfl | k1'
            · rfl
            · exact absurd (List.mem_map.mpr ⟨_, k1', k2⟩) hids.1
            · exact absurd (List.mem_map.mpr ⟨_, g1', k2.symm⟩) hids.1
            · exact ih hids.2 g1' k1'
        subst this
        rw [g2] at k3
        exact hnd.1 k3
      · intro j hj
        rcases List.mem_cons.mp hj with rfl | hj
        · exact g3
        · exact h3 j hj
      · intro j hj
        rcases List.mem_cons.mp hj with rfl | hj
        · exact ⟨h, g1, rfl, by simp [names, g2]⟩
        · obtain ⟨h', k1, k2, k3⟩ := h4 _ hj
          exact ⟨h', k1, k2, List.mem_cons_of_mem _ k3⟩
  obtain ⟨js, h1, h2, h3, _⟩ := key (unused (x.handlers.filter fun h => !ids.contains h.id) x.watches)
    (List.Sublist.nodup (List.Sublist.map _ List.filter_sublist) hn) (by
      intro w hw
      unfold unused at hw
      obtain ⟨hw, hc⟩ := List.mem_filter.mp hw
      simp only [Bool.and_eq_true] at hc
      obtain ⟨h, g1, g2⟩ := he w hw hc.1
      refine ⟨h, g1, g2, ?_⟩
      have h2 := hc.2
      simp only [Bool.not_eq_true', List.any_eq_false, List.mem_filter, beq_iff_eq] at h2
      have := fun hh => h2 h ⟨g1, hh⟩ g2
      simpa using this)
  rw [← h1]
  exact length_le_of_subset h2 h3

theorem exact_trans {m : Nat} {ph ph' : Phase} {x x' : Mgr} {log es : List Ev} (hi : Inv m ph x log) (he : Exact x)
    (ht : Trans m ph x es ph' x')
    (hst : ph = .down → ph' = .up → ∀ w ∈ x.watches, ∃ h ∈ x.handlers, norm x.kind h.raw = some w.name) : Exact x' := by
  cases ht with
  | stay => exact he
  | die => exact he
  | died c =>
    intro w hw hc
    simp only [unwatchAll, List.mem_map] at hw
    obtain ⟨a, ha, rfl⟩ := hw
    cases hc
  | retry c => exact he
  | timeout => exact he
  | back watch =>
    intro w hw hc
    simp only [rearm, List.mem_map] at hw
    obtain ⟨a, ha, rfl⟩ := hw
    obtain ⟨h, h1, h2⟩ := hst rfl rfl a ha
    rw [hi.normal h h1] at h2
    exact ⟨h, h1, Option.some.inj h2⟩
  | add hn hw hid hfresh hph hc =>
    subst hw
    intro w hw hc
    rcases mem_ensure.mp hw with hw | ⟨h1, rfl⟩
    · obtain ⟨h, h1, h2⟩ := he w hw hc
      exact ⟨h, List.mem_append_left _ h1, h2⟩
    · cases hc
  | addWatch ok hn hw hid hfresh hc =>
    subst hw
    intro w hw hc
    simp only [List.mem_map] at hw
    obtain ⟨a, ha, rfl⟩ := hw
    split
    · rename_i h; exact ⟨_, List.mem_append_right _ (List.mem_singleton_self _), h.symm⟩
    · rename_i hne
      rw [if_neg hne] at hc
      rcases mem_ensure.mp ha with hw | ⟨h1, rfl⟩
      · obtain ⟨h, h1, h2⟩ := he a hw hc
        exact ⟨h, List.mem_append_left _ h1, h2⟩
      · cases hc
  | addPresence id => exact he
  | remove ids hph h0 => exact unused_all _ (budget hi.nodup hi.ids he ids)
  | registered name ids hids => exact he
  | rehash h =>
    have hp := List.isPerm_iff.mp h
    exact fun w hw => he w (hp.mem_iff.mp hw)

theorem exact_inv {s : State} (h : ReachIf step NoStale {} s) :
    (Zero s ∧ True) ∨ ∃ m x ph, One s m x ph ∧ Inv m ph x s.log ∧ Exact x := by
  refine alone_induction (fun _ _ h => h.1) (I := fun m ph x log => Inv m ph x log ∧ Exact x) (Z := fun _ => True)
    trivial (fun _ _ _ _ _ => trivial) ?_ ?_ h
  · intro m kind ph x es log _ hb
    refine ⟨inv_born hb, ?_⟩
    cases hb <;> exact fun w hw => (by cases hw)
  · intro s l s' m ph x es ph' x' hok hs ho ho' hi ht _
    refine ⟨inv_trans hi.1 ht, exact_trans hi.1 hi.2 ht ?_⟩
    intro hd hu
    subst hd hu
    refine hok.2 ?_ m x ho.self
    have hdead : s.dead = true := by rw [ho.dead]; rfl
    have hdead' : s'.dead = false := by rw [ho'.dead]; rfl
    have hsame : (∀ t ok tid watch, l ≠ .fire t ok tid watch) → (∀ m ok watch, l ≠ .wait m ok watch) →
        s'.dead = s.dead := by
      intro hf hw
      cases l with
      | fire t ok tid watch => exact absurd rfl (hf t ok tid watch)
      | wait m ok watch => exact absurd rfl (hw m ok watch)
      | create m' kind ok tid => exact absurd rfl (one_not_create ho hok.1 m' kind ok tid)
      | die => simp [step, hdead] at hs
      | free m' =>
        have hrem : ∀ {c} {a b : State}, a.removeTimer c = .ok b → b.dead = a.dead := by
          intro c a b hab
          cases c <;> simp only [State.removeTimer] at hab <;> (repeat' split at hab) <;> cases hab <;> rfl
        simp only [step] at hs
        split at hs
        · cases hs
        · split at hs
          · cases hs
          · split at hs
            · rename_i hr; cases hs; have := hrem hr; exact this
            · cases hs
            · cases hs
      | _ =>
        simp only [step] at hs
        (repeat' split at hs) <;> cases hs <;> rfl
    rw [hdead, hdead'] at hsame
    cases l with
    | fire t ok tid watch => exact .inl ⟨_, _, _, _, rfl⟩
    | wait m ok watch => exact .inr ⟨_, _, _, rfl⟩
    | _ => exact absurd (hsame (by simp) (by simp)) (by simp)

/-- C41: a name is being watched only if there are handlers for it, as long as no names have been abandoned
by the time the service manager comes back.
Missing: several GBinderServiceManager objects of different types for the same device, and abandoned
names, see `C41_fails_abandoned`. -/
theorem C41_watched_partial {s : State} (h : ReachIf step NoStale {} s) {m : Nat} {x : Mgr}
    (hm : s.mgrs m = some x) {n : Bytes} (hw : lastWatch m n s.log = some true) :
    ∃ a ∈ x.handlers, norm x.kind a.raw = some n := by
  rcases exact_inv h with ⟨hz, _⟩ | ⟨k, y, ph, ho, hi, he⟩
  · rw [hz.mgrs] at hm; cases hm
  · obtain ⟨rfl, rfl⟩ := ho.get hm
    by_cases hn : n ∈ names x.watches
    · obtain ⟨w, h1, rfl⟩ := mem_names.mp hn
      obtain ⟨a, h2, h3⟩ := he w h1 ((hi.watched w h1).mpr hw)
      exact ⟨a, h2, by rw [hi.normal a h2, h3]⟩
    · rw [hi.unknown n hn] at hw
      cases hw

/-! ### Where it goes wrong -/

def A : Bytes := [0x41]
def B : Bytes := [0x42]

/-- The last handler for the name is removed, and the service manager restarts. -/
def abandoned : List Label :=
  [.create 0 .aidl true 10, .addHandler 0 A 1 true, .removeHandlers 0 [1], .die, .died 11,
   .fire ⟨11, 0, 100⟩ true 12 (fun _ => true)]

/-- C41 fails: the name which nobody is interested in anymore is watched again. -/
theorem C41_fails_abandoned : (exec step {} abandoned).holds fun s =>
    !s.dead && (match s.mgrs 0 with | some x => x.handlers.isEmpty | none => false) &&
    lastWatch 0 A s.log == some true := by decide

/-- C41 fails: and when the last handler for another name is removed, that name remains watched. -/
theorem C41_fails_other : (exec step {} (abandoned ++ [.addHandler 0 B 2 true, .removeHandlers 0 [2]])).holds fun s =>
    !s.dead && (match s.mgrs 0 with | some x => x.handlers.isEmpty | none => false) &&
    lastWatch 0 B s.log == some true && lastWatch 0 A s.log == none := by decide

/-! ### Examples -/

/-- Two names are being watched, one of those isn't interesting anymore. The service manager restarts,
and the other one is being watched again. -/
def story : List Label :=
  [.addHandler 0 A 1 true, .addHandler 0 B 2 true, .addHandler 0 A 3 true, .removeHandlers 0 [1],
   .die, .died 11, .fire ⟨11, 0, 100⟩ false 12 (fun _ => true), .fire ⟨12, 0, 200⟩ true 13 (fun _ => true),
   .removeHandlers 0 [2, 0]]

def ok (s : State) : Label → Bool
  | .create .. | .free .. => false
  | .fire .. | .wait .. => match s.mgrs 0 with
    | none => false
    | some x => x.watches.all fun w => x.handlers.any fun h => norm x.kind h.raw == some w.name
  | _ => true

def runIf (s : State) : List Label → Option State
  | [] => some s
  | l :: ls => if ok s l then match step s l with
    | .ok s' => runIf s' ls
    | _ => none else none

theorem runIf_reach {s0 s : State} {ls : List Label} (h0 : ReachIf step NoStale {} s0)
    (hz : s0.order = [0]) (h : runIf s0 ls = some s) : ReachIf step NoStale {} s := by
  induction ls generalizing s0 with
  | nil => cases h; exact h0
  | cons l ls ih =>
    simp only [runIf] at h
    split at h
    · rename_i hok
      split at h
      · rename_i s1 hs
        have hno : ∀ m kind ok tid, l ≠ .create m kind ok tid := by
          rintro m kind o tid rfl; cases hok
        have hal : Alone s0 l := fun m kind o tid hl => absurd hl (hno m kind o tid)
        rcases exact_inv h0 with ⟨hz', _⟩ | ⟨m, x, ph, ho, _⟩
        · rw [hz'.order] at hz; cases hz
        · have hm : m = 0 := by have := ho.order; rw [hz] at this; cases this; rfl
          subst hm
          have hns : NoStale s0 l := by
            refine ⟨hal, ?_⟩
            intro hl m' x' hm' w hw
            obtain ⟨rfl, rfl⟩ := ho.get hm'
            have hall : (x'.watches.all fun w => x'.handlers.any fun h => norm x'.kind h.raw == some w.name) = true := by
              rcases hl with ⟨_, _, _, _, rfl⟩ | ⟨_, _, _, rfl⟩ <;> simpa [ok, ho.self] using hok
            have := List.all_eq_true.mp hall w hw
            simpa using this
          have hr := ReachIf.step l h0 hns hs
          rcases one_step ho hno hs with ⟨_, _, _, h1, _⟩ | ⟨h1, h2, _⟩
          · exact ih hr h1.order h
          · subst h1; cases hok
      · cases h
    · cases h

example : ∃ s, ReachIf step NoStale {} s ∧ s.dead = false ∧
    (∃ x, s.mgrs 0 = some x ∧ x.handlers = [⟨3, A, A⟩]) ∧ lastWatch 0 A s.log = some true ∧
    lastWatch 0 B s.log = none := by
  refine ⟨_, runIf_reach (.step (.create 0 .aidl true 10) .init ⟨fun _ _ _ _ _ _ => rfl, ?_⟩ rfl) rfl
    (ls := story) rfl, rfl, ⟨_, rfl, rfl⟩, rfl, rfl⟩
  rintro (⟨_, _, _, _, h⟩ | ⟨_, _, _, h⟩) <;> cases h

end Gb.C41
