import Verif.Spec.Poll
/-
C58: those who wait for a service are told about it.
-/
set_option autoImplicit false

namespace Gb.C58

open Poll

/-- The first handler for the name; and if it's added while a list is being looked at, it's not for a new
name which has already been announced. -/
def First (s : State) : Label → Prop
  | .add _ name => (∀ h ∈ s.handlers, h.name ≠ name) ∧
    ∀ p l, s.poll = some p → p.next = some (some l) → name ∈ l → name ∈ p.list.getD [] ∨ name ∈ p.todo
  | _ => True

theorem after_sub {old rest : List Bytes} {n : Bytes} (h : after old n = some rest) : ∀ m ∈ rest, m ∈ old := by
  induction old with
  | nil => cases h
  | cons o os ih =>
    unfold after at h
    split at h
    · cases h; exact fun m hm => List.mem_cons_of_mem _ hm
    · exact fun m hm => List.mem_cons_of_mem _ (ih h m hm)

theorem after_mem {old rest : List Bytes} {n : Bytes} (h : after old n = some rest) : n ∈ old := by
  induction old with
  | nil => cases h
  | cons o os ih =>
    unfold after at h
    split at h
    · rename_i hh; simp [hh]
    · exact List.mem_cons_of_mem _ (ih h)

/-- New names are announced. -/
theorem announce_new {old new : List Bytes} {n : Bytes} (hn : n ∈ new) (ho : n ∉ old) : n ∈ announce old new := by
  induction new generalizing old with
  | nil => cases hn
  | cons a ns ih =>
    cases old with
    | nil => exact hn
    | cons o os =>
      unfold announce
      cases ha : after (o :: os) a with
      | none =>
        rcases List.mem_cons.mp hn with rfl | hn
        · exact List.mem_cons_self
        · exact List.mem_cons_of_mem _ (ih hn ho)
      | some os' =>
        have hne : n ≠ a := by rintro rfl; exact ho (after_mem ha)
        rcases List.mem_cons.mp hn with h | hn
        · exact absurd h hne
        · exact ih hn (fun hc => ho (after_sub ha n hc))

theorem heard_append (a b : List Ev) : heard (a ++ b) = b.foldl heard1 (heard a) := by
  simp [heard, List.foldl_append]

def table (hs : List Handler) (f : Nat → Bool) : List (Nat × Bytes × Bool) := hs.map fun h => (h.id, h.name, f h.id)

/-- Those which have been called, after the handlers for the name are called. -/
def mark (hs : List Handler) (n : Bytes) (f : Nat → Bool) : Nat → Bool :=
  fun id => f id || hs.any fun h => h.name == n && h.id == id

theorem call_fold (hs0 hs : List Handler) (n : Bytes) (f : Nat → Bool) :
    (call hs n).foldl heard1 (table hs0 f) = table hs0 (mark hs n f) := by
  induction hs generalizing f with
  | nil =>
    have : mark [] n f = f := by funext id; simp [mark]
    rw [this]; rfl
  | cons a hs ih =>
    by_cases ha : a.name = n
    · have h1 : call (a :: hs) n = .called a.id a.name :: call hs n := by simp [call, ha]
      rw [h1, List.foldl_cons]
      have h2 : heard1 (table hs0 f) (.called a.id a.name) = table hs0 (fun id => f id || (a.id == id)) := by
        simp only [heard1, table, List.map_map]
        apply List.map_congr_left
        intro h _
        simp only [Function.comp_def]
        split
        · rename_i hh; simp [hh]
        · rename_i hh
          have : (a.id == h.id) = false := by simpa using fun hc => hh hc.symm
          simp [this]
      rw [h2, ih]
      congr 1
      funext id
      simp [mark, ha, Bool.or_assoc]
    · have h1 : call (a :: hs) n = call hs n := by simp [call, ha]
      rw [h1, ih]
      congr 1
      funext id
      have : (a.name == n) = false := by simpa using ha
      simp [mark, this]

/-- A handler which hasn't been called yet, is about to be if the name is known or about to be known. -/
def Due (s : State) (n : Bytes) : Prop :=
  ∀ p, s.poll = some p →
    (n ∈ p.list.getD [] → ⟨n, true⟩ ∈ s.watches) ∧
    ∀ l, p.next = some l → n ∈ l.getD [] → ⟨n, true⟩ ∈ s.watches ∨ n ∈ p.todo

structure Inv (s : State) (f : Nat → Bool) : Prop where
  heard : heard s.log = table s.handlers f
  ids : (s.handlers.map (·.id)).Nodup
  watched : ∀ h ∈ s.handlers, ∃ w ∈ s.watches, w.name = h.name
  used : ∀ w ∈ s.watches, ∃ h ∈ s.handlers, h.name = w.name
  poll : s.watches ≠ [] → s.poll ≠ none
  due : ∀ h ∈ s.handlers, f h.id = false → Due s h.name

theorem Inv.release {s : State} {f : Nat → Bool} (h : Inv s f) : Inv s.release f := by
  unfold State.release
  split
  · split
    · rename_i p hp hc
      have hnil : s.handlers = [] := by
        cases hh : s.handlers with
        | nil => rfl
        | cons a l =>
          obtain ⟨w, hw, _⟩ := h.watched a (by rw [hh]; simp)
          rw [hc.1] at hw
          cases hw
      refine ⟨?_, h.ids, h.watched, h.used, fun hw => absurd hc.1 hw, ?_⟩
      · simp only [heard_append, h.heard, List.foldl_cons, List.foldl_nil, heard1]
      · intro a ha
        simp only [hnil] at ha
        cases ha
    · exact h
  · exact h

theorem table_upd {hs : List Handler} {f : Nat → Bool} {id : Nat} (h : ∀ a ∈ hs, a.id ≠ id) :
    table hs (fun i => if i = id then false else f i) = table hs f := by
  unfold table
  apply List.map_congr_left
  intro a ha
  simp [h a ha]

theorem any_false {hs : List Handler} {id : Nat} (h : ¬(hs.any fun h => h.id == id) = true) : ∀ a ∈ hs, a.id ≠ id := by
  intro a ha hc
  apply h
  rw [List.any_eq_true]
  exact ⟨a, ha, by simpa using hc⟩

theorem inv_step {s s' : State} {l : Label} {f : Nat → Bool} (h : Inv s f) (hf : First s l) (hs : step s l = .ok s') :
    ∃ f', Inv s' f' := by
  cases l with
  | add id name =>
    simp only [step] at hs
    split at hs
    · cases hs
    · rename_i hid
      have hid := any_false hid
      have hnw : ∀ w ∈ s.watches, w.name ≠ name := by
        intro w hw hc
        obtain ⟨a, ha, h1⟩ := h.used w hw
        exact hf.1 a ha (h1.trans hc)
      split at hs
      · rename_i hw
        obtain ⟨w, hw1, hw2⟩ := List.any_eq_true.mp hw
        exact absurd (by simpa using hw2) (hnw w hw1)
      · refine ⟨fun i => if i = id then false else f i, ?_⟩
        -- the poll
        obtain ⟨p, es, hacq, hes, hp⟩ : ∃ p es, (({ s with handlers := s.handlers ++ [⟨id, name⟩], log := s.log ++ [.added id name] } : State)).acquire =
            { s with handlers := s.handlers ++ [⟨id, name⟩], poll := some p, log := s.log ++ .added id name :: es } ∧ (es = [] ∨ es = [.started]) ∧
            (s.poll = some p ∨ (s.poll = none ∧ p = {})) := by
          unfold State.acquire
          cases hp : s.poll with
          | some p => exact ⟨p, [], by simp only [], .inl rfl, .inl rfl⟩
          | none => exact ⟨{}, [.started], by simp, .inr rfl, .inr ⟨rfl, rfl⟩⟩
        rw [hacq] at hs
        cases hs
        have hempty : s.poll = none → s.handlers = [] := by
          intro hn
          cases hh : s.handlers with
          | nil => rfl
          | cons a l =>
            obtain ⟨w, hw, _⟩ := h.watched a (by rw [hh]; simp)
            exact absurd hn (h.poll (fun hc => by rw [hc] at hw; cases hw))
        refine ⟨?_, ?_, ?_, ?_, fun _ => by simp, ?_⟩
        · have : (Ev.added id name :: es).foldl heard1 (heard s.log) = heard s.log ++ [(id, name, false)] := by
            rcases hes with rfl | rfl <;> rfl
          simp only [heard_append]
          rw [this, h.heard]
          have h2 : table (s.handlers ++ [⟨id, name⟩]) (fun i => if i = id then false else f i) =
              table s.handlers (fun i => if i = id then false else f i) ++ [(id, name, false)] := by
            simp [table]
          rw [h2, table_upd hid]
        · simp only [List.map_append, List.map_cons, List.map_nil]
          rw [List.nodup_append]
          refine ⟨h.ids, by simp, ?_⟩
          intro a ha b hb
          obtain ⟨x, hx, rfl⟩ := List.mem_map.mp ha
          simp only [List.mem_singleton] at hb
          rw [hb]
          exact hid x hx
        · intro a ha
          rcases List.mem_append.mp ha with ha | ha
          · obtain ⟨w, hw, h1⟩ := h.watched a ha
            exact ⟨w, List.mem_append_left _ hw, h1⟩
          · simp only [List.mem_singleton] at ha
            subst ha
            exact ⟨_, List.mem_append_right _ (List.mem_singleton_self _), rfl⟩
        · intro w hw
          rcases List.mem_append.mp hw with hw | hw
          · obtain ⟨a, ha, h1⟩ := h.used w hw
            exact ⟨a, List.mem_append_left _ ha, h1⟩
          · simp only [List.mem_singleton] at hw
            subst hw
            exact ⟨⟨id, name⟩, List.mem_append_right _ (List.mem_singleton_self _), rfl⟩
        · intro a ha hfa
          rcases List.mem_append.mp ha with ha | ha
          · have hne := hid a ha
            simp only [hne, if_false] at hfa
            have hd := h.due a ha hfa
            rcases hp with hp | ⟨hp, _⟩
            · intro q hq
              cases hq
              obtain ⟨d1, d2⟩ := hd p hp
              refine ⟨fun hm => List.mem_append_left _ (d1 hm), fun l hl hm => ?_⟩
              rcases d2 l hl hm with d | d
              · exact .inl (List.mem_append_left _ d)
              · exact .inr d
            · rw [hempty hp] at ha; cases ha
          · simp only [List.mem_singleton] at ha
            subst ha
            intro q hq
            cases hq
            have hk : ∀ hm : name ∈ p.list.getD [], (⟨name, true⟩ : Watch) ∈ s.watches ++ [⟨name, p.isKnown name⟩] := by
              intro hm
              have : p.isKnown name = true := by simpa [Poll.isKnown] using hm
              simp [this]
            refine ⟨hk, ?_⟩
            intro l hl hm
            rcases hp with hp | ⟨hp, rfl⟩
            · cases l with
              | none => cases hm
              | some l =>
                rcases hf.2 p l hp hl hm with h1 | h1
                · exact .inl (hk h1)
                · exact .inr h1
            · cases hl
  | remove id =>
    simp only [step] at hs
    split at hs
    · cases hs
    · rename_i g hg
      have hmem : ∀ a ∈ s.handlers.filter (fun h => h.id != id), a ∈ s.handlers := fun a ha => (List.mem_filter.mp ha).1
      have htab : heard (s.log ++ [.removed id]) = table (s.handlers.filter fun h => h.id != id) f := by
        simp only [heard_append, h.heard, List.foldl_cons, List.foldl_nil, heard1, table, List.filter_map]
        rfl
      have hids : ((s.handlers.filter fun h => h.id != id).map (·.id)).Nodup :=
        List.Sublist.nodup (List.Sublist.map _ List.filter_sublist) h.ids
      have hgid : g.id = id := by simpa using List.find?_some hg
      have hothers : ∀ a ∈ s.handlers, a.name ≠ g.name → a ∈ s.handlers.filter fun h => h.id != id := by
        intro a ha hne
        refine List.mem_filter.mpr ⟨ha, ?_⟩
        simp only [bne_iff_ne, ne_eq]
        intro hc
        apply hne
        have hg2 := List.mem_of_find?_eq_some hg
        have : a = g := by
          have hn := h.ids
          clear hmem htab hids hg hs hf h
          generalize s.handlers = hs at *
          induction hs with
          | nil => cases ha
          | cons x hs ih =>
            simp only [List.map_cons, List.nodup_cons] at hn
            rcases List.mem_cons.mp ha with rfl | ha' <;> rcases List.mem_cons.mp hg2 with rfl | hg2'
            · rfl
            · exact absurd (List.mem_map.mpr ⟨_, hg2', hgid.trans hc.symm⟩) hn.1
            · exact absurd (List.mem_map.mpr ⟨_, ha', hc.trans hgid.symm⟩) hn.1
            · exact ih ha' hg2' hn.2
        rw [this]
      split at hs
      · rename_i hany
        cases hs
        refine ⟨f, htab, hids, fun a ha => h.watched a (hmem a ha), ?_, h.poll, fun a ha hfa => h.due a (hmem a ha) hfa⟩
        intro w hw
        obtain ⟨a, ha, h1⟩ := h.used w hw
        by_cases hn : a.name = g.name
        · obtain ⟨b, hb, h2⟩ := List.any_eq_true.mp hany
          exact ⟨b, hb, by rw [← h1, hn]; simpa using h2⟩
        · exact ⟨a, hothers a ha hn, h1⟩
      · rename_i hany
        cases hs
        refine ⟨f, Inv.release ?_⟩
        have hno : ∀ a ∈ s.handlers.filter (fun h => h.id != id), a.name ≠ g.name := by
          intro a ha hc
          apply hany
          rw [List.any_eq_true]
          exact ⟨a, ha, by simpa using hc⟩
        have hkeep : ∀ w ∈ s.watches, w.name ≠ g.name → w ∈ s.watches.filter fun w => w.name != g.name :=
          fun w hw hne => List.mem_filter.mpr ⟨hw, by simpa using hne⟩
        refine ⟨htab, hids, ?_, ?_, ?_, ?_⟩
        · intro a ha
          obtain ⟨w, hw, h1⟩ := h.watched a (hmem a ha)
          exact ⟨w, hkeep w hw (by rw [h1]; exact hno a ha), h1⟩
        · intro w hw
          obtain ⟨hw1, hw2⟩ := List.mem_filter.mp hw
          obtain ⟨a, ha, h1⟩ := h.used w hw1
          exact ⟨a, hothers a ha (by rw [h1]; simpa using hw2), h1⟩
        · intro hne
          refine h.poll (fun hc => hne ?_)
          simp [hc]
        · intro a ha hfa
          have hd := h.due a (hmem a ha) hfa
          intro p hp
          obtain ⟨d1, d2⟩ := hd p hp
          refine ⟨fun hm => hkeep _ (d1 hm) (hno a ha), fun l hl hm => ?_⟩
          rcases d2 l hl hm with d | d
          · exact .inl (hkeep _ d (hno a ha))
          · exact .inr d
  | result l =>
    simp only [step] at hs
    split at hs
    · cases hs
    · rename_i p hp
      split at hs
      · cases hs
      · cases hs
        refine ⟨f, ?_, h.ids, h.watched, h.used, fun _ => by simp, ?_⟩
        · simp only [heard_append, h.heard, List.foldl_cons, List.foldl_nil, heard1]
        · intro a ha hfa q hq
          cases hq
          obtain ⟨d1, _⟩ := h.due a ha hfa p hp
          refine ⟨d1, ?_⟩
          intro l' hl' hm
          cases hl'
          by_cases hk : a.name ∈ p.list.getD []
          · exact .inl (d1 hk)
          · exact .inr (announce_new hm hk)
  | emit =>
    simp only [step] at hs
    split at hs
    · cases hs
    · rename_i p hp
      split at hs
      · cases hs
      · rename_i n rest ht
        split at hs
        · cases hs
          refine ⟨mark s.handlers n f, ?_, h.ids, ?_, ?_, fun _ => by simp, ?_⟩
          · simp only [heard_append, List.foldl_append, h.heard, List.foldl_cons, List.foldl_nil]
            exact call_fold _ _ _ _
          · intro a ha
            obtain ⟨w, hw, h1⟩ := h.watched a ha
            exact ⟨_, List.mem_map_of_mem hw, by split <;> exact h1⟩
          · intro w hw
            obtain ⟨w0, hw0, rfl⟩ := List.mem_map.mp hw
            obtain ⟨a, ha, h1⟩ := h.used w0 hw0
            exact ⟨a, ha, by split <;> exact h1⟩
          · intro a ha hfa
            simp only [mark, Bool.or_eq_false_iff] at hfa
            have hne : a.name ≠ n := by
              intro hc
              have := List.any_eq_false.mp hfa.2 a ha
              simp [hc] at this
            have hk : ∀ {w : Watch}, w ∈ s.watches → w.name = a.name →
                w ∈ s.watches.map (fun w => if w.name = n then { w with notify := false } else w) := by
              intro w hw hwn
              refine List.mem_map.mpr ⟨w, hw, ?_⟩
              rw [if_neg (by rw [hwn]; exact hne)]
            intro q hq
            cases hq
            obtain ⟨d1, d2⟩ := h.due a ha hfa.1 p hp
            refine ⟨fun hm => hk (d1 hm) rfl, fun l hl hm => ?_⟩
            rcases d2 l hl hm with d | d
            · exact .inl (hk d rfl)
            · rw [ht] at d
              rcases List.mem_cons.mp d with d | d
              · exact absurd d hne
              · exact .inr d
        · rename_i hno
          cases hs
          refine ⟨f, ?_, h.ids, h.watched, h.used, fun _ => by simp, ?_⟩
          · simp only [heard_append, h.heard, List.foldl_cons, List.foldl_nil, heard1]
          · intro a ha hfa
            have hne : a.name ≠ n := by
              intro hc
              obtain ⟨w, hw, h1⟩ := h.watched a ha
              apply hno
              rw [List.any_eq_true]
              exact ⟨w, hw, by simpa using h1.trans hc⟩
            intro q hq
            cases hq
            obtain ⟨d1, d2⟩ := h.due a ha hfa p hp
            refine ⟨d1, fun l hl hm => ?_⟩
            rcases d2 l hl hm with d | d
            · exact .inl d
            · rw [ht] at d
              rcases List.mem_cons.mp d with d | d
              · exact absurd d hne
              · exact .inr d
  | finish =>
    simp only [step] at hs
    split at hs
    · cases hs
    · rename_i p hp
      split at hs
      · rename_i l hn ht
        cases hs
        refine ⟨f, Inv.release ?_⟩
        refine ⟨?_, h.ids, h.watched, h.used, fun _ => by simp, ?_⟩
        · simp only [heard_append, h.heard, List.foldl_cons, List.foldl_nil, heard1]
        · intro a ha hfa q hq
          cases hq
          obtain ⟨d1, d2⟩ := h.due a ha hfa p hp
          refine ⟨fun hm => ?_, fun l hl => by cases hl⟩
          rcases d2 l hn hm with d | d
          · exact d
          · rw [ht] at d; cases d
      · cases hs
  | idle n =>
    simp only [step] at hs
    split at hs
    · cases hs
      refine ⟨mark s.handlers n f, ?_, h.ids, ?_, ?_, ?_, ?_⟩
      · simp only [heard_append, h.heard]
        exact call_fold _ _ _ _
      · intro a ha
        obtain ⟨w, hw, h1⟩ := h.watched a ha
        exact ⟨_, List.mem_map_of_mem hw, by split <;> exact h1⟩
      · intro w hw
        obtain ⟨w0, hw0, rfl⟩ := List.mem_map.mp hw
        obtain ⟨a, ha, h1⟩ := h.used w0 hw0
        exact ⟨a, ha, by split <;> exact h1⟩
      · intro hne
        refine h.poll (fun hc => hne ?_)
        simp [hc]
      · intro a ha hfa
        simp only [mark, Bool.or_eq_false_iff] at hfa
        have hne : a.name ≠ n := by
          intro hc
          have := List.any_eq_false.mp hfa.2 a ha
          simp [hc] at this
        have hk : ∀ {w : Watch}, w ∈ s.watches → w.name = a.name →
            w ∈ s.watches.map (fun w => if w.name = n then { w with notify := false } else w) := by
          intro w hw hwn
          refine List.mem_map.mpr ⟨w, hw, ?_⟩
          rw [if_neg (by rw [hwn]; exact hne)]
        intro p hp
        obtain ⟨d1, d2⟩ := h.due a ha hfa.1 p hp
        refine ⟨fun hm => hk (d1 hm) rfl, fun l hl hm => ?_⟩
        rcases d2 l hl hm with d | d
        · exact .inl (hk d rfl)
        · exact .inr d
    · cases hs

theorem inv_reach {s : State} (h : ReachIf step First {} s) : ∃ f, Inv s f := by
  induction h with
  | init => exact ⟨fun _ => false, rfl, by simp, by simp, by simp, by simp, by simp⟩
  | step l _ ha hs ih =>
    obtain ⟨f, hi⟩ := ih
    exact inv_step hi ha hs

/-- The handler is the next one to be called, by the event loop or when the signal is emitted. -/
def Soon (s : State) (id : Nat) (n : Bytes) : Prop :=
  (∃ s', step s (.idle n) = .ok s' ∧ (id, n, true) ∈ heard s'.log) ∨
  ∃ p, s.poll = some p ∧ n ∈ p.todo

/-- C58: if a handler hasn't been called yet, and the name is in the last list, or in the list which is
being processed, then the handler is going to be called.
Missing: handlers for the names which there already is a handler for, and those added while a list
is being processed after the name has been announced (`C58_fails_second`, `C58_fails_meanwhile`). -/
theorem C58_told_partial {s : State} (h : ReachIf step First {} s) {id : Nat} {n : Bytes}
    (hh : (id, n, false) ∈ heard s.log) {p : Poll} (hp : s.poll = some p)
    (hn : n ∈ p.list.getD [] ∨ ∃ l, p.next = some (some l) ∧ n ∈ l) : Soon s id n := by
  obtain ⟨f, hi⟩ := inv_reach h
  rw [hi.heard] at hh
  obtain ⟨a, ha, he⟩ := List.mem_map.mp hh
  simp only [Prod.mk.injEq] at he
  obtain ⟨rfl, rfl, hf⟩ := he
  obtain ⟨d1, d2⟩ := hi.due a ha hf p hp
  have hidle : ⟨a.name, true⟩ ∈ s.watches → Soon s a.id a.name := by
    intro hw
    left
    have hany : (s.watches.any fun w => w.name == a.name && w.notify) = true :=
      List.any_eq_true.mpr ⟨_, hw, by simp⟩
    refine ⟨_, by simp only [step]; rw [if_pos hany], ?_⟩
    simp only [heard_append, hi.heard]
    rw [call_fold]
    refine List.mem_map.mpr ⟨a, ha, ?_⟩
    simp only [mark, Prod.mk.injEq, true_and, Bool.or_eq_true]
    right
    exact List.any_eq_true.mpr ⟨a, ha, by simp⟩
  rcases hn with hn | ⟨l, hl, hn⟩
  · exact hidle (d1 hn)
  · rcases d2 _ hl hn with d | d
    · exact hidle d
    · exact .inr ⟨p, hp, d⟩

/-- C58: when a name is announced, all handlers for it have been called. -/
theorem C58_called_partial {s s' : State} (h : ReachIf step First {} s) (hs : step s .emit = .ok s') {p : Poll}
    (hp : s.poll = some p) {id : Nat} {n : Bytes} {rest : List Bytes} (ht : p.todo = n :: rest) (b : Bool) :
    (id, n, b) ∈ heard s'.log → b = true := by
  obtain ⟨f, hi⟩ := inv_reach h
  intro hh
  simp only [step, hp, ht] at hs
  split at hs
  · cases hs
    simp only [heard_append, List.foldl_append, hi.heard, List.foldl_cons, List.foldl_nil] at hh
    have hc := call_fold s.handlers s.handlers n f
    simp only [heard1] at hh
    rw [hc] at hh
    obtain ⟨a, ha, he⟩ := List.mem_map.mp hh
    simp only [Prod.mk.injEq] at he
    obtain ⟨rfl, rfl, hf⟩ := he
    rw [← hf]
    simp only [mark, Bool.or_eq_true]
    right
    exact List.any_eq_true.mpr ⟨a, ha, by simp⟩
  · rename_i hno
    cases hs
    simp only [heard_append, hi.heard, List.foldl_cons, List.foldl_nil, heard1] at hh
    obtain ⟨a, ha, he⟩ := List.mem_map.mp hh
    simp only [Prod.mk.injEq] at he
    obtain ⟨w, hw, h1⟩ := hi.watched a ha
    exfalso
    apply hno
    rw [List.any_eq_true]
    exact ⟨w, hw, by simpa using h1.trans he.2.1⟩

/-! ### Where it goes wrong -/

/-- A service is there, and two handlers are added for it one after another. -/
def second : List Label :=
  [.add 1 [1], .result (some [[1]]), .emit, .finish, .add 2 [1], .result (some [[1]]), .finish]

/-- C58 fails: the second handler isn't called, nor is going to be. -/
theorem C58_fails_second : (exec step {} second).holds fun s =>
    heard s.log == [(1, [1], true), (2, [1], false)] && (s.poll.any fun p => p.isKnown [1] && p.todo.isEmpty) &&
    s.watches == [⟨[1], false⟩] := by decide +kernel

/-- A handler is added by another one. -/
def meanwhile : List Label :=
  [.add 1 [2], .result (some [[1], [2]]), .emit, .emit, .add 2 [1], .finish, .result (some [[1], [2]]), .finish]

/-- C58 fails: the same. -/
theorem C58_fails_meanwhile : (exec step {} meanwhile).holds fun s =>
    heard s.log == [(1, [2], true), (2, [1], false)] && (s.poll.any fun p => p.isKnown [1] && p.todo.isEmpty) &&
    s.watches == [⟨[2], false⟩, ⟨[1], false⟩] := by decide +kernel

/-! ### Example -/

/-- A handler is added for a service which is already there, another one for the name which is being
announced. -/
def story : List Label :=
  [.add 1 [2], .result (some [[1]]), .emit, .finish, .add 2 [1], .result (some [[1], [2], [3]]), .add 3 [3]]

def first (s : State) : Label → Bool
  | .add _ name => (s.handlers.all fun h => h.name != name) &&
    match s.poll with
    | some p => match p.next with
      | some (some l) => !l.contains name || (p.list.getD []).contains name || p.todo.contains name
      | _ => true
    | none => true
  | _ => true

theorem first_sound {s : State} {l : Label} (h : first s l = true) : First s l := by
  cases l with
  | add id name =>
    simp only [first, Bool.and_eq_true] at h
    refine ⟨?_, ?_⟩
    · intro a ha
      simpa using List.all_eq_true.mp h.1 a ha
    · intro p l hp hl hm
      have h2 := h.2
      rw [hp] at h2
      simp only [hl] at h2
      simp only [Bool.or_eq_true, Bool.not_eq_true', List.contains_eq_mem, decide_eq_true_eq, decide_eq_false_iff_not] at h2
      rcases h2 with (h2 | h2) | h2
      · exact absurd hm h2
      · exact .inl h2
      · exact .inr h2
  | _ => trivial

def runIf (s : State) : List Label → Option State
  | [] => some s
  | l :: ls => if first s l then match step s l with
    | .ok s' => runIf s' ls
    | _ => none else none

theorem runIf_reach {s0 s : State} {ls : List Label} (h0 : ReachIf step First {} s0) (h : runIf s0 ls = some s) :
    ReachIf step First {} s := by
  induction ls generalizing s0 with
  | nil => cases h; exact h0
  | cons l ls ih =>
    simp only [runIf] at h
    split at h
    · rename_i hok
      split at h
      · rename_i s1 hs
        exact ih (.step l h0 (first_sound hok) hs) h
      · cases h
    · cases h

/-- None of those has been called so far. -/
example : ∃ s, ReachIf step First {} s ∧ heard s.log = [(1, [2], false), (2, [1], false), (3, [3], false)] ∧
    s.poll = some { list := some [[1]], next := some (some [[1], [2], [3]]), todo := [[2], [3]] } ∧
    s.watches = [⟨[2], false⟩, ⟨[1], true⟩, ⟨[3], false⟩] := by
  have h : ∃ s, runIf {} story = some s := ⟨_, rfl⟩
  obtain ⟨s, hs⟩ := h
  refine ⟨s, runIf_reach .init hs, ?_⟩
  cases hs
  exact ⟨rfl, rfl, rfl⟩

end Gb.C58
