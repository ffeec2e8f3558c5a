import Verif.Spec.Config
import Verif.Lemmas.Strcmp
/-
Key files, their order, and what is made of them.
-/
set_option autoImplicit false

namespace Gb.Config

/-! ### Key files -/

def Is (g k : Bytes) (e : Bytes × Bytes × Bytes) : Bool := e.1 == g && e.2.1 == k

theorem Is_iff {g k : Bytes} {e : Bytes × Bytes × Bytes} : Is g k e = true ↔ e.1 = g ∧ e.2.1 = k := by
  simp [Is]

theorem get_nil (g k : Bytes) : KeyFile.get [] g k = none := rfl

theorem get_append (f : KeyFile) (e : Bytes × Bytes × Bytes) (g k : Bytes) :
    KeyFile.get (f ++ [e]) g k = if Is g k e then some e.2.2 else KeyFile.get f g k := by
  unfold KeyFile.get
  rw [List.reverse_append]
  show ((e :: f.reverse).find? _).map _ = _
  rw [List.find?_cons]
  unfold Is
  cases e.1 == g && e.2.1 == k <;> rfl

theorem get_says {f : KeyFile} {g k v : Bytes} : KeyFile.get f g k = some v ↔ Says f g k v := by
  unfold KeyFile.get Says
  simp only [Option.map_eq_some_iff, List.find?_eq_some_iff_append]
  constructor
  · rintro ⟨e, ⟨he, l1, l2, hl, hn⟩, rfl⟩
    simp only [Bool.and_eq_true, beq_iff_eq] at he
    refine ⟨l2.reverse, l1.reverse, ?_, ?_⟩
    · have := congrArg List.reverse hl
      simp only [List.reverse_reverse, List.reverse_append, List.reverse_cons, List.append_assoc] at this
      rw [this, ← he.1, ← he.2]
      rfl
    · intro e' h' hc
      have := hn e' (by simpa using h')
      simp [hc] at this
  · rintro ⟨l2, l1, rfl, hn⟩
    refine ⟨(g, k, v), ⟨by simp, l1.reverse, l2.reverse, by simp, ?_⟩, rfl⟩
    intro e he
    have := hn e (by simpa using he)
    simp only [Bool.not_eq_true', Bool.and_eq_false_iff, beq_eq_false_iff_ne]
    by_cases h1 : e.1 = g
    · exact .inr fun h2 => this ⟨h1, h2⟩
    · exact .inl h1

theorem get_none {f : KeyFile} {g k : Bytes} : KeyFile.get f g k = none ↔ ∀ e ∈ f, Is g k e = false := by
  unfold KeyFile.get
  simp only [Option.map_eq_none_iff, List.find?_eq_none, List.mem_reverse, Bool.not_eq_true]
  exact Iff.rfl

theorem find_filter_ne {l : KeyFile} {g k g' k' : Bytes} (h : ¬(g = g' ∧ k = k')) :
    (l.filter fun e => !(e.1 == g && e.2.1 == k)).find? (fun e => e.1 == g' && e.2.1 == k') =
      l.find? (fun e => e.1 == g' && e.2.1 == k') := by
  rw [List.find?_filter]
  congr 1
  funext e
  by_cases h1 : e.1 = g' ∧ e.2.1 = k'
  · obtain ⟨rfl, rfl⟩ := h1
    have : (e.1 == g && e.2.1 == k) = false := by
      cases hc : (e.1 == g && e.2.1 == k)
      · rfl
      · simp only [Bool.and_eq_true, beq_iff_eq] at hc
        exact absurd ⟨hc.1.symm, hc.2.symm⟩ h
    simp [this]
  · have : (e.1 == g' && e.2.1 == k') = false := by
      cases hc : (e.1 == g' && e.2.1 == k')
      · rfl
      · simp only [Bool.and_eq_true, beq_iff_eq] at hc
        exact absurd hc h1
    simp [this]

theorem get_set (f : KeyFile) (g k v g' k' : Bytes) :
    KeyFile.get (KeyFile.set f g k v) g' k' = if g = g' ∧ k = k' then some v else KeyFile.get f g' k' := by
  unfold KeyFile.set
  rw [get_append]
  simp only [Is_iff]
  split
  · rfl
  · rename_i h
    unfold KeyFile.get
    rw [← List.filter_reverse, find_filter_ne h]

theorem get_mem {f : KeyFile} {e : Bytes × Bytes × Bytes} (h : e ∈ f) : (KeyFile.get f e.1 e.2.1).isSome = true := by
  cases hg : KeyFile.get f e.1 e.2.1
  · have := get_none.1 hg e h
    simp [Is] at this
  · rfl

theorem merge_aux (s : KeyFile) (g k : Bytes) (l : KeyFile) (d : KeyFile) (hl : ∀ e ∈ l, e ∈ s) :
    KeyFile.get (l.foldl (mergeKey s) d) g k =
      if l.any (Is g k) then KeyFile.get s g k else KeyFile.get d g k := by
  induction l generalizing d with
  | nil => rfl
  | cons e l ih =>
    rw [List.foldl_cons, ih _ fun x hx => hl x (List.mem_cons_of_mem _ hx)]
    have hs := get_mem (hl e (List.mem_cons_self ..))
    rw [List.any_cons]
    cases hg : KeyFile.get s e.1 e.2.1 with
    | none => rw [hg] at hs; cases hs
    | some v =>
      simp only [mergeKey, hg, get_set]
      cases h1 : l.any (Is g k)
      · cases h2 : Is g k e
        · have : ¬(e.1 = g ∧ e.2.1 = k) := fun hc => by rw [Is_iff.2 hc] at h2; cases h2
          simp [this]
        · obtain ⟨rfl, rfl⟩ := Is_iff.1 h2
          simp [hg]
      · simp

theorem get_merge (d s : KeyFile) (g k : Bytes) :
    KeyFile.get (merge d s) g k = (KeyFile.get s g k <|> KeyFile.get d g k) := by
  unfold merge
  rw [merge_aux s g k s d fun _ h => h]
  cases h : KeyFile.get s g k with
  | none =>
    have : s.any (Is g k) = false := by
      rw [List.any_eq_false]
      intro e he
      rw [get_none.1 h e he]
      simp
    simp [this]
  | some v =>
    have : s.any (Is g k) = true := by
      cases hc : s.any (Is g k)
      · rw [List.any_eq_false] at hc
        have := get_none.2 fun e he => by simpa using hc e he
        rw [this] at h; cases h
      · rfl
    simp [this]

theorem get_presets (p f : KeyFile) (g k : Bytes) :
    KeyFile.get (applyPresets f p) g k = (KeyFile.get f g k <|> (p.find? (Is g k)).map (·.2.2)) := by
  unfold applyPresets
  induction p generalizing f with
  | nil => cases h : KeyFile.get f g k <;> simp [h]
  | cons e p ih =>
    rw [List.foldl_cons, ih, List.find?_cons]
    cases h2 : Is g k e
    · have : ¬(e.1 = g ∧ e.2.1 = k) := fun hc => by rw [Is_iff.2 hc] at h2; cases h2
      split
      · rfl
      · rw [get_set, if_neg this]
    · obtain ⟨rfl, rfl⟩ := Is_iff.1 h2
      split
      · rename_i h
        obtain ⟨v, hv⟩ := Option.isSome_iff_exists.1 h
        simp [hv]
      · rename_i h
        have : KeyFile.get f e.1 e.2.1 = none := by simpa using h
        simp [get_set, this]

/-! ### The directory -/

def content (f : File) (g k : Bytes) : Option Bytes := f.content.bind fun c => KeyFile.get c g k

theorem get_loadDir (l : List File) (o : Option KeyFile) (g k : Bytes) :
    (loadDir o l).bind (fun c => KeyFile.get c g k) =
      ((l.reverse.findSome? fun f => content f g k) <|> o.bind fun c => KeyFile.get c g k) := by
  induction l generalizing o with
  | nil => simp [loadDir]
  | cons f l ih =>
    rw [List.reverse_cons, List.findSome?_append]
    have h0 : loadDir o (f :: l) = loadDir (loadOne o f) l := rfl
    rw [h0, ih]
    have h1 : (loadOne o f).bind (fun c => KeyFile.get c g k) =
        (content f g k <|> o.bind fun c => KeyFile.get c g k) := by
      unfold loadOne content
      cases f.content with
      | none => simp
      | some c =>
        cases o with
        | none => simp
        | some o => simpa using get_merge o c g k
    rw [h1]
    cases l.reverse.findSome? fun f => content f g k
    · cases hc : content f g k <;> simp [hc]
    · rfl

theorem insert_perm (a : File) (l : List File) : (insertFile a l).Perm (a :: l) := by
  induction l with
  | nil => exact List.Perm.refl _
  | cons b l ih =>
    unfold insertFile
    split
    · exact List.Perm.refl _
    · exact (List.Perm.cons b ih).trans (List.Perm.swap a b l)

def Sorted (l : List File) : Prop := l.Pairwise fun a b => Poll.le a.name b.name = true

theorem insert_sorted {a : File} {l : List File} (h : Sorted l) : Sorted (insertFile a l) := by
  induction l with
  | nil => exact List.pairwise_cons.2 ⟨(fun _ hh => by cases hh), List.Pairwise.nil⟩
  | cons b l ih =>
    have hb := List.pairwise_cons.1 h
    unfold insertFile
    split
    · rename_i hab
      refine List.pairwise_cons.2 ⟨fun x hx => ?_, h⟩
      rcases List.mem_cons.1 hx with rfl | hx
      · exact hab
      · exact Poll.le_trans _ _ _ hab (hb.1 x hx)
    · rename_i hab
      refine List.pairwise_cons.2 ⟨fun x hx => ?_, ih hb.2⟩
      rcases List.mem_cons.1 ((insert_perm a l).mem_iff.1 hx) with rfl | hx
      · have := Poll.le_total x.name b.name
        simpa [hab] using this
      · exact hb.1 x hx

theorem sorted_foldr (l : List File) : Sorted (l.foldr insertFile []) := by
  induction l with
  | nil => exact List.Pairwise.nil
  | cons a l ih => exact insert_sorted ih

theorem perm_foldr (l : List File) : (l.foldr insertFile []).Perm l := by
  induction l with
  | nil => exact List.Perm.refl _
  | cons a l ih => exact (insert_perm a _).trans (List.Perm.cons a ih)

theorem suffix_iff {n : Bytes} : hasSuffix n = true ↔ ∃ p, n = p ++ str ".conf" := by
  unfold hasSuffix
  rw [List.isSuffixOf_iff_suffix]
  exact ⟨fun ⟨p, h⟩ => ⟨p, h.symm⟩, fun ⟨p, h⟩ => ⟨p, h.symm⟩⟩

theorem mem_collect {l : List File} {f : File} :
    f ∈ collect l ↔ f ∈ l ∧ f.regular = true ∧ ∃ p, f.name = p ++ str ".conf" := by
  unfold collect
  rw [(perm_foldr _).mem_iff, List.mem_filter, Bool.and_eq_true, suffix_iff]
  exact ⟨fun ⟨a, b, c⟩ => ⟨a, c, b⟩, fun ⟨a, c, b⟩ => ⟨a, b, c⟩⟩

/-- What the files say about the key. -/
def explicit (fs : Fs) (g k : Bytes) : Option Bytes :=
  ((collect fs.dir).reverse.findSome? fun f => content f g k) <|> (fs.main.bind id).bind fun c => KeyFile.get c g k

theorem conf_iff {fs : Fs} {f : File} {c : KeyFile} : IsConf fs f c ↔ f ∈ collect fs.dir ∧ f.content = some c := by
  unfold IsConf
  rw [mem_collect]
  exact ⟨fun ⟨a, b, c, d⟩ => ⟨⟨a, b, c⟩, d⟩, fun ⟨⟨a, b, c⟩, d⟩ => ⟨a, b, c, d⟩⟩

theorem content_some {f : File} {g k v : Bytes} : content f g k = some v ↔ ∃ c, f.content = some c ∧ Says c g k v := by
  unfold content
  simp only [Option.bind_eq_some_iff, get_says]

/-- The names are different. -/
def Distinct (fs : Fs) : Prop := fs.dir.Pairwise fun a b => a.name ≠ b.name

theorem distinct_eq {fs : Fs} (h : Distinct fs) {a b : File} (ha : a ∈ fs.dir) (hb : b ∈ fs.dir)
    (he : a.name = b.name) : a = b := by
  unfold Distinct at h
  generalize fs.dir = l at h ha hb
  induction l with
  | nil => cases ha
  | cons x l ih =>
    have hx := List.pairwise_cons.1 h
    rcases List.mem_cons.1 ha with ha' | ha'
    · rcases List.mem_cons.1 hb with hb' | hb'
      · rw [ha', hb']
      · exact absurd (ha' ▸ he) (hx.1 b hb')
    · rcases List.mem_cons.1 hb with hb' | hb'
      · exact absurd (hb' ▸ he.symm) (hx.1 a ha')
      · exact ih hx.2 ha' hb'

theorem find_last {l : List File} {g k v : Bytes} (hs : Sorted l)
    (h : (l.reverse.findSome? fun f => content f g k) = some v) :
    ∃ f ∈ l, content f g k = some v ∧ ∀ f' ∈ l, (content f' g k).isSome = true → Poll.le f'.name f.name = true := by
  rw [List.findSome?_eq_some_iff] at h
  obtain ⟨l1, f, l2, hl, hf, hn⟩ := h
  have hl' : l = l2.reverse ++ f :: l1.reverse := by
    have := congrArg List.reverse hl
    simpa using this
  refine ⟨f, by rw [hl']; simp, hf, fun f' hf' hc => ?_⟩
  rw [hl'] at hf' hs
  rcases List.mem_append.1 hf' with hm | hm
  · exact (List.pairwise_append.1 hs).2.2 f' hm f (List.mem_cons_self ..)
  · rcases List.mem_cons.1 hm with rfl | hm
    · exact Poll.le_refl _
    · rw [hn f' (by simpa using hm)] at hc; cases hc

theorem explicit_iff {fs : Fs} (hd : Distinct fs) {g k v : Bytes} :
    explicit fs g k = some v ↔ Last (fun _ => True) fs g k v := by
  unfold explicit
  constructor
  · intro h
    cases hf : (collect fs.dir).reverse.findSome? fun f => content f g k with
    | some w =>
      rw [hf] at h
      cases h
      obtain ⟨f, hm, hc, hmax⟩ := find_last (sorted_foldr _) hf
      obtain ⟨c, h1, h2⟩ := content_some.1 hc
      refine .dir f c (conf_iff.2 ⟨hm, h1⟩) h2 trivial fun f' c' v' hi hv _ => ?_
      obtain ⟨hm', hc'⟩ := conf_iff.1 hi
      exact hmax f' hm' (by rw [content_some.2 ⟨c', hc', hv⟩]; rfl)
    | none =>
      rw [hf] at h
      have hn : ∀ f ∈ collect fs.dir, content f g k = none := by
        intro f hm
        exact (List.findSome?_eq_none_iff.1 hf) f (by simpa using hm)
      have h' : (fs.main.bind id).bind (fun c => KeyFile.get c g k) = some v := by simpa using h
      obtain ⟨c, h1, h2⟩ := Option.bind_eq_some_iff.1 h'
      obtain ⟨m, h3, h4⟩ := Option.bind_eq_some_iff.1 h1
      have : m = some c := h4
      subst this
      refine .main c (fun f' c' v' hi hv _ => ?_) h3 (get_says.1 h2) trivial
      obtain ⟨hm', hc'⟩ := conf_iff.1 hi
      have := hn f' hm'
      rw [content_some.2 ⟨c', hc', hv⟩] at this
      cases this
  · rintro (⟨f, c, hi, hv, _, hmax⟩ | ⟨c, hno, hm, hv, _⟩)
    · obtain ⟨hm, hc⟩ := conf_iff.1 hi
      have hsome : content f g k = some v := content_some.2 ⟨c, hc, hv⟩
      cases hf : (collect fs.dir).reverse.findSome? fun f => content f g k with
      | none =>
        have := (List.findSome?_eq_none_iff.1 hf) f (by simpa using hm)
        rw [hsome] at this; cases this
      | some w =>
        obtain ⟨f1, hm1, hc1, hmax1⟩ := find_last (sorted_foldr _) hf
        obtain ⟨c1, h1, h2⟩ := content_some.1 hc1
        have hle := hmax f1 c1 w (conf_iff.2 ⟨hm1, h1⟩) h2 trivial
        have hle' := hmax1 f hm (by rw [hsome]; rfl)
        have : f1 = f := distinct_eq hd (mem_collect.1 hm1).1 (mem_collect.1 hm).1 (Poll.le_antisymm _ _ hle hle')
        subst this
        rw [hc1] at hsome
        simpa using hsome
    · have : ((collect fs.dir).reverse.findSome? fun f => content f g k) = none := by
        rw [List.findSome?_eq_none_iff]
        intro f hf
        cases hc : content f g k with
        | none => rfl
        | some w =>
          obtain ⟨c1, h1, h2⟩ := content_some.1 hc
          exact absurd trivial (hno f c1 w (conf_iff.2 ⟨by simpa using hf, h1⟩) h2)
      rw [this, hm]
      simpa using get_says.2 hv

theorem explicit_none {fs : Fs} (hd : Distinct fs) {g k : Bytes} :
    explicit fs g k = none ↔ ¬∃ v, Last (fun _ => True) fs g k v := by
  cases h : explicit fs g k with
  | none =>
    refine ⟨fun _ ⟨v, hv⟩ => ?_, fun _ => rfl⟩
    rw [explicit_iff hd |>.2 hv] at h; cases h
  | some v => exact ⟨(fun h => by cases h), fun hn => absurd ⟨v, (explicit_iff hd).1 h⟩ hn⟩

/-! ### Maps -/

theorem map_get_remove {α : Type} (m : Map α) (k k' : Bytes) :
    (m.remove k).get k' = if k = k' then none else m.get k' := by
  unfold Map.remove Map.get
  rw [List.find?_filter]
  split
  · rename_i h
    subst h
    have : (m.find? fun a => decide ((!a.1 == k) = true ∧ (a.1 == k) = true)) = none := by
      rw [List.find?_eq_none]
      intro x _
      cases hx : x.1 == k <;> simp
    first | rw [this]; rfl | simp
  · rename_i h
    congr 2
    funext e
    by_cases he : e.1 = k'
    · subst he
      have : (e.1 == k) = false := by simpa using fun hc => h hc.symm
      simp [this]
    · have : (e.1 == k') = false := by simpa using he
      simp [this]

theorem map_get_replace {α : Type} (m : Map α) (k k' : Bytes) (v : α) :
    (m.replace k v).get k' = if k = k' then some v else m.get k' := by
  have h := map_get_remove m k k'
  unfold Map.replace
  unfold Map.get at h ⊢
  rw [List.find?_cons]
  by_cases hk : k = k'
  · simp [hk]
  · have hb : (k == k') = false := by simpa using hk
    simp only [hb, hk, if_false] at h ⊢
    exact h

theorem load_aux {α : Type} (f : KeyFile) (g : Bytes) (mapper : Bytes → Option α) (l : KeyFile) (m : Map α)
    (k : Bytes) (hm : ∀ a, m.get k = some a → (KeyFile.get f g k).bind mapper = some a) :
    ((l.filter fun e => e.1 == g).foldl (loadKey f g mapper) m).get k =
      if l.any (Is g k) then (KeyFile.get f g k).bind mapper else m.get k := by
  induction l generalizing m with
  | nil => rfl
  | cons e l ih =>
    rw [List.filter_cons, List.any_cons]
    by_cases h1 : e.1 = g
    · have hb : (e.1 == g) = true := by simpa using h1
      rw [if_pos hb, List.foldl_cons]
      have hk : loadKey f g mapper m e = match (KeyFile.get f g e.2.1).bind mapper with
        | some v => m.replace e.2.1 v
        | none => m := rfl
      rw [hk]
      by_cases h2 : e.2.1 = k
      · have : Is g k e = true := Is_iff.2 ⟨h1, h2⟩
        rw [h2, this]
        cases hv : (KeyFile.get f g k).bind mapper with
        | none =>
          simp only []
          rw [ih m hm, hv]
          have : m.get k = none := by
            cases hc : m.get k with
            | none => rfl
            | some a => have := hm a hc; rw [hv] at this; cases this
          rw [this]
          simp
        | some v =>
          simp only []
          rw [ih _ (fun a ha => by
            rw [map_get_replace, if_pos rfl] at ha
            rw [hv]; exact ha), hv, map_get_replace]
          simp
      · have hi : Is g k e = false := by
          cases hc : Is g k e
          · rfl
          · exact absurd (Is_iff.1 hc).2 h2
        rw [hi, Bool.false_or]
        split
        · rename_i v hv
          rw [ih _ (fun a ha => by
            rw [map_get_replace, if_neg h2] at ha
            exact hm a ha), map_get_replace, if_neg h2]
        · exact ih m hm
    · have hb : (e.1 == g) = false := by simpa using h1
      have hi : Is g k e = false := by
        cases hc : Is g k e
        · rfl
        · exact absurd (Is_iff.1 hc).1 h1
      rw [hb, hi, Bool.false_or]
      exact ih m hm

theorem get_load {α : Type} (k : Option KeyFile) (g : Bytes) (mapper : Bytes → Option α) (dev : Bytes) :
    (load k g mapper).get dev = (k.bind fun f => KeyFile.get f g dev).bind mapper := by
  cases k with
  | none => rfl
  | some f =>
    show _ = (KeyFile.get f g dev).bind mapper
    unfold load
    simp only []
    rw [load_aux f g mapper f [] dev (fun a h => by cases h)]
    cases hg : KeyFile.get f g dev with
    | none =>
      have : f.any (Is g dev) = false := by
        rw [List.any_eq_false]
        intro e he
        rw [get_none.1 hg e he]; simp
      rw [this]; rfl
    | some v =>
      have : f.any (Is g dev) = true := by
        cases hc : f.any (Is g dev)
        · rw [List.any_eq_false] at hc
          have := get_none.2 fun e he => by simpa using hc e he
          rw [this] at hg; cases hg
        · rfl
      rw [this]; rfl

theorem get_addDefault {α : Type} (m : Map α) (dev k : Bytes) (v : α) :
    (addDefault m dev v).get k = (m.get k <|> if dev = k then some v else none) := by
  unfold addDefault
  split
  · rename_i h
    by_cases hk : dev = k
    · subst hk
      obtain ⟨a, ha⟩ := Option.isSome_iff_exists.1 h
      simp [ha]
    · simp [hk]
  · rename_i h
    rw [map_get_replace]
    by_cases hk : dev = k
    · subst hk
      have : m.get dev = none := by simpa using h
      simp [this]
    · simp [hk]

theorem str_ne1 : (str "/dev/binder" = str "Default") = False := by
  simp only [eq_iff_iff, iff_false]; decide +kernel

theorem str_ne2 : (str "/dev/hwbinder" = str "Default") = False := by
  simp only [eq_iff_iff, iff_false]; decide +kernel

theorem str_ne3 : (str "/dev/hwbinder" = str "/dev/binder") = False := by
  simp only [eq_iff_iff, iff_false]; decide +kernel

theorem choose_table {α : Type} (aidl hidl : α) (m : Map α) (dev : Bytes) :
    (table aidl hidl m).choose dev =
      (m.get dev <|> builtIn aidl hidl dev <|> m.get (str "Default")).getD aidl := by
  have hg : ∀ k, (addDefault (addDefault m (str "/dev/binder") aidl) (str "/dev/hwbinder") hidl).get k =
      (m.get k <|> builtIn aidl hidl k) := by
    intro k
    rw [get_addDefault, get_addDefault]
    unfold builtIn
    by_cases h1 : k = str "/dev/binder"
    · subst h1
      cases m.get (str "/dev/binder") <;> simp
    · by_cases h2 : k = str "/dev/hwbinder"
      · subst h2
        have : ¬str "/dev/binder" = str "/dev/hwbinder" := fun h => h1 h.symm
        cases m.get (str "/dev/hwbinder") <;> simp [this, h1]
      · have h1' : ¬str "/dev/binder" = k := fun h => h1 h.symm
        have h2' : ¬str "/dev/hwbinder" = k := fun h => h2 h.symm
        cases m.get k <;> simp [h1, h2, h1', h2']
  have hd : (addDefault (addDefault m (str "/dev/binder") aidl) (str "/dev/hwbinder") hidl).get defaultKey =
      m.get (str "Default") := by
    rw [hg]
    have : builtIn aidl hidl defaultKey = none := by
      unfold builtIn defaultKey
      have h1 : ¬str "Default" = str "/dev/binder" := fun h => str_ne1.mp h.symm
      have h2 : ¬str "Default" = str "/dev/hwbinder" := fun h => str_ne2.mp h.symm
      simp [h1, h2]
    rw [this]
    show (m.get (str "Default") <|> none) = _
    cases m.get (str "Default") <;> rfl
  unfold table Table.choose
  simp only [hd]
  cases h : m.get (str "Default") with
  | none =>
    simp only [hg]
    cases m.get dev <;> simp <;> cases builtIn aidl hidl dev <;> rfl
  | some p =>
    simp only [map_get_remove, hg]
    by_cases hk : defaultKey = dev
    · subst hk
      have : m.get defaultKey = some p := h
      simp [this]
    · simp only [hk, if_false]
      cases m.get dev <;> simp <;> cases builtIn aidl hidl dev <;> rfl

/-! ### Presets -/

/-- The level which is read. -/
def level (int : Bytes → Int) (fs : Fs) : Int := ((explicit fs (str "General") (str "ApiLevel")).map int).getD 0

theorem level_iff {int : Bytes → Int} {fs : Fs} (hd : Distinct fs) : Level int fs (level int fs) := by
  unfold level Level
  cases h : explicit fs (str "General") (str "ApiLevel") with
  | none => exact .inr ⟨(explicit_none hd).1 h, rfl⟩
  | some v => exact .inl ⟨v, (explicit_iff hd).1 h, rfl⟩

/-- The value which is preset. -/
def presetValue (n : Int) (g k : Bytes) : Option Bytes :=
  if n > 0 then (presets.find? fun p => n ≥ (p.1 : Int)).bind fun p => (p.2.find? (Is g k)).map (·.2.2) else none

theorem get_level {int : Bytes → Int} (o : KeyFile) (g k : Bytes) :
    KeyFile.get (applyLevel int o) g k = (KeyFile.get o g k <|>
      presetValue (((KeyFile.get o (str "General") (str "ApiLevel")).map int).getD 0) g k) := by
  unfold applyLevel presetValue
  simp only []
  split
  · split
    · rename_i p hp
      rw [hp, get_presets]
      rfl
    · rename_i hp
      rw [hp]
      cases KeyFile.get o g k <;> rfl
  · cases KeyFile.get o g k <;> rfl

/-- What is loaded. -/
theorem get_loadFiles (int : Bytes → Int) (fs : Fs) (g k : Bytes) :
    ((loadFiles int fs true).1.bind fun f => KeyFile.get f g k) =
      (explicit fs g k <|> presetValue (level int fs) g k) := by
  have key : ∀ (o : Option KeyFile), o = fs.main.bind id →
      (((loadDir o (collect fs.dir)).map (applyLevel int)).bind fun f => KeyFile.get f g k) =
      (explicit fs g k <|> presetValue (level int fs) g k) := by
    intro o ho
    have he : ∀ g k, ((loadDir o (collect fs.dir)).bind fun f => KeyFile.get f g k) = explicit fs g k := by
      intro g k
      rw [get_loadDir, ho]; rfl
    unfold level
    rw [← he g k, ← he]
    cases loadDir o (collect fs.dir) with
    | none =>
      show none = _
      simp [presetValue]
    | some c =>
      show KeyFile.get (applyLevel int c) g k = _
      rw [get_level]; rfl
  unfold loadFiles
  simp only [if_true]
  cases hm : fs.main with
  | none => exact key none (by rw [hm]; rfl)
  | some o =>
    cases o with
    | none => exact key none (by rw [hm]; rfl)
    | some c => exact key (some c) (by rw [hm]; rfl)

end Gb.Config
