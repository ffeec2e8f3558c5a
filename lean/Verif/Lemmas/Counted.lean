import Verif.Basic.Lts
/-
Objects which are there as long as they are referred to: the references are the list of those who have them.
-/
set_option autoImplicit false

namespace Gb

/-- `refs k` are the references to the object `k`, and `owner h = some (some k)` if `h` has a reference to `k`,
`some none` if it has none, and `none` if it's not known. -/
structure Counted {H : Type} [DecidableEq H] (refs : Nat → Option (List H)) (owner : H → Option (Option Nat)) : Prop where
  count : ∀ k l h t, refs k = some l → owner h = some t → l.count h = if t = some k then 1 else 0
  live : ∀ h k, owner h = some (some k) → refs k ≠ none

namespace Counted

variable {H : Type} [DecidableEq H] {refs : Nat → Option (List H)} {owner : H → Option (Option Nat)}

theorem mem (c : Counted refs owner) {h : H} {k : Nat} (ho : owner h = some (some k)) : ∃ l, refs k = some l ∧ h ∈ l := by
  obtain ⟨l, hl⟩ := Option.ne_none_iff_exists'.1 (c.live _ _ ho)
  refine ⟨l, hl, List.count_pos_iff.1 ?_⟩
  have := c.count _ _ _ _ hl ho
  rw [if_pos rfl] at this
  omega

/-- A reference is dropped. -/
theorem unref (c : Counted refs owner) {h : H} {k : Nat} {l : List H} (hr : refs k = some l) (hm : h ∈ l)
    (ho : owner h = none ∨ owner h = some (some k)) :
    Counted (upd refs k (if l.erase h = [] then none else some (l.erase h)))
      (fun a => if a = h then (owner a).map fun _ => none else owner a) := by
  have hcnt : ∀ a, (l.erase h).count a = l.count a - if a = h then 1 else 0 := by
    intro a
    rw [List.count_erase]
    by_cases ha : a = h
    · subst ha; simp
    · have : (h == a) = false := by simpa using fun e => ha e.symm
      simp [this, ha]
  constructor
  · intro k' l' a t hk hw
    by_cases hkk : k' = k
    · subst hkk
      rw [upd_same] at hk
      split at hk
      · cases hk
      · cases hk
        rw [hcnt]
        by_cases ha : a = h
        · subst ha
          simp only [if_true] at hw ⊢
          rcases ho with ho | ho
          · rw [ho] at hw; cases hw
          · have := c.count _ _ _ _ hr ho
            rw [ho] at hw
            cases hw
            simp [this]
        · simp only [if_neg ha] at hw ⊢
          rw [c.count _ _ _ _ hr hw]; simp
    · rw [upd_ne _ _ hkk] at hk
      by_cases ha : a = h
      · subst ha
        simp only [if_true] at hw
        rcases ho with ho | ho
        · rw [ho] at hw; cases hw
        · have := c.count _ _ _ _ hk ho
          rw [ho] at hw
          cases hw
          simp [this]
          intro h; exact hkk h.symm
      · simp only [if_neg ha] at hw
        exact c.count _ _ _ _ hk hw
  · intro a k' hw
    by_cases ha : a = h
    · subst ha
      simp only [if_true] at hw
      cases ho : owner a <;> simp [ho] at hw
    · simp only [if_neg ha] at hw
      by_cases hkk : k' = k
      · subst hkk
        rw [upd_same]
        split
        · rename_i he
          have h1 := hcnt a
          rw [he, if_neg ha, c.count _ _ _ _ hr hw] at h1
          simp at h1
        · simp
      · rw [upd_ne _ _ hkk]
        exact c.live _ _ hw

/-- A reference is added. -/
theorem ref (c : Counted refs owner) {h : H} {k : Nat} {l : List H} (hr : refs k = some l)
    (ho : owner h = none ∨ owner h = some none) :
    Counted (upd refs k (some (h :: l))) (fun a => if a = h then (owner a).map fun _ => some k else owner a) := by
  constructor
  · intro k' l' a t hk hw
    by_cases hkk : k' = k
    · subst hkk
      rw [upd_same] at hk
      cases hk
      rw [List.count_cons]
      by_cases ha : a = h
      · subst ha
        simp only [if_true] at hw
        rcases ho with ho | ho
        · rw [ho] at hw; cases hw
        · have := c.count _ _ _ _ hr ho
          rw [ho] at hw
          cases hw
          simp [this]
      · simp only [if_neg ha] at hw
        have hb : (h == a) = false := by simpa using fun e => ha e.symm
        rw [c.count _ _ _ _ hr hw, hb]; simp
    · rw [upd_ne _ _ hkk] at hk
      by_cases ha : a = h
      · subst ha
        simp only [if_true] at hw
        rcases ho with ho | ho
        · rw [ho] at hw; cases hw
        · have := c.count _ _ _ _ hk ho
          rw [ho] at hw
          cases hw
          simp [this]
          intro h; exact hkk h.symm
      · simp only [if_neg ha] at hw
        exact c.count _ _ _ _ hk hw
  · intro a k' hw
    by_cases hkk : k' = k
    · subst hkk; rw [upd_same]; simp
    · rw [upd_ne _ _ hkk]
      by_cases ha : a = h
      · subst ha
        simp only [if_true] at hw
        cases ho : owner a
        · simp [ho] at hw
        · simp only [ho, Option.map_some, Option.some.injEq] at hw
          exact absurd hw.symm hkk
      · simp only [if_neg ha] at hw
        exact c.live _ _ hw

/-- A new object. -/
theorem new (c : Counted refs owner) {k : Nat} (hk : refs k = none) {h : H} (ho : owner h = none ∨ owner h = some none) :
    Counted (upd refs k (some [h])) (fun a => if a = h then (owner a).map fun _ => some k else owner a) := by
  have h0 : Counted (upd refs k (some [])) owner := by
    constructor
    · intro k' l' a t hk' hw
      by_cases hkk : k' = k
      · subst hkk
        rw [upd_same] at hk'
        cases hk'
        rw [if_neg]
        · simp
        · intro ht; subst ht
          exact c.live _ _ hw hk
      · rw [upd_ne _ _ hkk] at hk'
        exact c.count _ _ _ _ hk' hw
    · intro a k' hw
      by_cases hkk : k' = k
      · subst hkk; rw [upd_same]; simp
      · rw [upd_ne _ _ hkk]; exact c.live _ _ hw
  have h1 := h0.ref (upd_same _ _ _) ho
  have : upd (upd refs k (some [])) k (some [h]) = upd refs k (some [h]) := by
    funext j
    simp only [upd]
    split <;> rfl
  rwa [this] at h1

end Counted

end Gb
