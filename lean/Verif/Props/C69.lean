import Verif.Lemmas.FmqRes
/-
C69. What a fast message queue takes from the system is returned.
-/
set_option autoImplicit false

namespace Gb.C69
open FmqRes
open Fmq (config Cfg)

/-- The type is one of those which exist, the queue is smaller than 4 gigabytes, and mmap doesn't fail. -/
def Good (page : Nat) (_ : State) : Label → Prop
  | .new a sys => (a.type = 1 ∨ a.type = 2) ∧ a.itemSize * a.numItems + 24 + page ≤ 2 ^ 32 ∧ Mapped a sys
  | _ => True

theorem config_none {i n : Nat} {b : Bool} {f : Option Nat} (h : config i n b f = none) :
    i = 0 ∨ n = 0 ∨ 2 ^ 64 ≤ i * n ∨ ∃ b, f = some b ∧ b < i * n := by
  simp only [config] at h
  split at h
  · simp_all
  split at h
  · simp_all
  split at h
  · rename_i h0 _ hn
    right; right; left
    have := (Nat.div_lt_iff_lt_mul (Nat.pos_of_ne_zero h0)).1 hn
    rw [Nat.mul_comm]; omega
  split at h
  · rename_i hf
    right; right; right
    rw [Option.any_eq_true] at hf
    obtain ⟨b, h1, h2⟩ := hf
    refine ⟨b, h1, ?_⟩
    have := Nat.mod_le (n * i) (2 ^ 64)
    rw [Nat.mul_comm]
    simp at h2
    omega
  · cases h

theorem config_some {i n : Nat} {b : Bool} {f : Option Nat} {c : Cfg} (h : config i n b f = some c) :
    i ≠ 0 ∧ n ≠ 0 ∧ i * n < 2 ^ 64 ∧ ∀ b, f = some b → i * n ≤ b := by
  simp only [config] at h
  split at h
  · cases h
  split at h
  · cases h
  split at h
  · cases h
  rename_i h1 h2 h3
  have h4 : n * i < 2 ^ 64 := by
    have := (Nat.le_div_iff_mul_le (Nat.pos_of_ne_zero h1)).1 (Nat.le_of_not_gt h3)
    omega
  split at h
  · cases h
  · rename_i hf
    refine ⟨h1, h2, by rw [Nat.mul_comm]; exact h4, fun b hb => ?_⟩
    subst hb
    simp at hf
    rw [Nat.mul_comm]
    omega

theorem config_size {i n : Nat} {b : Bool} {f : Option Nat} {c : Cfg} (h : config i n b f = some c) : c.size ≤ i * n := by
  simp only [config] at h
  repeat' split at h
  all_goals first
    | (cases h; done)
    | cases h
      rw [Nat.mul_comm]
      exact Nat.mod_le _ _

theorem step_inv {page : Nat} (hp : 0 < page) {s : State} (h : Inv page s) {l : Label} (hl : Good page s l) :
    step page s l ≠ .ub ∧ ∀ s', step page s l = .ok s' → Inv page s' := by
  cases l with
  | new a sys =>
    simp only [step]
    split
    · exact ⟨by simp, fun s' e => by cases e; exact h.see _⟩
    · rename_i c hc
      obtain ⟨h1, h2, h3⟩ := hl
      have := config_size hc
      obtain ⟨s', e, hi⟩ := create_inv (c := c) hp h h1 (by omega) h3
      rw [e]
      exact ⟨by simp, fun s'' e => by cases e; exact hi⟩
  | ref k =>
    simp only [step]
    split
    · simp
    · rename_i q hk
      refine ⟨by simp, fun s' e => ?_⟩
      cases e
      refine Inv.see ⟨?_, ?_, ?_, ?_⟩ _
      · intro x
        rw [h.maps x]
        refine Buffers.total_congr fun j _ => ?_
        by_cases hj : j = k
        · subst hj; simp [upd_same, hk, regsOf, regs]
        · simp [upd_ne _ _ hj]
      · intro j w
        rw [h.blocks j w]
        by_cases hj : j = k
        · subst hj; simp only [upd_same, hk, ownsOf]; cases w <;> rfl
        · simp [upd_ne _ _ hj]
      · intro j q' hq
        simp only [upd] at hq
        split at hq
        · cases hq
          have ho := h.ok k q hk
          exact ⟨by simp, ho.type, ho.heap, ho.wp, ho.ring, ho.flag⟩
        · exact h.ok j q' hq
      · intro j q' hq
        simp only [upd] at hq
        split at hq
        · rename_i hj; subst hj; exact h.lt _ q hk
        · exact h.lt j q' hq
  | unref k =>
    simp only [step]
    split
    · simp
    · rename_i q hk
      have ho := h.ok k q hk
      split
      · obtain ⟨s', e, hi, _⟩ := destroy_inv (h.see (.unref k)) (k := k) (q := q) hk
        rw [e]
        exact ⟨by simp, fun s'' e => by cases e; exact hi⟩
      · rename_i hr
        refine ⟨by simp, fun s' e => ?_⟩
        cases e
        refine Inv.see ⟨?_, ?_, ?_, ?_⟩ _
        · intro x
          rw [h.maps x]
          refine Buffers.total_congr fun j _ => ?_
          by_cases hj : j = k
          · subst hj; simp [upd_same, hk, regsOf, regs]
          · simp [upd_ne _ _ hj]
        · intro j w
          rw [h.blocks j w]
          by_cases hj : j = k
          · subst hj; simp only [upd_same, hk, ownsOf]; cases w <;> rfl
          · simp [upd_ne _ _ hj]
        · intro j q' hq
          simp only [upd] at hq
          split at hq
          · cases hq
            have := ho.pos
            exact ⟨by simp only; omega, ho.type, ho.heap, ho.wp, ho.ring, ho.flag⟩
          · exact h.ok j q' hq
        · intro j q' hq
          simp only [upd] at hq
          split at hq
          · rename_i hj; subst hj; exact h.lt _ q hk
          · exact h.lt j q' hq

theorem reach_inv {page : Nat} (hp : 0 < page) {s : State} (h : ReachIf (step page) (Good page) {} s) : Inv page s := by
  induction h with
  | init => exact Inv.init page
  | step l _ hl hs ih => exact (step_inv hp ih hl).2 _ hs

/-- No memory is used or freed after it has been freed, and nothing is unmapped except what has been mapped. -/
theorem C69_safe_partial {page : Nat} (hp : 0 < page) {s : State} (h : ReachIf (step page) (Good page) {} s) {l : Label}
    (hl : Good page s l) : step page s l ≠ .ub := (step_inv hp (reach_inv hp h) hl).1

/-! ### The history -/

/-- Only the memory may be different. -/
def Same (s s' : State) : Prop := s'.live = s.live ∧ s'.log = s.log ∧ s'.n = s.n ∧ s'.fds = s.fds

theorem Same.refl (s : State) : Same s s := ⟨rfl, rfl, rfl, rfl⟩
theorem Same.trans {s t u : State} (h : Same s t) (g : Same t u) : Same s u := by
  obtain ⟨a, b, c, d⟩ := h
  obtain ⟨a', b', c', d'⟩ := g
  exact ⟨a'.trans a, b'.trans b, c'.trans c, d'.trans d⟩

theorem same_free {s s' : State} {k : Nat} {w : What} (h : s.free k w = .ok s') : Same s s' := by
  simp only [State.free] at h
  split at h
  · cases h; exact Same.refl _
  · cases h

theorem same_unmap {page : Nat} {s s' : State} {parts : List Fmq.Grantor} {i : Nat} {p : Option Ptr} (h : s.unmap page parts i p = .ok s') :
    Same s s' := by
  simp only [State.unmap] at h
  repeat' split at h
  all_goals first
    | (cases h; done)
    | (cases h; exact Same.refl _)

theorem same_map (page : Nat) (s : State) (parts : List Fmq.Grantor) (i : Nat) (r : Option Nat) : Same s (s.map page parts i r).1 := by
  simp only [State.map]
  repeat' split
  all_goals exact Same.refl _

theorem same_counter (page : Nat) (s : State) (k type : Nat) (parts : List Fmq.Grantor) (sys : Sys) : Same s (s.counter page k type parts sys).1 := by
  simp only [State.counter]
  split
  · exact same_map _ _ _ _ _
  · exact Same.refl _

theorem same_drop {page : Nat} {s s' : State} {k : Nat} {q : Queue} (h : s.dropCounter page k q = .ok s') : Same s s' := by
  simp only [State.dropCounter] at h
  repeat' split at h
  all_goals first
    | (cases h; done)
    | (cases h; exact Same.refl _)
    | exact same_free h
    | exact same_unmap h

theorem andThen_ok {o : Out State} {f : State → Out State} {s : State} (h : o.andThen f = .ok s) : ∃ s1, o = .ok s1 ∧ f s1 = .ok s := by
  cases o with
  | ok s1 => exact ⟨s1, rfl, h⟩
  | no => cases h
  | ub => cases h

theorem destroy_hist {page : Nat} {s s' : State} {k : Nat} {q : Queue} (h : destroy page s k q = .ok s') :
    s'.live = upd s.live k none ∧ s'.log = s.log ++ [.freed k] ∧ s'.n = s.n ∧ s'.fds = s.fds := by
  simp only [destroy] at h
  obtain ⟨s1, h1, h⟩ := andThen_ok h
  obtain ⟨s2, h2, h⟩ := andThen_ok h
  obtain ⟨s3, h3, h⟩ := andThen_ok h
  obtain ⟨s4, h4, h⟩ := andThen_ok h
  obtain ⟨s5, h5, h⟩ := andThen_ok h
  obtain ⟨s6, h6, h⟩ := andThen_ok h
  obtain ⟨s7, h7, h⟩ := andThen_ok h
  obtain ⟨s8, h8, h⟩ := andThen_ok h
  obtain ⟨a, b, c, d⟩ := (((((((same_drop h1).trans (same_unmap h2)).trans (same_unmap h3)).trans (same_unmap h4)).trans (same_free h5)).trans
    (same_free h6)).trans (same_free h7)).trans (same_free h8)
  cases h
  simp [State.see, a, b, c, d]

theorem create_hist {page : Nat} {s s' : State} {a : Args} {c : Cfg} {sys : Sys} (h : create page s a c sys = .ok s') :
    s'.n = s.n + 1 ∧ s'.fds = sys.memfd.toList ++ s.fds ∧
    (((sys.memfd = none ∨ sys.truncated = false) ∧ s'.live = s.live ∧ s'.log = s.log ++ [.failed]) ∨
     (sys.memfd ≠ none ∧ sys.truncated = true ∧ (∃ q, s'.live = upd s.live s.n (some q) ∧ q.refs = 1) ∧ s'.log = s.log ++ [.new s.n])) := by
  simp only [create] at h
  split at h
  · rename_i hm
    obtain ⟨s1, h1, h⟩ := andThen_ok h
    obtain ⟨a, b, c, d⟩ := same_free h1
    cases h
    simp [State.see, a, b, c, d, hm, State.alloc]
  · rename_i fd hm
    split at h
    · rename_i ht
      split at h
      · cases h
      · cases h
        have g1 := same_counter page ((((({ s.alloc s.n .self with n := s.n + 1, fds := fd :: (s.alloc s.n .self).fds } : State).alloc s.n .fds).alloc s.n .grantors).alloc s.n .desc)) s.n a.type (Fmq.grantors c.size a.buffer.isNone a.eventFlag) sys
        obtain ⟨a, b, c, d⟩ := ((g1.trans (same_map page _ _ 1 (sys.mmap 1))).trans (same_map page _ _ 2 (sys.mmap 2))).trans (same_map page _ _ 3 (sys.mmap 3))
        refine ⟨c, ?_, Or.inr ⟨by simp [hm], ht, ⟨_, congrArg (fun l => upd l s.n _) a, rfl⟩, ?_⟩⟩
        · rw [hm]; exact d
        · exact congrArg (fun l => l ++ [Ev.new s.n]) b
    · rename_i ht
      obtain ⟨s1, h1, h⟩ := andThen_ok h
      obtain ⟨a, b, c, d⟩ := same_free h1
      cases h
      simp [State.see, a, b, c, d, hm, State.alloc, Bool.eq_false_iff.2 ht]

/-- How many references there are. -/
structure Hist (s : State) : Prop where
  live : ∀ k q, s.live k = some q → 0 < q.refs ∧ k < s.n ∧ s.log.count (.new k) = 1 ∧ s.log.count (.freed k) = 0 ∧
    q.refs + s.log.count (.unref k) = 1 + s.log.count (.ref k)
  dead : ∀ k, s.live k = none → s.log.count (.freed k) = s.log.count (.new k) ∧ s.log.count (.new k) ≤ 1 ∧
    s.log.count (.unref k) = s.log.count (.new k) + s.log.count (.ref k)
  fresh : ∀ k, s.n ≤ k → s.log.count (.new k) = 0 ∧ s.log.count (.ref k) = 0

theorem Hist.other {s : State} (h : Hist s) (e : Ev) (n : Nat) (hn : s.n ≤ n) (fds : List Nat) (m : List Region) (b : List (Nat × What))
    (he : ∀ k, e ≠ .new k ∧ e ≠ .ref k ∧ e ≠ .unref k ∧ e ≠ .freed k) :
    Hist { s with n := n, fds := fds, maps := m, blocks := b, log := s.log ++ [e] } := by
  refine ⟨fun k q hq => ?_, fun k hk => ?_, fun k hk => ?_⟩
  · have := h.live k q hq
    have := he k
    simp only [List.count_append, List.count_singleton]
    grind
  · have := h.dead k hk
    have := he k
    simp only [List.count_append, List.count_singleton]
    grind
  · have := h.fresh k (Nat.le_trans hn hk)
    have := he k
    simp only [List.count_append, List.count_singleton]
    grind

theorem hist {page : Nat} {s : State} (h : Reach (step page) {} s) : Hist s := by
  refine Reach.invariant (P := Hist) ?_ ?_ h
  · exact ⟨by simp, by simp, by simp⟩
  · intro s l s' h hs
    cases l with
    | new a sys =>
      simp only [step] at hs
      split at hs
      · cases hs
        exact h.other .refused s.n (Nat.le_refl _) s.fds s.maps s.blocks (by simp)
      · obtain ⟨hn, _, ⟨_, hl, hg⟩ | ⟨_, _, ⟨q, hl, hq⟩, hg⟩⟩ := create_hist hs
        · have := h.other .failed s'.n (by omega) s'.fds s'.maps s'.blocks (by simp)
          rw [← hg, ← hl] at this
          exact this
        · have hd : s.live s.n = none := by
            cases hk : s.live s.n with
            | none => rfl
            | some q => have := h.live _ q hk; omega
          have hD := h.dead _ hd
          have hF := h.fresh s.n (Nat.le_refl _)
          refine ⟨fun k q' hk => ?_, fun k hk => ?_, fun k hk => ?_⟩
          · rw [hl] at hk
            simp only [hg, List.count_append, List.count_singleton, hn]
            by_cases he : k = s.n
            · subst he
              rw [upd_same] at hk
              cases hk
              grind
            · rw [upd_ne _ _ he] at hk
              have := h.live k q' hk
              grind
          · rw [hl] at hk
            simp only [hg, List.count_append, List.count_singleton]
            by_cases he : k = s.n
            · subst he
              rw [upd_same] at hk
              cases hk
            · rw [upd_ne _ _ he] at hk
              have := h.dead k hk
              grind
          · have := h.fresh k (by omega)
            simp only [hg, List.count_append, List.count_singleton]
            grind
    | ref k =>
      simp only [step] at hs
      split at hs
      · cases hs
      · rename_i q hk
        cases hs
        have hL := h.live k q hk
        refine ⟨fun j q' hj => ?_, fun j hj => ?_, fun j hj => ?_⟩
        · simp only [State.see, List.count_append, List.count_singleton] at hj ⊢
          by_cases he : j = k
          · subst he
            rw [upd_same] at hj
            cases hj
            grind
          · rw [upd_ne _ _ he] at hj
            have := h.live j q' hj
            grind
        · simp only [State.see, List.count_append, List.count_singleton] at hj ⊢
          by_cases he : j = k
          · subst he
            rw [upd_same] at hj
            cases hj
          · rw [upd_ne _ _ he] at hj
            have := h.dead j hj
            grind
        · have := h.fresh j hj
          have hjk : j ≠ k := by intro e; subst e; have : s.n ≤ j := hj; omega
          simp only [State.see, List.count_append, List.count_singleton]
          grind
    | unref k =>
      simp only [step] at hs
      split at hs
      · cases hs
      · rename_i q hk
        have hL := h.live k q hk
        split at hs
        · obtain ⟨hl, hg, hn, _⟩ := destroy_hist hs
          replace hg : s'.log = s.log ++ [.unref k] ++ [.freed k] := hg
          replace hl : s'.live = upd s.live k none := hl
          replace hn : s'.n = s.n := hn
          refine ⟨fun j q' hj => ?_, fun j hj => ?_, fun j hj => ?_⟩
          · rw [hl] at hj
            simp only [hg, hn, List.count_append, List.count_singleton]
            by_cases he : j = k
            · subst he
              rw [upd_same] at hj
              cases hj
            · rw [upd_ne _ _ he] at hj
              have := h.live j q' hj
              grind
          · rw [hl] at hj
            simp only [hg, List.count_append, List.count_singleton]
            by_cases he : j = k
            · subst he
              grind
            · rw [upd_ne _ _ he] at hj
              have := h.dead j hj
              grind
          · have := h.fresh j (by omega)
            simp only [hg, List.count_append, List.count_singleton]
            grind
        · cases hs
          refine ⟨fun j q' hj => ?_, fun j hj => ?_, fun j hj => ?_⟩
          · simp only [State.see, List.count_append, List.count_singleton] at hj ⊢
            by_cases he : j = k
            · subst he
              rw [upd_same] at hj
              cases hj
              grind
            · rw [upd_ne _ _ he] at hj
              have := h.live j q' hj
              grind
          · simp only [State.see, List.count_append, List.count_singleton] at hj ⊢
            by_cases he : j = k
            · subst he
              rw [upd_same] at hj
              cases hj
            · rw [upd_ne _ _ he] at hj
              have := h.dead j hj
              grind
          · have := h.fresh j hj
            simp only [State.see, List.count_append, List.count_singleton]
            grind

/-! ### The claims -/

/-- A queue exists from when it was created until the last reference to it is gone; then it's freed, once. Whatever the system does. -/
theorem C69_refs {page : Nat} {s : State} (h : Reach (step page) {} s) (k : Nat) (hn : Ev.new k ∈ s.log) :
    s.log.count (.unref k) ≤ 1 + s.log.count (.ref k) ∧
    (s.log.count (.freed k) = if s.log.count (.unref k) = 1 + s.log.count (.ref k) then 1 else 0) := by
  have H := hist h
  have hc := List.count_pos_iff.2 hn
  cases hk : s.live k with
  | none => have := H.dead k hk; grind
  | some q => have := H.live k q hk; grind

/-- Once all the references are gone, nothing remains mapped or allocated. -/
theorem C69_all_partial {page : Nat} (hp : 0 < page) {s : State} (h : ReachIf (step page) (Good page) {} s)
    (hf : ∀ k, Ev.new k ∈ s.log → s.log.count (.unref k) = 1 + s.log.count (.ref k)) : s.maps = [] ∧ s.blocks = [] := by
  have hi := reach_inv hp h
  have H := hist h.reach
  have hd : ∀ k, s.live k = none := by
    intro k
    cases hk : s.live k with
    | none => rfl
    | some q =>
      have := H.live k q hk
      have := hf k (List.count_pos_iff.1 (by omega))
      omega
  constructor
  · refine List.eq_nil_iff_forall_not_mem.2 fun r hr => ?_
    have := List.count_pos_iff.2 hr
    rw [hi.maps r] at this
    obtain ⟨k, _, hk⟩ := Buffers.total_pos this
    rw [hd k] at hk
    simp [regsOf] at hk
  · refine List.eq_nil_iff_forall_not_mem.2 fun ⟨k, w⟩ hr => ?_
    have := List.count_pos_iff.2 hr
    rw [hi.blocks k w, hd k] at this
    simp [ownsOf] at this

/-- A queue which isn't freed still has its memory: all the blocks, and the regions which were mapped for it. -/
theorem C69_keeps_partial {page : Nat} (hp : 0 < page) {s : State} (h : ReachIf (step page) (Good page) {} s) {k : Nat} (hn : Ev.new k ∈ s.log)
    (hf : s.log.count (.unref k) < 1 + s.log.count (.ref k)) :
    ∃ q, s.live k = some q ∧ (∀ r ∈ regs page q, r ∈ s.maps) ∧ (∀ w ∈ [What.self, .fds, .grantors, .desc], (k, w) ∈ s.blocks) := by
  have hi := reach_inv hp h
  have H := hist h.reach
  have hc := List.count_pos_iff.2 hn
  cases hk : s.live k with
  | none => have := H.dead k hk; omega
  | some q =>
    refine ⟨q, rfl, fun r hr => ?_, fun w hw => ?_⟩
    · refine List.count_pos_iff.1 ?_
      rw [hi.maps r]
      have := Buffers.le_total (f := fun k => regsOf page r (s.live k)) (hi.lt k q hk)
      simp only [hk] at this
      have h0 : regsOf page r (some q) = (regs page q).count r := rfl
      have := List.count_pos_iff.2 hr
      omega
    · refine List.count_pos_iff.1 ?_
      rw [hi.blocks k w, hk]
      simp only [List.mem_cons, List.not_mem_nil, or_false] at hw
      rcases hw with e | e | e | e <;> subst e <;> simp [ownsOf, owns]

/-- The pointers of a queue which isn't freed point to memory which is mapped: everything which belongs to that part of the queue is
within the pages of a region, and there are no more pages than it takes. -/
theorem C69_covers_partial {page : Nat} (hp : 0 < page) {s : State} (h : ReachIf (step page) (Good page) {} s) {k : Nat} {q : Queue}
    (hk : s.live k = some q) {i a : Nat} {g : Fmq.Grantor} (hg : q.parts[i]? = some g)
    (hi : (i = 0 ∧ q.readPtr = some (.shared a)) ∨ (i = 1 ∧ q.writePtr = some (.shared a)) ∨ (i = 2 ∧ q.ring = some (.shared a)) ∨
      (i = 3 ∧ q.flag = some (.shared a))) :
    ∃ r ∈ s.maps, r.base ≤ a ∧ a + g.extent ≤ r.base + r.pages * page ∧ r.pages * page < g.offset % page + g.extent + page := by
  have hv := reach_inv hp h
  have hr : (⟨a - g.offset % page, pages page (g.offset % page + g.extent)⟩ : Region) ∈ regs page q := by
    unfold regs
    rcases hi with ⟨e, x⟩ | ⟨e, x⟩ | ⟨e, x⟩ | ⟨e, x⟩ <;> subst e <;> simp [reg, x, hg]
  refine ⟨⟨a - g.offset % page, pages page (g.offset % page + g.extent)⟩, ?_, Nat.sub_le _ _, ?_, ?_⟩
  · refine List.count_pos_iff.1 ?_
    rw [hv.maps]
    have := Buffers.le_total (f := fun k => regsOf page ⟨a - g.offset % page, pages page (g.offset % page + g.extent)⟩ (s.live k))
      (hv.lt k q hk)
    simp only [hk] at this
    have h0 : regsOf page ⟨a - g.offset % page, pages page (g.offset % page + g.extent)⟩ (some q) =
      (regs page q).count ⟨a - g.offset % page, pages page (g.offset % page + g.extent)⟩ := rfl
    have := List.count_pos_iff.2 hr
    omega
  · have h1 := Nat.div_add_mod (g.offset % page + g.extent + page - 1) page
    have h2 := Nat.mod_lt (g.offset % page + g.extent + page - 1) hp
    have h3 : (g.offset % page + g.extent + page - 1) / page * page = page * ((g.offset % page + g.extent + page - 1) / page) :=
      Nat.mul_comm _ _
    show _ ≤ a - g.offset % page + (g.offset % page + g.extent + page - 1) / page * page
    omega
  · have h1 := Nat.div_add_mod (g.offset % page + g.extent + page - 1) page
    have h3 : (g.offset % page + g.extent + page - 1) / page * page = page * ((g.offset % page + g.extent + page - 1) / page) :=
      Nat.mul_comm _ _
    show (g.offset % page + g.extent + page - 1) / page * page < _
    omega

/-- NULL is only returned if the arguments make no sense, or if the memory can't be created. -/
theorem C69_null {page : Nat} {s s' : State} {a : Args} {sys : Sys} (hs : step page s (.new a sys) = .ok s') :
    (s'.log = s.log ++ [.refused] ∧ s'.fds = s.fds ∧ s'.maps = s.maps ∧ s'.blocks = s.blocks ∧
      (a.itemSize = 0 ∨ a.numItems = 0 ∨ 2 ^ 64 ≤ a.itemSize * a.numItems ∨ ∃ b, a.buffer = some b ∧ b < a.itemSize * a.numItems)) ∨
    (s'.log = s.log ++ [.failed] ∧ (sys.memfd = none ∨ sys.truncated = false)) ∨
    (s'.log = s.log ++ [.new s.n] ∧ s.n < s'.n ∧ sys.memfd ≠ none ∧ sys.truncated = true ∧ a.itemSize ≠ 0 ∧ a.numItems ≠ 0 ∧
      a.itemSize * a.numItems < 2 ^ 64 ∧ ∀ b, a.buffer = some b → a.itemSize * a.numItems ≤ b) := by
  simp only [step] at hs
  split at hs
  · rename_i hc
    cases hs
    exact Or.inl ⟨rfl, rfl, rfl, rfl, config_none hc⟩
  · rename_i c hc
    obtain ⟨hn, _, ⟨hw, hl, hg⟩ | ⟨h1, h2, ⟨q, hl, hq⟩, hg⟩⟩ := create_hist hs
    · exact Or.inr (Or.inl ⟨hg, hw⟩)
    · exact Or.inr (Or.inr ⟨hg, by omega, h1, h2, config_some hc⟩)

/-- No file descriptor is opened except the one of the memory. -/
theorem C69_fds {page : Nat} {s s' : State} {l : Label} (hs : step page s l = .ok s') :
    s'.fds = s.fds ∨ ∃ a sys fd, l = .new a sys ∧ sys.memfd = some fd ∧ s'.fds = fd :: s.fds := by
  cases l with
  | new a sys =>
    simp only [step] at hs
    split at hs
    · cases hs; exact Or.inl rfl
    · obtain ⟨_, hf, _⟩ := create_hist hs
      cases hm : sys.memfd with
      | none => rw [hm] at hf; exact Or.inl hf
      | some fd => rw [hm] at hf; exact Or.inr ⟨a, sys, fd, rfl, hm, hf⟩
  | ref k =>
    simp only [step] at hs
    split at hs
    · cases hs
    · cases hs; exact Or.inl rfl
  | unref k =>
    simp only [step] at hs
    split at hs
    · cases hs
    · split at hs
      · exact Or.inl (destroy_hist hs).2.2.2
      · cases hs; exact Or.inl rfl

/-! ### What isn't so -/

/-- Eight integers, which many may read, with an event flag. -/
def small : Args := ⟨4, 8, 1, true, false, none⟩

/-- The same for readers which may lose something. -/
def lossy : Args := ⟨4, 8, 2, false, false, none⟩

/-- Everything works. -/
def fine (base : Nat) : Sys := ⟨some 7, true, fun i => some (base + 65536 * i)⟩

/-- The end of a sequence of steps of which all satisfy the condition. -/
theorem reachIf {page : Nat} {ls : List Label} {s s' : State} (h : ReachIf (step page) (Good page) {} s) (hl : ∀ l ∈ ls, ∀ t, Good page t l)
    (he : exec (step page) s ls = .ok s') : ReachIf (step page) (Good page) {} s' := by
  induction ls generalizing s with
  | nil => cases he; exact h
  | cons l ls ih =>
    simp only [exec] at he
    split at he
    · rename_i s1 hs
      exact ih (.step l h (hl l (by simp) s) hs) (fun m hm => hl m (by simp [hm])) he
    · cases he
    · cases he

/-- **The file descriptor of the memory is never closed** (gbinder_fmq.c:206-231): after the last reference is gone the descriptor remains,
and the memory with it. -/
theorem C69_fails_fd : ∃ s, ReachIf (step 4096) (Good 4096) {} s ∧ s.log = [.new 0, .unref 0, .freed 0] ∧ s.fds = [7] := by
  refine ⟨_, reachIf (ls := [.new small (fine 65536), .unref 0]) .init ?_ rfl, rfl, rfl⟩
  intro l hl t
  simp only [List.mem_cons, List.not_mem_nil, or_false] at hl
  rcases hl with e | e <;> subst e
  · simp [Good, small, fine, Mapped]
  · trivial

/-- **If ftruncate fails then the file descriptor remains open as well** (gbinder_fmq.c:289-292, 367-369), although NULL is returned. -/
theorem C69_fails_trunc : ∃ s, ReachIf (step 4096) (Good 4096) {} s ∧ s.log = [.failed] ∧ s.fds = [7] := by
  refine ⟨_, reachIf (ls := [.new small { fine 65536 with truncated := false }]) .init ?_ rfl, rfl, rfl⟩
  intro l hl t
  simp only [List.mem_cons, List.not_mem_nil, or_false] at hl
  subst hl
  simp [Good, small, fine, Mapped]

/-- **If mmap fails then NULL is written to** (gbinder_fmq.c:328-347): there's no check before the counters are reset. -/
theorem C69_fails_mmap : step 4096 {} (.new small { fine 65536 with mmap := fun _ => none }) = .ub := rfl

/-- **A queue of four gigabytes or more can't be freed** (gbinder_fmq.c:171-178, 199-202): it's mapped with the length cut to 32 bits
and unmapped with the whole length. -/
theorem C69_fails_large : ∃ s, exec (step 4096) {} [.new ⟨65536, 65537, 1, false, false, none⟩ (fine 65536)] = .ok s ∧
    step 4096 s (.unref 0) = .ub := ⟨_, rfl, rfl⟩

/-- **Any other type is accepted, and then what was allocated is unmapped** (gbinder_fmq.c:212-219, 328): it's taken for one type when it's
created and for the other when it's freed. -/
theorem C69_fails_type : ∃ s, exec (step 4096) {} [.new { lossy with type := 3 } (fine 65536)] = .ok s ∧
    step 4096 s (.unref 0) = .ub := ⟨_, rfl, rfl⟩

/-! ### Non-trivial cases -/

/-- Two queues of both types, one of which is gone; the other has two regions and five blocks. -/
example : ∃ s, ReachIf (step 4096) (Good 4096) {} s ∧
    s.log = [.new 0, .ref 0, .new 1, .unref 0, .unref 0, .freed 0] ∧ s.maps.length = 2 ∧ s.blocks.length = 5 := by
  refine ⟨_, reachIf (ls := [.new small (fine 65536), .ref 0, .new lossy (fine 1048576), .unref 0, .unref 0]) .init ?_ rfl, rfl, rfl, rfl⟩
  intro l hl t
  simp only [List.mem_cons, List.not_mem_nil, or_false] at hl
  rcases hl with e | e | e | e | e <;> subst e
  · simp [Good, small, fine, Mapped]
  · trivial
  · simp [Good, lossy, fine, Mapped]
  · trivial
  · trivial

/-- And when the other is gone too then there's nothing. -/
example : ∃ s, ReachIf (step 4096) (Good 4096) {} s ∧
    s.log = [.new 0, .new 1, .unref 1, .freed 1, .unref 0, .freed 0] ∧ s.maps = [] ∧ s.blocks = [] := by
  refine ⟨_, reachIf (ls := [.new small (fine 65536), .new lossy (fine 1048576), .unref 1, .unref 0]) .init ?_ rfl, rfl, rfl, rfl⟩
  intro l hl t
  simp only [List.mem_cons, List.not_mem_nil, or_false] at hl
  rcases hl with e | e | e | e <;> subst e
  · simp [Good, small, fine, Mapped]
  · simp [Good, lossy, fine, Mapped]
  · trivial
  · trivial

/-- All three outcomes of gbinder_fmq_new. -/
example : (∃ s, step 4096 {} (.new { small with numItems := 0 } (fine 0)) = .ok s ∧ s.log = [.refused]) ∧
    (∃ s, step 4096 {} (.new small { fine 0 with memfd := none }) = .ok s ∧ s.log = [.failed]) ∧
    (∃ s, step 4096 {} (.new small (fine 65536)) = .ok s ∧ s.log = [.new 0]) := ⟨⟨_, rfl, rfl⟩, ⟨_, rfl, rfl⟩, ⟨_, rfl, rfl⟩⟩

/-- A queue with all four parts, its ring buffer begins in the middle of a page. -/
example : ∃ s, ReachIf (step 4096) (Good 4096) {} s ∧ ∃ q, s.live 0 = some q ∧ ∃ g a, q.parts[2]? = some g ∧ q.ring = some (.shared a) ∧
    g.extent ≠ 0 ∧ g.offset % 4096 ≠ 0 := by
  refine ⟨_, reachIf (ls := [.new small (fine 65536)]) .init ?_ rfl, _, rfl, _, _, rfl, rfl, by decide, by decide⟩
  intro l hl t
  simp only [List.mem_cons, List.not_mem_nil, or_false] at hl
  subst hl
  simp [Good, small, fine, Mapped]

end Gb.C69
