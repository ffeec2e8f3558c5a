import Verif.Model.FmqRes
import Verif.Lemmas.Proxy
/-
Memory, mappings and file descriptors of fast message queues.
-/
set_option autoImplicit false

namespace Gb.FmqRes
open Fmq Buffers

/-- What is mapped for this pointer. -/
def reg (page : Nat) (parts : List Grantor) (i : Nat) : Option Ptr → List Region
  | some (.shared a) =>
    match parts[i]? with
    | some g => [⟨a - g.offset % page, pages page (g.offset % page + g.extent)⟩]
    | none => []
  | _ => []

def regs (page : Nat) (q : Queue) : List Region :=
  reg page q.parts 0 q.readPtr ++ reg page q.parts 1 q.writePtr ++ reg page q.parts 2 q.ring ++ reg page q.parts 3 q.flag

def regsOf (page : Nat) (x : Region) : Option Queue → Nat
  | none => 0
  | some q => (regs page q).count x

/-- What is allocated. -/
def owns (q : Queue) : What → Nat
  | .counter => if q.readPtr = some .heap then 1 else 0
  | _ => 1

def ownsOf (w : What) : Option Queue → Nat
  | none => 0
  | some q => owns q w

structure Ok (q : Queue) : Prop where
  pos : 0 < q.refs
  type : q.type = 1 ∨ q.type = 2
  heap : q.readPtr = some .heap ↔ q.type = 2
  wp : q.writePtr ≠ some .heap
  ring : q.ring ≠ some .heap
  flag : q.flag ≠ some .heap

structure Inv (page : Nat) (s : State) : Prop where
  maps : ∀ x, s.maps.count x = total (fun k => regsOf page x (s.live k)) s.n
  blocks : ∀ k w, s.blocks.count (k, w) = ownsOf w (s.live k)
  ok : ∀ k q, s.live k = some q → Ok q
  lt : ∀ k q, s.live k = some q → k < s.n

theorem Inv.init (page : Nat) : Inv page {} := by
  constructor <;> simp [total, ownsOf]

/-- The parts are small enough. -/
def Fits (page : Nat) (parts : List Grantor) : Prop := ∀ g ∈ parts, page + g.extent < 2 ^ 32

theorem grantors_fit {page size : Nat} {own ev : Bool} (h : size + 24 + page ≤ 2 ^ 32) : Fits page (grantors size own ev) := by
  intro g hg
  have : g.extent ≤ size + 8 := by
    have : ∀ g', g = g' → g'.extent ≤ size + 8 → g.extent ≤ size + 8 := by intro g' h; subst h; exact id
    cases own <;> cases ev <;> simp [grantors, grantorsFrom] at hg
    · rcases hg with h | h | h <;> exact this _ h (by simp only; omega)
    · rcases hg with h | h | h | h <;> exact this _ h (by simp only; omega)
    · rcases hg with h | h | h <;> exact this _ h (by simp only; omega)
    · rcases hg with h | h | h | h <;> exact this _ h (by simp only; omega)
  omega

theorem map_spec {page : Nat} (hp : 0 < page) {parts : List Grantor} (hf : Fits page parts) (s : State) (i : Nat) (r : Option Nat) :
    ∃ m p, s.map page parts i r = ({ s with maps := m }, p) ∧ p ≠ some .heap ∧ (∀ x, m.count x = s.maps.count x + (reg page parts i p).count x) := by
  simp only [State.map]
  split
  · rename_i g base hg
    have hm := hf g (List.mem_of_getElem? hg)
    have h1 : g.offset - g.offset / page * page = g.offset % page := by
      have := Nat.div_add_mod g.offset page
      rw [Nat.mul_comm] at this
      omega
    have h2 := Nat.mod_lt g.offset hp
    split
    · exact ⟨s.maps, none, rfl, by simp, by simp [reg]⟩
    · refine ⟨_, _, rfl, by simp, ?_⟩
      intro x
      simp only [reg, hg, mapping, h1]
      rw [Nat.mod_eq_of_lt (by omega), Nat.add_sub_cancel, List.count_cons, List.count_cons, List.count_nil]
      omega
  · exact ⟨s.maps, none, rfl, by simp, by simp [reg]⟩

theorem unmap_spec {page : Nat} {parts : List Grantor} (s : State) (i : Nat) (p : Option Ptr) (hp : p ≠ some .heap)
    (hc : ∀ x, (reg page parts i p).count x ≤ s.maps.count x) :
    ∃ m, s.unmap page parts i p = .ok { s with maps := m } ∧ (∀ x, m.count x + (reg page parts i p).count x = s.maps.count x) := by
  simp only [State.unmap]
  split
  · exact ⟨s.maps, rfl, by simp [reg]⟩
  · rename_i p
    split
    · rename_i hg
      refine ⟨s.maps, rfl, ?_⟩
      cases p <;> simp [reg, hg]
    · rename_i g hg
      split
      · exact absurd rfl hp
      · rename_i a
        simp only [reg, hg] at hc ⊢
        have hm : (⟨a - g.offset % page, pages page (g.offset % page + g.extent)⟩ : Region) ∈ s.maps := by
          have := hc ⟨a - g.offset % page, pages page (g.offset % page + g.extent)⟩
          simp at this
          exact this
        rw [if_pos hm]
        refine ⟨_, rfl, ?_⟩
        intro x
        have hcx := hc x
        rw [List.count_erase]
        simp only [List.count_cons, List.count_nil] at hcx ⊢
        by_cases hx : (⟨a - g.offset % page, pages page (g.offset % page + g.extent)⟩ : Region) = x
        · simp only [hx, beq_self_eq_true, if_true] at hcx ⊢
          omega
        · have hx' : ¬x = ⟨a - g.offset % page, pages page (g.offset % page + g.extent)⟩ := fun e => hx e.symm
          simp [hx]

theorem free_spec (s : State) (k : Nat) (w : What) (h : 0 < s.blocks.count (k, w)) :
    ∃ b, s.free k w = .ok { s with blocks := b } ∧ b.count (k, w) + 1 = s.blocks.count (k, w) ∧ ∀ y, y ≠ (k, w) → b.count y = s.blocks.count y := by
  have hm : (k, w) ∈ s.blocks := List.count_pos_iff.1 h
  refine ⟨s.blocks.erase (k, w), by simp [State.free, hm], ?_, ?_⟩
  · rw [List.count_erase_self]; omega
  · intro y hy; exact List.count_erase_of_ne hy

theorem dropCounter_spec {page : Nat} (s : State) (k : Nat) {q : Queue} (ho : Ok q) (hb : q.type = 2 → 0 < s.blocks.count (k, .counter))
    (hc : ∀ x, (reg page q.parts 0 q.readPtr).count x ≤ s.maps.count x) :
    ∃ m b, s.dropCounter page k q = .ok { s with maps := m, blocks := b } ∧
      (∀ x, m.count x + (reg page q.parts 0 q.readPtr).count x = s.maps.count x) ∧
      (b.count (k, .counter) + (if q.readPtr = some .heap then 1 else 0) = s.blocks.count (k, .counter)) ∧
      ∀ y, y ≠ (k, .counter) → b.count y = s.blocks.count y := by
  simp only [State.dropCounter]
  by_cases ht : q.type = 2
  · have hh := ho.heap.2 ht
    rw [if_pos ht, hh]
    obtain ⟨b, h1, h2, h3⟩ := free_spec s k .counter (hb ht)
    refine ⟨s.maps, b, h1, by simp [reg], ?_, h3⟩
    simpa using h2
  · have hh : q.readPtr ≠ some .heap := fun e => ht (ho.heap.1 e)
    rw [if_neg ht]
    obtain ⟨m, h1, h2⟩ := unmap_spec s 0 q.readPtr hh hc
    refine ⟨m, s.blocks, h1, h2, ?_, fun _ _ => rfl⟩
    simp [hh]

theorem destroy_inv {page : Nat} {s : State} (h : Inv page s) {k : Nat} {q : Queue} (hk : s.live k = some q) :
    ∃ s', destroy page s k q = .ok s' ∧ Inv page s' ∧ s'.fds = s.fds := by
  have ho := h.ok k q hk
  have hr : ∀ x, (regs page q).count x ≤ s.maps.count x := by
    intro x
    rw [h.maps x]
    have := le_total (f := fun k => regsOf page x (s.live k)) (h.lt k q hk)
    simpa [hk, regsOf] using this
  have hr' : ∀ x, (reg page q.parts 0 q.readPtr).count x + (reg page q.parts 1 q.writePtr).count x + (reg page q.parts 2 q.ring).count x +
      (reg page q.parts 3 q.flag).count x = (regs page q).count x := by
    intro x
    simp only [regs, List.count_append]
  have hb : ∀ w, s.blocks.count (k, w) = owns q w := by
    intro w
    rw [h.blocks k w, hk]; rfl
  obtain ⟨m0, b0, e0, c0, d0, f0⟩ := dropCounter_spec (page := page) s k ho
    (fun ht => by rw [hb]; simp [owns, ho.heap.2 ht]) (fun x => by have := hr x; have := hr' x; omega)
  obtain ⟨m1, e1, c1⟩ := unmap_spec (page := page) (parts := q.parts) { s with maps := m0, blocks := b0 } 1 q.writePtr ho.wp
    (fun x => by have := hr x; have := hr' x; have := c0 x; simp only; omega)
  obtain ⟨m2, e2, c2⟩ := unmap_spec (page := page) (parts := q.parts) { s with maps := m1, blocks := b0 } 2 q.ring ho.ring
    (fun x => by have := hr x; have := hr' x; have := c0 x; have := c1 x; simp only at *; omega)
  obtain ⟨m3, e3, c3⟩ := unmap_spec (page := page) (parts := q.parts) { s with maps := m2, blocks := b0 } 3 q.flag ho.flag
    (fun x => by have := hr x; have := hr' x; have := c0 x; have := c1 x; have := c2 x; simp only at *; omega)
  have hne : ∀ {v w : What}, v ≠ w → ((k, v) : Nat × What) ≠ (k, w) := by
    intro v w hvw e
    exact hvw (Prod.mk.inj e).2
  have g0 : ∀ w, w ≠ .counter → b0.count (k, w) = 1 := by
    intro w hw
    rw [f0 _ (hne hw), hb]
    cases w <;> first | rfl | exact absurd rfl hw
  obtain ⟨b1, e4, c4, f4⟩ := free_spec { s with maps := m3, blocks := b0 } k .grantors (by rw [show _ = 1 from g0 .grantors (by simp)]; omega)
  obtain ⟨b2, e5, c5, f5⟩ := free_spec { s with maps := m3, blocks := b1 } k .fds
    (by rw [show _ = 1 from (f4 _ (hne (by simp))).trans (g0 .fds (by simp))]; omega)
  obtain ⟨b3, e6, c6, f6⟩ := free_spec { s with maps := m3, blocks := b2 } k .desc
    (by rw [show _ = 1 from (f5 _ (hne (by simp))).trans ((f4 _ (hne (by simp))).trans (g0 .desc (by simp)))]; omega)
  obtain ⟨b4, e7, c7, f7⟩ := free_spec { s with maps := m3, blocks := b3 } k .self
    (by rw [show _ = 1 from (f6 _ (hne (by simp))).trans ((f5 _ (hne (by simp))).trans ((f4 _ (hne (by simp))).trans (g0 .self (by simp))))]; omega)
  simp only at *
  refine ⟨State.see { s with maps := m3, blocks := b4, live := upd s.live k none } (.freed k),
    by simp only [destroy, e0, e1, e2, e3, e4, e5, e6, e7, Out.andThen], ⟨?_, ?_, ?_, ?_⟩, rfl⟩
  · intro x
    have h1 := c0 x
    have h2 := c1 x
    have h3 := c2 x
    have h4 := c3 x
    have h5 := hr' x
    have h6 := h.maps x
    have h7 := Proxy.total_upd_of (regsOf page x) s.live none (h.lt k q hk)
    rw [hk] at h7
    simp only [regsOf] at h7
    show m3.count x = total (fun j => regsOf page x (upd s.live k none j)) s.n
    simp only [regsOf]
    have h8 : (total (fun k => match s.live k with | none => 0 | some q => List.count x (regs page q)) s.n) = s.maps.count x := h6.symm
    omega
  · intro j w
    show b4.count (j, w) = ownsOf w (upd s.live k none j)
    by_cases hj : j = k
    · subst hj
      rw [upd_same]
      show b4.count (j, w) = 0
      cases w with
      | counter =>
        rw [f7 _ (hne (by simp)), f6 _ (hne (by simp)), f5 _ (hne (by simp)), f4 _ (hne (by simp))]
        have h1 := hb .counter
        simp only [owns] at h1
        omega
      | grantors =>
        rw [f7 _ (hne (by simp)), f6 _ (hne (by simp)), f5 _ (hne (by simp))]
        have := g0 .grantors (by simp); omega
      | fds =>
        rw [f7 _ (hne (by simp)), f6 _ (hne (by simp))]
        have := g0 .fds (by simp)
        have := f4 (j, .fds) (hne (by simp)); omega
      | desc =>
        rw [f7 _ (hne (by simp))]
        have := g0 .desc (by simp)
        have := f4 (j, .desc) (hne (by simp))
        have := f5 (j, .desc) (hne (by simp)); omega
      | self =>
        have := g0 .self (by simp)
        have := f4 (j, .self) (hne (by simp))
        have := f5 (j, .self) (hne (by simp))
        have := f6 (j, .self) (hne (by simp)); omega
    · have hn : ∀ v, ((j, w) : Nat × What) ≠ (k, v) := fun v e => hj (Prod.mk.inj e).1
      rw [upd_ne _ _ hj, ← h.blocks, f7 _ (hn _), f6 _ (hn _), f5 _ (hn _), f4 _ (hn _), f0 _ (hn _)]
  · intro j q' hq
    simp only [State.see, upd] at hq
    split at hq
    · cases hq
    · exact h.ok j q' hq
  · intro j q' hq
    simp only [State.see, upd] at hq
    split at hq
    · cases hq
    · exact h.lt j q' hq

theorem Inv.see {page : Nat} {s : State} (h : Inv page s) (e : Ev) : Inv page (s.see e) := ⟨h.maps, h.blocks, h.ok, h.lt⟩

theorem counter_spec {page : Nat} (hp : 0 < page) {parts : List Grantor} (hf : Fits page parts) (s : State) (k : Nat) {type : Nat}
    (ht : type = 1 ∨ type = 2) (sys : Sys) :
    ∃ m b p, s.counter page k type parts sys = ({ s with maps := m, blocks := b }, p) ∧
      (∀ x, m.count x = s.maps.count x + (reg page parts 0 p).count x) ∧ (p = some .heap ↔ type = 2) ∧
      b.count (k, .counter) = s.blocks.count (k, .counter) + (if p = some .heap then 1 else 0) ∧
      ∀ y, y ≠ (k, .counter) → b.count y = s.blocks.count y := by
  simp only [State.counter]
  by_cases h1 : type = 1
  · rw [if_pos h1]
    obtain ⟨m, p, e, h2, h3⟩ := map_spec hp hf s 0 (sys.mmap 0)
    refine ⟨m, s.blocks, p, by rw [e], h3, ⟨fun h => absurd h h2, fun h => by omega⟩, by simp [h2], fun _ _ => rfl⟩
  · rw [if_neg h1]
    refine ⟨s.maps, (k, .counter) :: s.blocks, some .heap, rfl, by simp [reg], ⟨fun _ => by omega, fun _ => rfl⟩, by simp, ?_⟩
    intro y hy
    rw [List.count_cons, if_neg (by simpa using hy.symm)]; rfl

theorem map_some {page : Nat} (hp : 0 < page) {parts : List Grantor} (hf : Fits page parts) (s : State) {i b : Nat} {g : Grantor}
    (hg : parts[i]? = some g) (he : 0 < g.extent) {r : Option Nat} (hr : r = some b) : (s.map page parts i r).2 ≠ none := by
  have hm := hf g (List.mem_of_getElem? hg)
  have h1 : g.offset - g.offset / page * page = g.offset % page := by
    have := Nat.div_add_mod g.offset page
    rw [Nat.mul_comm] at this
    omega
  have h2 := Nat.mod_lt g.offset hp
  have h3 : (mapping page g).length ≠ 0 := by
    simp only [mapping, h1]
    rw [Nat.mod_eq_of_lt (by omega)]
    omega
  subst hr
  simp [State.map, hg, h3]

/-- mmap doesn't fail when it matters. -/
def Mapped (a : Args) (sys : Sys) : Prop := a.noReset = true ∨ (sys.mmap 1 ≠ none ∧ (a.type = 1 → sys.mmap 0 ≠ none))

theorem parts01 (size : Nat) (own ev : Bool) : ∃ g0 g1, (grantors size own ev)[0]? = some g0 ∧ (grantors size own ev)[1]? = some g1 ∧
    0 < g0.extent ∧ 0 < g1.extent := by
  cases own <;> cases ev <;> simp [grantors, grantorsFrom]

theorem failed_inv {page : Nat} {s : State} (h : Inv page s) (fds : List Nat) :
    ∃ s', ((State.free { s.alloc s.n .self with n := s.n + 1, fds := fds } s.n .self).andThen fun s => .ok (s.see .failed)) = .ok s' ∧
      Inv page s' ∧ s'.fds = fds ∧ s'.live = s.live ∧ s'.log = s.log ++ [.failed] := by
  refine ⟨State.see { s with n := s.n + 1, fds := fds } .failed, by simp [State.free, State.alloc, Out.andThen], ⟨?_, h.blocks, h.ok, ?_⟩, rfl, rfl, rfl⟩
  · intro x
    show s.maps.count x = total (fun k => regsOf page x (s.live k)) (s.n + 1)
    have : s.live s.n = none := by
      cases hl : s.live s.n with
      | none => rfl
      | some q => have := h.lt _ _ hl; omega
    simp only [total, this]
    rw [h.maps x]; rfl
  · intro k q hk
    have := h.lt k q hk
    show k < s.n + 1
    omega

theorem create_inv {page : Nat} (hp : 0 < page) {s : State} (h : Inv page s) {a : Args} {c : Cfg} {sys : Sys}
    (ht : a.type = 1 ∨ a.type = 2) (hf : c.size + 24 + page ≤ 2 ^ 32) (hm : Mapped a sys) :
    ∃ s', create page s a c sys = .ok s' ∧ Inv page s' := by
  simp only [create]
  split
  · obtain ⟨s', h1, h2, _⟩ := failed_inv h s.fds
    exact ⟨s', h1, h2⟩
  · rename_i fd hfd
    split
    · have hfit : Fits page (grantors c.size a.buffer.isNone a.eventFlag) := grantors_fit hf
      obtain ⟨g0, g1, hg0, hg1, hx0, hx1⟩ := parts01 c.size a.buffer.isNone a.eventFlag
      generalize grantors c.size a.buffer.isNone a.eventFlag = parts at *
      generalize hs1 : State.alloc (State.alloc (State.alloc
        { s.alloc s.n .self with n := s.n + 1, fds := fd :: (s.alloc s.n .self).fds } s.n .fds) s.n .grantors) s.n .desc = s1
      have e1 : s1 = { s with
          n := s.n + 1
          fds := fd :: s.fds
          blocks := (s.n, .desc) :: (s.n, .grantors) :: (s.n, .fds) :: (s.n, .self) :: s.blocks } := by rw [← hs1]; rfl
      have hrp : a.noReset = false → a.type = 1 → (s1.counter page s.n a.type parts sys).2 ≠ none := by
        intro hn h1
        rcases hm with hm | ⟨_, hm⟩
        · rw [hm] at hn; cases hn
        · obtain ⟨b, hb⟩ := Option.ne_none_iff_exists'.1 (hm h1)
          simp only [State.counter, h1, if_true]
          exact map_some hp hfit s1 hg0 hx0 hb
      obtain ⟨m0, b0, rp, h0, c0, p0, d0, f0⟩ := counter_spec hp hfit s1 s.n ht sys
      have hwp : a.noReset = false → ((State.map page { s1 with maps := m0, blocks := b0 } parts 1 (sys.mmap 1)).2 ≠ none) := by
        intro hn
        rcases hm with hm | ⟨hm, _⟩
        · rw [hm] at hn; cases hn
        · obtain ⟨b, hb⟩ := Option.ne_none_iff_exists'.1 hm
          exact map_some hp hfit _ hg1 hx1 hb
      obtain ⟨m1, wp, h1, w1, c1⟩ := map_spec hp hfit { s1 with maps := m0, blocks := b0 } 1 (sys.mmap 1)
      obtain ⟨m2, ring, h2, w2, c2⟩ := map_spec hp hfit { s1 with maps := m1, blocks := b0 } 2 (sys.mmap 2)
      obtain ⟨m3, flag, h3, w3, c3⟩ := map_spec hp hfit { s1 with maps := m2, blocks := b0 } 3 (sys.mmap 3)
      have hcr : crashes a rp wp = false := by
        rw [h0] at hrp
        rw [h1] at hwp
        simp only [crashes]
        cases hn : a.noReset with
        | false =>
          simp only [Bool.not_false, if_true, Bool.or_eq_false_iff, Option.isNone_eq_false_iff]
          constructor
          · rcases ht with ht | ht
            · exact Option.isSome_iff_ne_none.2 (hrp hn ht)
            · rw [p0.2 ht]; rfl
          · exact Option.isSome_iff_ne_none.2 (hwp hn)
        | true =>
          simp only [Bool.not_true, Bool.false_eq_true, if_false]
          rcases ht with ht | ht
          · simp [ht]
          · rw [p0.2 ht]; simp
      refine ⟨State.see { s1 with maps := m3, blocks := b0, live := upd s1.live s.n (some ⟨1, a.type, parts, rp, wp, ring, flag⟩) } (.new s.n), ?_, ?_⟩
      · simp only [h0, h1, hcr, h2, h3, Bool.false_eq_true, if_false]
      subst e1
      simp only at *
      have hnone : s.live s.n = none := by
        cases hl : s.live s.n with
        | none => rfl
        | some q => have := h.lt _ _ hl; omega
      have hz : ∀ w, s.blocks.count (s.n, w) = 0 := by
        intro w; rw [h.blocks, hnone]; rfl
      refine ⟨?_, ?_, ?_, ?_⟩
      · intro x
        show m3.count x = total (fun k => regsOf page x (upd s.live s.n _ k)) (s.n + 1)
        rw [Proxy.total_new (regsOf page x), ← h.maps x, c3, c2, c1, c0]
        simp only [regsOf, regs, List.count_append]
        omega
      · intro k w
        show b0.count (k, w) = ownsOf w (upd s.live s.n _ k)
        by_cases hk : k = s.n
        · subst hk
          rw [upd_same]
          simp only [ownsOf]
          cases w with
          | counter =>
            rw [d0]
            simp [owns, hz]
          | _ =>
            rw [f0 _ (by simp)]
            simp [owns, hz]
        · rw [upd_ne _ _ hk, ← h.blocks, f0 _ (by simp [hk])]
          simp [List.count_cons, hk, Ne.symm hk]
      · intro k q hq
        simp only [State.see, upd] at hq
        split at hq
        · cases hq; exact ⟨by simp, ht, p0, w1, w2, w3⟩
        · exact h.ok k q hq
      · intro k q hq
        simp only [State.see, upd] at hq
        split at hq
        · rename_i hk; show k < s.n + 1; omega
        · have := h.lt k q hq; show k < s.n + 1; omega
    · obtain ⟨s', h1, h2, _⟩ := failed_inv h (fd :: s.fds)
      exact ⟨s', h1, h2⟩

end Gb.FmqRes
