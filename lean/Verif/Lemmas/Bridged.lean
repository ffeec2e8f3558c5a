import Verif.Lemmas.Sharing
import Verif.Spec.Bridged
/- The invariant of a proxy and its handle. -/
set_option autoImplicit false

namespace Gb.Bridged
open Sharing (Item pop mine Covered)

/-- BR_ACQUIRE hasn't been acknowledged. -/
def Task.acking : Task → Bool
  | .acquire _ => true
  | .acquired _ => true
  | _ => false

/-- BR_ACQUIRE hasn't been handled. -/
def Task.todo : Task → Bool
  | .acquire _ => true
  | _ => false

/-- There's something that keeps the handle until the proxy is acquired. -/
def Guarded (s : State) : Prop :=
  s.acquired = true ∨ s.dead = true ∨ s.dropped = true ∨ (∃ t, (t, Item.acquire) ∈ s.inbox) ∨
  ∃ l1 l2 k, s.tasks = l1 ++ .acquire k :: l2 ∧
    (k = true ∨ .done ∈ l2 ∨ (∃ t, (t, Kind.request) ∈ s.sent) ∨ .request ∈ s.waiting)

structure Core (s : State) : Prop where
  idle : s.live = false → s.refs = 0 ∧ s.acquired = false
  loc : s.localRefs = s.inbox.countP (·.2 = .acquire) + s.tasks.countP Task.acking + s.arriving.length +
    s.calls.length + s.served.length
  acks : s.inbox.countP (·.2 = .acquire) + s.tasks.countP Task.acking ≤ if s.has then 1 else 0
  credit : s.strong + s.inbox.countP (·.2 = .acquire) + s.tasks.countP Task.todo =
    (if s.has then 1 else 0) + s.inbox.countP (·.2 = .release) + s.tasks.countP (· = .release)
  nodes : s.todo.countP (·.2 = .node) ≤ if s.has then 0 else 1
  proc : s.proc = true → s.has = true
  work : s.has = false → 0 < s.shared → 0 < s.todo.countP (·.2 = .node)
  cover : ∀ t, Covered (mine t s.inbox ++ mine t s.todo)
  count : ∀ t, s.sent.countP (·.1 = t) = (mine t s.inbox ++ mine t s.todo).count .complete
  one : ∀ t, s.sent.countP (·.1 = t) ≤ 1
  todoItems : ∀ x ∈ s.todo, x.2 = .node ∨ x.2 = .complete
  inboxItems : ∀ x ∈ s.inbox, x.2 ≠ .node
  guard : s.has = true → Guarded s
  data : (∀ d ∈ s.arriving, d = true) ∧ (∀ d ∈ s.calls, d = true) ∧ ∀ d ∈ s.served, d = true

structure Inv (s : State) : Prop extends Core s where
  acq : s.acq = if s.acquired then 1 else 0
  node : s.node = none ↔ s.holds + s.acq + s.other = 0
  told : ∀ n ∈ s.told, s.dead = false → s.dropped = false → s.node = some n
  used : s.told ≠ [] ↔ Used s

theorem inv_init : Inv {} where
  idle := by simp [State.refs]
  loc := by simp
  acks := by simp
  credit := by simp
  nodes := by simp
  proc := by simp
  work := by simp [State.shared]
  cover := fun t => trivial
  count := by simp [mine]
  one := by simp
  todoItems := by simp
  inboxItems := by simp
  guard := by simp
  data := by simp
  acq := by simp
  node := by simp [State.holds]
  told := by simp
  used := by simp [Used]

theorem Core.sending {s : State} (i : Core s) {t : Nat}
    (h : (t, .acquire) ∈ s.inbox ∨ (t, .node) ∈ s.todo) : ∃ k, (t, k) ∈ s.sent := by
  have : Item.complete ∈ mine t s.inbox ++ mine t s.todo := by
    rcases h with h | h
    · exact (i.cover t).mem (.inl rfl) (List.mem_append.2 (.inl (Sharing.mem_mine.2 h)))
    · exact (i.cover t).mem (.inr rfl) (List.mem_append.2 (.inr (Sharing.mem_mine.2 h)))
  have h1 := i.count t
  have h2 := List.count_pos_iff.2 this
  rw [← h1, List.countP_pos_iff] at h2
  obtain ⟨⟨u, k⟩, h3, h4⟩ := h2
  simp only [decide_eq_true_eq] at h4
  subst h4
  exact ⟨k, h3⟩

theorem Guarded.holds {s : State} (i : Core s) (h : Guarded s) :
    s.acquired = true ∨ s.dead = true ∨ s.dropped = true ∨ 0 < s.holds := by
  rcases h with h | h | h | ⟨t, h⟩ | ⟨l1, l2, k, h1, h2⟩
  · exact .inl h
  · exact .inr (.inl h)
  · exact .inr (.inr (.inl h))
  · obtain ⟨k, hk⟩ := i.sending (.inl h)
    have := List.length_pos_of_mem hk
    simp only [State.holds]; omega
  · refine .inr (.inr (.inr ?_))
    simp only [State.holds]
    rcases h2 with h2 | h2 | ⟨t, h2⟩ | h2
    · subst h2
      have : 0 < s.tasks.countP Task.keeps := List.countP_pos_iff.2 ⟨.acquire true, by simp [h1], rfl⟩
      omega
    · have : 0 < s.tasks.countP Task.keeps := List.countP_pos_iff.2 ⟨.done, by simp [h1, h2], rfl⟩
      omega
    · have := List.length_pos_of_mem h2; omega
    · have := List.length_pos_of_mem h2; omega

theorem Core.alive {s : State} (i : Core s) (h : 0 < s.shared) :
    0 < s.refs ∧ s.live = true ∧ (s.acquired = true ∨ s.dead = true ∨ s.dropped = true ∨ 0 < s.holds) := by
  have hr : 0 < s.refs ∧ (s.acquired = true ∨ s.dead = true ∨ s.dropped = true ∨ 0 < s.holds) := by
    cases hh : s.has with
    | true =>
      refine ⟨?_, (i.guard hh).holds i⟩
      have hc := i.credit
      simp only [hh, if_true] at hc
      simp only [State.refs]
      by_cases h1 : 0 < s.inbox.countP (·.2 = .acquire)
      · obtain ⟨⟨t, x⟩, h2, h3⟩ := List.countP_pos_iff.1 h1
        simp only [decide_eq_true_eq] at h3
        subst h3
        obtain ⟨k, hk⟩ := i.sending (.inl h2)
        have := List.length_pos_of_mem hk
        omega
      · have := List.countP_le_length (p := Task.todo) (l := s.tasks)
        omega
    | false =>
      obtain ⟨⟨t, x⟩, h2, h3⟩ := List.countP_pos_iff.1 (i.work hh h)
      simp only [decide_eq_true_eq] at h3
      subst h3
      obtain ⟨k, hk⟩ := i.sending (.inr h2)
      have := List.length_pos_of_mem hk
      simp only [State.refs, State.holds]
      exact ⟨by omega, .inr (.inr (.inr (by omega)))⟩
  refine ⟨hr.1, ?_, hr.2⟩
  cases hl : s.live with
  | true => rfl
  | false => have := (i.idle hl).1; omega

theorem Core.shared {s : State} (i : Core s) (h : Used s) : 0 < s.shared := by
  have := i.loc
  simp only [State.shared]
  rcases h with h | h | h
  · omega
  · have := List.length_pos_iff.2 h; omega
  · have := List.length_pos_iff.2 h; omega

/-! ### The ends of the steps -/

theorem Core.settle {s : State} (i : Core s) : Core s.settle := by
  unfold State.settle
  split
  · exact { i with }
  · exact i

theorem Core.unused {s : State} (i : Core s) : Core s.unused := by
  unfold State.unused
  split
  · rename_i h
    exact { i with proc := fun _ => h.2 }
  · exact i

theorem Core.forget {s : State} (i : Core s) : Core s.forget := by
  unfold State.forget
  split
  · exact { i with }
  · exact i

/-- The rest of the invariant, before the kernel forgets what's not needed. -/
structure Pre (s : State) : Prop where
  acq : s.acq = if s.acquired then 1 else 0
  node : s.node = none → s.holds + s.acq + s.other = 0
  told : ∀ n ∈ s.told, s.dead = false → s.dropped = false → s.node = some n
  used : s.told ≠ [] ↔ Used s

theorem Pre.inv {s : State} (p : Pre s) (i : Core s) (h : 0 < s.holds + s.acq + s.other ∨ s.node = none) : Inv s where
  toCore := i
  acq := p.acq
  node := ⟨p.node, fun h1 => by rcases h with h | h; omega; exact h⟩
  told := p.told
  used := p.used

theorem Pre.settle {s : State} (p : Pre s) (i : Core s) : Inv s.settle := by
  have hc := i.settle
  unfold State.settle at hc ⊢
  split
  · rename_i h0
    rw [if_pos h0] at hc
    refine { toCore := hc, acq := p.acq, node := ⟨fun _ => h0, fun _ => rfl⟩, told := ?_, used := p.used }
    intro n hn hd hr
    have hu := p.used.1 (List.ne_nil_of_mem hn)
    have ha := (i.alive (i.shared hu)).2.2
    have := p.acq
    dsimp only at hd hr
    rw [hd, hr] at ha
    rcases ha with h | h | h | h
    · rw [h] at this; simp only [if_true] at this; omega
    · cases h
    · cases h
    · omega
  · rename_i h0
    exact p.inv i (.inl (by omega))

theorem Inv.pre {s : State} (i : Inv s) : Pre s := ⟨i.acq, i.node.1, i.told, i.used⟩

/-! ### The steps -/

theorem Core.congr {s s' : State} (i : Core s) (h : s'.live = s.live) (h1 : s'.refs = s.refs)
    (h2 : s'.acquired = s.acquired) (h3 : s'.localRefs = s.localRefs) (h4 : s'.inbox = s.inbox)
    (h5 : s'.tasks = s.tasks) (h6 : s'.arriving = s.arriving ∧ s'.calls = s.calls ∧ s'.served = s.served)
    (h7 : s'.has = s.has) (h8 : s'.strong = s.strong) (h9 : s'.todo = s.todo) (h10 : s'.proc = s.proc)
    (h11 : s'.peers = s.peers) (h12 : s'.sent = s.sent) (h13 : Guarded s → Guarded s') : Core s' := by
  obtain ⟨h6, h6a, h6b⟩ := h6
  constructor
  · rw [h, h1, h2]; exact i.idle
  · rw [h3, h4, h5, h6, h6a, h6b]; exact i.loc
  · rw [h4, h5, h7]; exact i.acks
  · rw [h4, h5, h7, h8]; exact i.credit
  · rw [h9, h7]; exact i.nodes
  · rw [h10, h7]; exact i.proc
  · simp only [State.shared]; rw [h7, h11, h3, h9]; exact i.work
  · rw [h4, h9]; exact i.cover
  · rw [h12, h4, h9]; exact i.count
  · rw [h12]; exact i.one
  · rw [h9]; exact i.todoItems
  · rw [h4]; exact i.inboxItems
  · rw [h7]; exact fun hh => h13 (i.guard hh)
  · rw [h6, h6a, h6b]; exact i.data

theorem inv_receive {s s' : State} {n : Nat} (i : Inv s) (hs : step s (.receive n) = .ok s') : Inv s' := by
  simp only [step] at hs
  split at hs
  · rename_i hn
    cases hs
    refine { toCore := { i.toCore with }, acq := i.acq, node := ?_, told := ?_, used := i.used }
    · simp only [State.holds, reduceCtorEq, false_iff]; omega
    · intro m hm hd hr
      have := i.told m hm hd hr
      rw [this] at hn
      have h : m = n := by simpa using hn
      rw [h]
  · cases hs

theorem inv_unrefBuffer {s s' : State} (i : Inv s) (hs : step s .unrefBuffer = .ok s') : Inv s' := by
  simp only [step] at hs
  split at hs
  · rename_i hn
    cases hs
    refine Pre.settle ⟨i.acq, fun h => ?_, i.told, i.used⟩ { i.toCore with }
    have := i.node.1 h
    simp only [State.holds] at this ⊢; omega
  · cases hs

theorem inv_otherAcquire {s s' : State} (i : Inv s) (hs : step s .otherAcquire = .ok s') : Inv s' := by
  simp only [step] at hs
  split at hs
  · rename_i hn
    cases hs
    refine Pre.inv ⟨i.acq, fun h => absurd h hn, i.told, i.used⟩ { i.toCore with } (.inl ?_)
    simp only; omega
  · cases hs

theorem inv_otherRelease {s s' : State} (i : Inv s) (hs : step s .otherRelease = .ok s') : Inv s' := by
  simp only [step] at hs
  split at hs
  · rename_i hn
    cases hs
    refine Pre.settle ⟨i.acq, fun h => ?_, i.told, i.used⟩ { i.toCore with }
    have := i.node.1 h
    simp only [State.holds] at this ⊢; omega
  · cases hs

/-- Nobody has a proxy which isn't there. -/
theorem Inv.gone {s : State} (i : Inv s) (h : s.live = false) : s.told = [] ∧ s.shared = 0 := by
  have h1 : s.shared = 0 := by
    cases hh : s.shared with
    | zero => rfl
    | succ n => have := (i.alive (by omega)).2.1; rw [h] at this; cases this
  refine ⟨Classical.byContradiction fun hn => ?_, h1⟩
  have := i.shared (i.used.1 hn)
  omega

theorem inv_create {s s' : State} {k : Kind} (i : Inv s) (hs : step s (.create k) = .ok s') : Inv s' := by
  simp only [step] at hs
  split at hs
  · rename_i hn
    cases hs
    obtain ⟨ht, hsh⟩ := i.gone hn.2
    obtain ⟨hr, ha⟩ := i.idle hn.2
    have hc := i.credit
    have hl := i.loc
    have hacq := i.acq
    simp only [State.refs] at hr
    have hb : s.built = [] := List.length_eq_zero_iff.1 (by omega)
    have hsent : s.sent = [] := List.length_eq_zero_iff.1 (by omega)
    have htasks : s.tasks = [] := List.length_eq_zero_iff.1 (by omega)
    have hhas : s.has = false := by
      cases hh : s.has with
      | false => rfl
      | true =>
        rw [hh, htasks] at hc
        simp only [if_true, List.countP_nil] at hc
        obtain ⟨⟨t, x⟩, h2, h3⟩ := List.countP_pos_iff.1 (show 0 < s.inbox.countP (·.2 = .acquire) by omega)
        simp only [decide_eq_true_eq] at h3
        subst h3
        obtain ⟨k, hk⟩ := i.sending (.inl h2)
        rw [hsent] at hk; cases hk
    refine Pre.inv ⟨?_, ?_, ?_, i.used⟩ { i.toCore with idle := ?_, guard := ?_ } (.inl ?_)
    · simp only [ha, Bool.false_eq_true, if_false] at hacq ⊢; exact hacq
    · intro h; have := i.node.1 h; simp only [State.holds] at this; omega
    · simp only [ht, List.not_mem_nil, false_implies, implies_true]
    · intro h; cases h
    · simp only [hhas, Bool.false_eq_true, false_implies]
    · simp only [State.holds]; omega
  · cases hs

theorem inv_find {s s' : State} {k : Kind} (i : Inv s) (hs : step s (.find k) = .ok s') : Inv s' := by
  simp only [step] at hs
  split at hs
  · rename_i hn
    cases hs
    refine Pre.inv ⟨i.acq, ?_, i.told, i.used⟩ { i.toCore with idle := ?_ } (.inl ?_)
    · intro h; have := i.node.1 h; simp only [State.holds] at this; omega
    · simp only [hn.2, Bool.true_eq_false, false_implies]
    · simp only [State.holds]; omega
  · cases hs

theorem inv_discard {s s' : State} {k : Kind} (i : Inv s) (hs : step s (.discard k) = .ok s') : Inv s' := by
  simp only [step] at hs
  split at hs
  · rename_i hk
    cases hs
    have hlen := List.length_erase_of_mem hk
    have hpos := List.length_pos_of_mem hk
    refine Pre.settle ⟨i.acq, fun h => ?_, i.told, i.used⟩ { i.toCore with idle := ?_ }
    · have := i.node.1 h; simp only [State.holds] at this; omega
    · intro h; have := (i.idle h).1; simp only [State.refs] at this; omega
  · cases hs

/-- The rest of the invariant, before those who don't have the proxy anymore are forgotten. -/
structure Half (s : State) : Prop where
  acq : s.acq = if s.acquired then 1 else 0
  node : s.node = none ↔ s.holds + s.acq + s.other = 0
  told : ∀ n ∈ s.told, s.dead = false → s.dropped = false → s.node = some n
  used : Used s → s.told ≠ []

theorem Half.unused {s : State} (h : Half s) : Half s.unused := by
  unfold State.unused
  split
  · exact { h with }
  · exact h

theorem Half.forget {s : State} (h : Half s) (i : Core s) : Inv s.forget := by
  have hc := i.forget
  unfold State.forget at hc ⊢
  split
  · rename_i h0
    rw [if_pos h0] at hc
    refine { toCore := hc, acq := h.acq, node := h.node, told := ?_, used := ?_ }
    · simp
    · simp only [ne_eq, not_true_eq_false, false_iff, Used]
      obtain ⟨h1, h2, h3⟩ := h0
      simp [h1, h2, h3]
  · rename_i h0
    refine { toCore := i, acq := h.acq, node := h.node, told := h.told, used := ⟨fun _ => ?_, h.used⟩ }
    simp only [Used]
    by_cases h1 : s.arriving = []
    · by_cases h2 : s.calls = []
      · exact .inl (by simp only [h1, h2, and_true] at h0; omega)
      · exact .inr (.inr h2)
    · exact .inr (.inl h1)

theorem Inv.half {s : State} (i : Inv s) : Half s := ⟨i.acq, i.node, i.told, i.used.2⟩

theorem inv_more {s s' : State} (i : Inv s) (hs : step s .more = .ok s') : Inv s' := by
  simp only [step] at hs
  split at hs
  · rename_i hp
    cases hs
    refine { i with work := fun h1 h2 => i.work h1 (by simp only [State.shared]; omega), used := ?_ }
    have := i.used.2 (.inl hp)
    exact ⟨fun _ => .inl (by simp only; omega), fun _ => this⟩
  · cases hs

theorem inv_less {s s' : State} (i : Inv s) (hs : step s .less = .ok s') : Inv s' := by
  simp only [step] at hs
  split at hs
  · rename_i hp
    cases hs
    have hc : Core { s with peers := s.peers - 1 } :=
      { i.toCore with work := fun h1 h2 => i.work h1 (by simp only [State.shared] at h2 ⊢; omega) }
    refine (Half.unused ?_).forget hc.unused
    exact { i.half with used := fun _ => i.used.2 (.inl hp) }
  · cases hs

theorem inv_call {s s' : State} {d : Bool} (hd : d = true) (i : Inv s) (hs : step s (.call d) = .ok s') : Inv s' := by
  subst hd
  simp only [step] at hs
  split at hs
  · rename_i hp
    cases hs
    refine { i with loc := ?_, work := fun h1 h2 => i.work h1 (by simp only [State.shared]; omega), used := ?_, data := ?_ }
    · have := i.loc; simp only [List.length_append, List.length_singleton]; omega
    · obtain ⟨h1, h2⟩ := i.data
      refine ⟨?_, h2⟩
      intro d hd
      rcases List.mem_append.1 hd with h | h
      · exact h1 d h
      · simpa using h
    · have := i.used.2 (.inl hp)
      exact ⟨fun _ => .inl hp, fun _ => this⟩
  · cases hs

theorem inv_accept {s s' : State} {d : Bool} (i : Inv s) (hs : step s (.accept d) = .ok s') : Inv s' := by
  simp only [step] at hs
  split at hs
  · rename_i hm
    cases hs
    have hu : Used s := .inr (.inl (List.ne_nil_of_mem hm))
    have hl := (i.alive (i.shared hu)).2.1
    have hd := i.data.1 d hm
    subst hd
    have hlen := List.length_erase_of_mem hm
    have hpos := List.length_pos_of_mem hm
    simp only [hl, if_true]
    refine { i with idle := ?_, loc := ?_, data := ?_, used := ?_ }
    · simp only [hl, Bool.true_eq_false, false_implies]
    · have := i.loc; simp only [List.length_append, List.length_singleton]; omega
    · obtain ⟨h1, h2, h3⟩ := i.data
      refine ⟨fun d hd => h1 d (List.mem_of_mem_erase hd), ?_, h3⟩
      intro d hd
      rcases List.mem_append.1 hd with h | h
      · exact h2 d h
      · simpa using h
    · have := i.used.2 hu
      exact ⟨fun _ => .inr (.inr (by simp)), fun _ => this⟩
  · cases hs

theorem inv_handle {s s' : State} {d : Bool} (i : Inv s) (hs : step s (.handle d) = .ok s') : Inv s' := by
  simp only [step] at hs
  split at hs
  · rename_i hm
    cases hs
    have hu : Used s := .inr (.inr (List.ne_nil_of_mem hm))
    have hl := (i.alive (i.shared hu)).2.1
    have hd := i.data.2.1 d hm
    subst hd
    have hlen := List.length_erase_of_mem hm
    have hpos := List.length_pos_of_mem hm
    refine Half.forget { i.half with used := fun _ => i.used.2 hu } { i.toCore with idle := ?_, loc := ?_, data := ?_ }
    · simp only [hl, Bool.true_eq_false, false_implies]
    · have := i.loc; simp only [List.length_append, List.length_singleton]; omega
    · obtain ⟨h1, h2, h3⟩ := i.data
      refine ⟨h1, fun d hd => h2 d (List.mem_of_mem_erase hd), ?_⟩
      intro d hd
      rcases List.mem_append.1 hd with h | h
      · exact h3 d h
      · simpa using h
  · cases hs

theorem Inv.unused {s : State} (i : Inv s) : Inv s.unused := by
  have hc := i.toCore.unused
  unfold State.unused at hc ⊢
  split
  · rename_i h
    rw [if_pos h] at hc
    exact { i with toCore := hc }
  · exact i

theorem inv_answered {s s' : State} {d : Bool} (i : Inv s) (hs : step s (.answered d) = .ok s') : Inv s' := by
  simp only [step] at hs
  split at hs
  · rename_i hm
    cases hs
    have hd := i.data.2.2 d hm
    subst hd
    have hlen := List.length_erase_of_mem hm
    have hpos := List.length_pos_of_mem hm
    have hl := i.loc
    simp only [if_true]
    refine Inv.unused { i with idle := ?_, loc := ?_, data := ?_, work := ?_ }
    · intro h
      have := (i.idle h).1
      simp only [State.refs] at this; omega
    · simp only; omega
    · intro h1 h2
      exact i.work h1 (by simp only [State.shared] at h2 ⊢; omega)
    · obtain ⟨h1, h2, h3⟩ := i.data
      exact ⟨h1, h2, fun d hd => h3 d (List.mem_of_mem_erase hd)⟩
  · cases hs

theorem inv_leave {s s' : State} (i : Inv s) (hs : step s .leave = .ok s') : Inv s' := by
  simp only [step] at hs
  split at hs
  · cases hs
    refine { i with idle := fun h => ?_ }
    obtain ⟨h1, h2⟩ := i.idle h
    simp only [State.refs] at h1 ⊢
    exact ⟨by omega, h2⟩
  · cases hs

theorem inv_die {s s' : State} (i : Inv s) (hs : step s .die = .ok s') : Inv s' := by
  cases hs
  exact { i with guard := fun _ => .inr (.inl rfl), told := fun _ _ h => by cases h }

theorem inv_drop {s s' : State} (i : Inv s) (hs : step s .drop = .ok s') : Inv s' := by
  cases hs
  exact { i with guard := fun _ => .inr (.inr (.inl rfl)), told := fun _ _ _ h => by cases h }

theorem inv_free {s s' : State} (i : Inv s) (hs : step s .free = .ok s') : Inv s' := by
  simp only [step] at hs
  split at hs
  · rename_i hg
    cases hs
    have hsh : s.shared = 0 := by
      cases hh : s.shared with
      | zero => rfl
      | succ n => have := (i.alive (by omega)).1; omega
    have hc := i.credit
    have hr := hg.2
    simp only [State.refs] at hr
    have hsent : s.sent = [] := List.length_eq_zero_iff.1 (by omega)
    have htasks : s.tasks = [] := List.length_eq_zero_iff.1 (by omega)
    have hhas : s.has = false := by
      cases hh : s.has with
      | false => rfl
      | true =>
        rw [hh, htasks] at hc
        simp only [if_true, List.countP_nil] at hc
        obtain ⟨⟨t, x⟩, h2, h3⟩ := List.countP_pos_iff.1 (show 0 < s.inbox.countP (·.2 = .acquire) by omega)
        simp only [decide_eq_true_eq] at h3
        subst h3
        obtain ⟨k, hk⟩ := i.sending (.inl h2)
        rw [hsent] at hk; cases hk
    have hacq := i.acq
    by_cases ha : s.acquired = true
    · rw [if_pos (by exact ha)]
      rw [ha, if_pos rfl] at hacq
      refine Pre.settle ⟨?_, fun h => ?_, i.told, i.used⟩ { i.toCore with idle := fun _ => ⟨hg.2, rfl⟩, guard := ?_ }
      · simp only [Bool.false_eq_true, if_false]; omega
      · have := i.node.1 h; simp only [State.holds] at this ⊢; omega
      · simp only [hhas, Bool.false_eq_true, false_implies]
    · rw [if_neg (by exact ha)]
      exact { i with idle := fun _ => ⟨hg.2, by simpa using ha⟩ }
  · cases hs

theorem Guarded.mono {s s' : State} (h : Guarded s) (h1 : s'.acquired = s.acquired) (h2 : s'.dead = s.dead)
    (h3 : s'.dropped = s.dropped) (h4 : ∀ u, (u, Item.acquire) ∈ s.inbox → (u, Item.acquire) ∈ s'.inbox)
    (l : List Task) (h5 : s'.tasks = s.tasks ++ l)
    (h6 : (∃ t, (t, Kind.request) ∈ s.sent) ∨ .request ∈ s.waiting →
      .done ∈ l ∨ (∃ t, (t, Kind.request) ∈ s'.sent) ∨ .request ∈ s'.waiting) : Guarded s' := by
  unfold Guarded at h ⊢
  rw [h1, h2, h3, h5]
  rcases h with h | h | h | ⟨t, h⟩ | ⟨l1, l2, k, h, h'⟩
  · exact .inl h
  · exact .inr (.inl h)
  · exact .inr (.inr (.inl h))
  · exact .inr (.inr (.inr (.inl ⟨t, h4 _ h⟩)))
  · refine .inr (.inr (.inr (.inr ⟨l1, l2 ++ l, k, by simp [h], ?_⟩)))
    rcases h' with h' | h' | h'
    · exact .inl h'
    · exact .inr (.inl (List.mem_append.2 (.inl h')))
    · rcases h6 h' with h | h
      · exact .inr (.inl (List.mem_append.2 (.inr h)))
      · exact .inr (.inr h)

theorem Guarded.tail {s s' : State} {x : Task} {l : List Task} (h : Guarded s) (hx : x.todo = false)
    (hs : s.tasks = x :: l) (h1 : s'.acquired = s.acquired) (h2 : s'.dead = s.dead)
    (h3 : s'.dropped = s.dropped) (h4 : s'.inbox = s.inbox) (h5 : s'.tasks = l) (h6 : s'.sent = s.sent)
    (h7 : s'.waiting = s.waiting) : Guarded s' := by
  unfold Guarded at h ⊢
  rw [h1, h2, h3, h4, h5, h6, h7]
  rcases h with h | h | h | h | ⟨l1, l2, k, h, h'⟩
  · exact .inl h
  · exact .inr (.inl h)
  · exact .inr (.inr (.inl h))
  · exact .inr (.inr (.inr (.inl h)))
  · rw [hs] at h
    cases l1 with
    | nil => cases h; cases hx
    | cons y l1 => cases h; exact .inr (.inr (.inr (.inr ⟨l1, l2, k, rfl, h'⟩)))

theorem inv_send {s s' : State} {t : Nat} {k : Kind} (i : Inv s) (hs : step s (.send t k) = .ok s') : Inv s' := by
  simp only [step] at hs
  split at hs
  · rename_i hg
    cases hs
    obtain ⟨hk, hfree⟩ := hg
    have hlen := List.length_erase_of_mem hk
    have hpos := List.length_pos_of_mem hk
    have hlive : s.live = true := by
      cases h : s.live with
      | true => rfl
      | false => have := (i.idle h).1; simp only [State.refs] at this; omega
    have hholds : 0 < s.holds := by simp only [State.holds]; omega
    obtain ⟨n, hn⟩ : ∃ n, s.node = some n := by
      cases h : s.node with
      | some n => exact ⟨n, rfl⟩
      | none => have := i.node.1 h; omega
    have hsub : ∀ u, (s.sent ++ [(t, k)]).countP (·.1 = u) = s.sent.countP (·.1 = u) + if u = t then 1 else 0 := by
      intro u
      rw [List.countP_append]
      by_cases h : u = t
      · simp [h]
      · simp [h, Ne.symm h]
    have hone : ∀ u, (s.sent ++ [(t, k)]).countP (·.1 = u) ≤ 1 := by
      intro u
      rw [hsub]
      split
      · rename_i h
        subst h
        have : s.sent.countP (·.1 = u) = 0 := by
          rw [List.countP_eq_zero]
          intro x hx
          simpa using hfree x hx
        omega
      · exact i.one u
    have htold : ∀ m ∈ s.told ++ s.node.toList, s.dead = false → s.dropped = false → s.node = some m := by
      intro m hm hd hr
      rcases List.mem_append.1 hm with h | h
      · exact i.told m h hd hr
      · rw [hn] at h ⊢; simp only [Option.toList_some, List.mem_singleton] at h; rw [h]
    have hused : s.told ++ s.node.toList ≠ [] := by rw [hn]; simp
    have hnode : ∀ h' : State, h'.holds = s.holds → h'.acq = s.acq → h'.other = s.other → h'.node = s.node →
        (h'.node = none ↔ h'.holds + h'.acq + h'.other = 0) := by
      intro h' e1 e2 e3 e4; rw [e1, e2, e3, e4]; exact i.node
    by_cases hh : s.has = true
    · simp only [State.incNode]
      rw [if_pos hh]
      refine { i with
        idle := ?_, nodes := ?_, work := ?_, cover := ?_, count := ?_, one := hone, todoItems := ?_, guard := ?_
        node := hnode _ ?_ rfl rfl rfl, told := htold, used := ⟨fun _ => .inl (Nat.succ_pos _), fun _ => hused⟩ }
      · simp only [hlive, Bool.true_eq_false, false_implies]
      · have := i.nodes; simpa using this
      · simp only [hh, Bool.true_eq_false, false_implies]
      · intro u
        rw [Sharing.mine_append, Sharing.mine_one, ← List.append_assoc]
        split
        · exact (i.cover u).complete
        · simpa using i.cover u
      · intro u
        rw [hsub, Sharing.mine_append, Sharing.mine_one, ← List.append_assoc, List.count_append, ← i.count u]
        by_cases hu : u = t
        · simp [hu]
        · simp [hu, Ne.symm hu]
      · intro x hx
        rcases List.mem_append.1 hx with h | h
        · exact i.todoItems x h
        · simp only [List.mem_singleton] at h; subst h; exact .inr rfl
      · intro h
        refine (i.guard h).mono rfl rfl rfl (fun _ h => h) [] (by simp) fun h => .inr ?_
        rcases h with ⟨u, h⟩ | h
        · exact .inl ⟨u, List.mem_append.2 (.inl h)⟩
        · exact .inr h
      · simp only [State.holds, List.length_append, List.length_singleton]; omega
    · simp only [State.incNode]
      rw [if_neg hh]
      simp only [List.append_assoc, List.cons_append, List.nil_append]
      have hz : (s.todo.filter (·.2 ≠ .node)).countP (·.2 = .node) = 0 := by
        rw [List.countP_eq_zero]
        intro x hx
        have := (List.mem_filter.1 hx).2
        simpa using this
      have hpair : ∀ u, mine u [(t, Item.node), (t, Item.complete)] = if t = u then [.node, .complete] else [] := by
        intro u
        by_cases h : t = u <;> simp [mine, h]
      have hh' : s.has = false := by simpa using hh
      refine { i with
        idle := ?_, nodes := ?_, proc := ?_, work := ?_, cover := ?_, count := ?_, one := hone, todoItems := ?_, guard := ?_
        node := hnode _ ?_ rfl rfl rfl, told := htold, used := ⟨fun _ => .inl (Nat.succ_pos _), fun _ => hused⟩ }
      · simp only [hlive, Bool.true_eq_false, false_implies]
      · simp only [List.countP_append, hz, hh']; simp
      · simp
      · intro _ _; simp [List.countP_append]
      · intro u
        have h1 : Covered (mine u s.inbox ++ (mine u s.todo).filter (· ≠ .node)) := by
          have h2 := (i.cover u).filter
          rw [List.filter_append] at h2
          have h3 : (mine u s.inbox).filter (· ≠ .node) = mine u s.inbox := by
            rw [List.filter_eq_self]
            intro x hx
            have := i.inboxItems _ (Sharing.mem_mine.1 hx)
            simpa using this
          rwa [h3] at h2
        rw [Sharing.mine_append, Sharing.mine_filter, hpair, ← List.append_assoc]
        split
        · exact h1.node
        · simpa using h1
      · intro u
        have h1 : ((mine u s.todo).filter (· ≠ .node)).count .complete = (mine u s.todo).count .complete := by
          rw [List.count_filter]; simp
        rw [hsub, Sharing.mine_append, Sharing.mine_filter, hpair, ← List.append_assoc, List.count_append,
          List.count_append, h1, ← List.count_append, ← i.count u]
        by_cases hu : u = t
        · simp [hu]
        · simp [hu, Ne.symm hu]
      · intro x hx
        simp only [List.mem_append, List.mem_cons, List.not_mem_nil, or_false, List.mem_filter] at hx
        rcases hx with h | h | h
        · exact i.todoItems x h.1
        · subst h; exact .inl rfl
        · subst h; exact .inr rfl
      · intro h; exact absurd h hh
      · simp only [State.holds, List.length_append, List.length_singleton]; omega
  · cases hs

theorem inv_read {s s' : State} {t : Nat} (i : Inv s) (hs : step s (.read t) = .ok s') : Inv s' := by
  simp only [step] at hs
  split at hs
  · rename_i l hp
    cases hs
    obtain ⟨m1, m2⟩ := Sharing.pop_mine hp
    obtain ⟨e1, e2⟩ := Sharing.pop_mem hp
    have hn := Sharing.pop_count hp (·.2 = .node)
    simp only [decide_true, if_true] at hn
    have hh : s.has = false := by
      cases h : s.has with
      | false => rfl
      | true => have := i.nodes; rw [h, if_pos rfl] at this; omega
    have hz : l.countP (·.2 = .node) = 0 := by
      have := i.nodes
      simp only [hh, Bool.false_eq_true, if_false] at this
      omega
    have hcov : ∀ v, Covered (mine v s.inbox ++ mine v l) := by
      intro v
      have h := i.cover v
      by_cases hv : v = t
      · subst hv; rw [m1] at h; exact h.remove (by simp)
      · rwa [m2 v hv] at h
    have hcount : ∀ v, s.sent.countP (·.1 = v) = (mine v s.inbox ++ mine v l).count .complete := by
      intro v
      have h := i.count v
      by_cases hv : v = t
      · subst hv; rw [m1] at h; simpa [List.count_append] using h
      · rwa [m2 v hv] at h
    have hitems : ∀ x ∈ l, x.2 = .node ∨ x.2 = .complete := fun x hx => i.todoItems x (e2 x hx)
    have hproc : s.proc = false := by
      cases h : s.proc with
      | false => rfl
      | true => have := i.proc h; rw [hh] at this; cases this
    have hacks := i.acks
    simp only [hh, Bool.false_eq_true, if_false] at hacks
    unfold State.readNode
    simp only
    split
    · rw [if_neg (by simp [hh])]
      refine { i with
        loc := ?_, acks := ?_, credit := ?_, nodes := by simp only; omega, proc := fun _ => rfl
        work := ?_, cover := ?_, count := ?_, todoItems := hitems, inboxItems := ?_
        guard := fun _ => .inr (.inr (.inr (.inl ⟨t, by simp⟩))) }
      · have := i.loc; simp only [List.countP_append, List.countP_cons, List.countP_nil]; simp; omega
      · simp only [List.countP_append, List.countP_cons, List.countP_nil]; simp; omega
      · have := i.credit
        simp only [hh, Bool.false_eq_true, if_false] at this
        simp only [List.countP_append, List.countP_cons, List.countP_nil]
        simp
        omega
      · intro h; cases h
      · intro v
        rw [Sharing.mine_append, Sharing.mine_one]
        have h := i.cover v
        by_cases hv : t = v
        · subst hv
          rw [m1] at h
          have h' := h.change (y := .acquire) rfl (by simp)
          simpa using h'
        · simpa [hv] using hcov v
      · intro v
        rw [Sharing.mine_append, Sharing.mine_one, hcount v]
        by_cases hv : t = v <;> simp [hv, List.count_append]
      · intro x hx
        rcases List.mem_append.1 hx with h | h
        · exact i.inboxItems x h
        · simp only [List.mem_singleton] at h; subst h; simp
    · rename_i h0
      rw [if_neg (by simp [hh])]
      exact { i with
        nodes := by simp only; omega, work := fun _ h => absurd h h0, cover := hcov, count := hcount, todoItems := hitems }
  · rename_i x l hx hp
    cases hs
    obtain ⟨m1, m2⟩ := Sharing.pop_mine hp
    obtain ⟨e1, e2⟩ := Sharing.pop_mem hp
    have hn := Sharing.pop_count hp (·.2 = .node)
    have hxn : x ≠ .node := hx
    have hc : x = .complete := by
      rcases i.todoItems _ e1 with h | h
      · exact absurd h hxn
      · exact h
    subst hc
    simp only [reduceCtorEq, decide_false, Bool.false_eq_true, if_false, Nat.add_zero] at hn
    have hm : ∀ v, mine v (s.inbox ++ [(t, Item.complete)]) ++ mine v l = mine v s.inbox ++ mine v s.todo := by
      intro v
      rw [Sharing.mine_append, Sharing.mine_one]
      by_cases hv : t = v
      · subst hv; rw [m1]; simp
      · rw [m2 v (Ne.symm hv)]; simp [hv]
    refine { i with
      loc := ?_, acks := ?_, credit := ?_
      nodes := by simp only; rw [← hn]; exact i.nodes, work := by simp only; rw [← hn]; exact i.work
      cover := fun v => by simp only [hm]; exact i.cover v, count := fun v => by simp only [hm]; exact i.count v
      todoItems := fun x hx => i.todoItems x (e2 x hx), inboxItems := ?_, guard := fun h => ?_ }
    · have := i.loc; simpa [List.countP_append] using this
    · have := i.acks; simpa [List.countP_append] using this
    · have := i.credit; simpa [List.countP_append] using this
    · intro x hx
      rcases List.mem_append.1 hx with h | h
      · exact i.inboxItems x h
      · simp only [List.mem_singleton] at h; subst h; simp
    · exact (i.guard h).mono rfl rfl rfl (fun x hx => List.mem_append.2 (.inl hx)) [] (by simp) .inr
  · cases hs

theorem inv_readProc {s s' : State} {t : Nat} (i : Inv s) (hs : step s (.readProc t) = .ok s') : Inv s' := by
  simp only [step] at hs
  split at hs
  · rename_i hw
    cases hs
    have hh := i.proc hw
    unfold State.readNode
    simp only
    split
    · exact { i with proc := fun h => by cases h }
    · rename_i h0
      have hl := i.loc
      simp only [State.shared] at h0
      have hacks := i.acks
      refine { i with
        loc := ?_, acks := ?_, credit := ?_, nodes := ?_, proc := fun h => by cases h
        work := fun _ h => absurd h (by simp only [State.shared]; omega)
        cover := ?_, count := ?_, inboxItems := ?_, guard := fun h => by cases h }
      · simp only [List.countP_append, List.countP_cons, List.countP_nil]; simp; omega
      · simp only [List.countP_append, List.countP_cons, List.countP_nil, reduceCtorEq, decide_false,
          Bool.false_eq_true, if_false]
        omega
      · have := i.credit
        simp only [hh, if_true] at this
        simp only [List.countP_append, List.countP_cons, List.countP_nil]
        simp
        omega
      · have := i.nodes; rw [hh, if_pos rfl] at this; simp only [Bool.false_eq_true, if_false]; omega
      · intro v
        rw [Sharing.mine_append, Sharing.mine_one]
        split
        · have := (i.cover v).insert (x := .release) (by simp)
          simpa using this
        · simpa using i.cover v
      · intro v
        rw [Sharing.mine_append, Sharing.mine_one, i.count v]
        by_cases hv : t = v <;> simp [hv, List.count_append]
      · intro x hx
        rcases List.mem_append.1 hx with h | h
        · exact i.inboxItems x h
        · simp only [List.mem_singleton] at h; subst h; simp
  · cases hs

theorem Core.isLive {s : State} (i : Core s) (h : 0 < s.refs) : s.live = true := by
  cases hl : s.live with
  | true => rfl
  | false => have := (i.idle hl).1; omega

theorem inv_take {s s' : State} {t : Nat} (i : Inv s) (hs : step s (.take t) = .ok s') : Inv s' := by
  simp only [step] at hs
  split at hs
  · rename_i l hp
    cases hs
    obtain ⟨m1, m2⟩ := Sharing.pop_mine hp
    obtain ⟨e1, e2⟩ := Sharing.pop_mem hp
    have hn1 := Sharing.pop_count hp (·.2 = .acquire)
    have hn2 := Sharing.pop_count hp (·.2 = .release)
    simp only [reduceCtorEq, decide_true, decide_false, Bool.false_eq_true, if_true, if_false, Nat.add_zero] at hn1 hn2
    obtain ⟨k, hk⟩ := i.sending (.inl e1)
    have hlive : s.live = true :=
      i.isLive (by have := List.length_pos_of_mem hk; simp only [State.refs]; omega)
    simp only [hlive, if_true]
    have hkeep : ∀ b : Bool, (s.tasks ++ [Task.acquire b]).countP Task.keeps =
        s.tasks.countP Task.keeps + if b then 1 else 0 := by
      intro b; cases b <;> simp [List.countP_append, Task.keeps]
    have hacks := i.acks
    refine Pre.inv ⟨i.acq, fun h => ?_, i.told, i.used⟩ { i.toCore with
      idle := ?_, loc := ?_, acks := ?_, credit := ?_, cover := ?_, count := ?_
      inboxItems := fun x hx => i.inboxItems x (e2 x hx), guard := fun _ => ?_ } (.inl ?_)
    · have := i.node.1 h
      have := List.length_pos_of_mem hk
      simp only [State.holds] at *; omega
    · simp only [hlive, Bool.true_eq_false, false_implies]
    · have := i.loc; simp [List.countP_append, Task.acking]; omega
    · simp only [List.countP_append, List.countP_cons, List.countP_nil, Task.acking, if_true]; omega
    · have := i.credit
      simp only [List.countP_append, List.countP_cons, List.countP_nil, Task.todo, if_true]; simp; omega
    · intro v
      have h := i.cover v
      by_cases hv : v = t
      · subst hv; rw [m1] at h; exact h.2
      · rwa [m2 v hv] at h
    · intro v
      have h := i.count v
      by_cases hv : v = t
      · subst hv; rw [m1] at h; simpa using h
      · rwa [m2 v hv] at h
    · refine .inr (.inr (.inr (.inr ⟨s.tasks, [], _, rfl, ?_⟩)))
      cases k with
      | reply => exact .inl (by simpa using hk)
      | request => exact .inr (.inr (.inl ⟨t, hk⟩))
    · have := List.length_pos_of_mem hk
      simp only [State.holds]; omega
  · rename_i l hp
    cases hs
    obtain ⟨m1, m2⟩ := Sharing.pop_mine hp
    obtain ⟨e1, e2⟩ := Sharing.pop_mem hp
    have hn1 := Sharing.pop_count hp (·.2 = .acquire)
    have hn2 := Sharing.pop_count hp (·.2 = .release)
    simp only [reduceCtorEq, decide_true, decide_false, Bool.false_eq_true, if_true, if_false, Nat.add_zero] at hn1 hn2
    have hacks := i.acks
    have hcredit := i.credit
    have hle : s.tasks.countP Task.todo ≤ s.tasks.countP Task.acking :=
      List.countP_mono_left (by intro x _ hx; cases x <;> simp_all [Task.todo, Task.acking])
    have hlive : s.live = true := i.isLive (by simp only [State.refs]; omega)
    simp only [hlive, if_true]
    refine Pre.inv ⟨i.acq, fun h => ?_, i.told, i.used⟩ { i.toCore with
      idle := ?_, loc := ?_, acks := ?_, credit := ?_, cover := ?_, count := ?_
      inboxItems := fun x hx => i.inboxItems x (e2 x hx), guard := fun h => ?_ } ?_
    · have := i.node.1 h
      simp only [State.holds] at this ⊢
      simpa [List.countP_append, Task.keeps] using this
    · simp only [hlive, Bool.true_eq_false, false_implies]
    · have := i.loc; simp [List.countP_append, Task.acking]; omega
    · simp [List.countP_append, Task.acking]; omega
    · simp [List.countP_append, Task.todo]; omega
    · intro v
      have h := i.cover v
      by_cases hv : v = t
      · subst hv; rw [m1] at h; exact h.2
      · rwa [m2 v hv] at h
    · intro v
      have h := i.count v
      by_cases hv : v = t
      · subst hv; rw [m1] at h; simpa using h
      · rwa [m2 v hv] at h
    · refine (i.guard h).mono rfl rfl rfl ?_ [.release] rfl .inr
      intro u hu
      refine Sharing.mem_mine.1 ?_
      have := Sharing.mem_mine.2 hu
      by_cases hv : u = t
      · subst hv; rw [m1] at this; simpa using this
      · rwa [m2 u hv] at this
    · rcases Nat.eq_zero_or_pos (s.holds + s.acq + s.other) with h | h
      · exact .inr (i.node.2 h)
      · left
        simp only [State.holds] at h ⊢
        simpa [List.countP_append, Task.keeps] using h
  · rename_i l hp
    cases hs
    obtain ⟨m1, m2⟩ := Sharing.pop_mine hp
    obtain ⟨e1, e2⟩ := Sharing.pop_mem hp
    have hn1 := Sharing.pop_count hp (·.2 = .acquire)
    have hn2 := Sharing.pop_count hp (·.2 = .release)
    simp only [reduceCtorEq, decide_false, Bool.false_eq_true, if_false, Nat.add_zero] at hn1 hn2
    have hlen : (s.sent.filter (·.1 ≠ t)).length + (s.sent.filter (·.1 = t)).length = s.sent.length := by
      have := List.length_eq_countP_add_countP (fun x : Nat × Kind => decide (x.1 = t)) (l := s.sent)
      rw [← List.countP_eq_length_filter, ← List.countP_eq_length_filter]
      simp only [decide_eq_true_eq] at this
      simp only [ne_eq]
      omega
    have hcnt : ∀ u, (s.sent.filter (·.1 ≠ t)).countP (·.1 = u) = if u = t then 0 else s.sent.countP (·.1 = u) := by
      intro u
      rw [List.countP_filter]
      split
      · rename_i h
        subst h
        rw [List.countP_eq_zero]
        intro x _
        simp
      · rename_i h
        refine List.countP_congr ?_
        intro x _
        simp only [ne_eq, decide_not, Bool.and_eq_true, decide_eq_true_eq, Bool.not_eq_eq_eq_not, Bool.not_true,
          decide_eq_false_iff_not, and_iff_left_iff_imp]
        intro h1 h2
        exact h (h1.symm.trans h2)
    have hholds : ∀ s' : State, s'.loose = s.loose → s'.built = s.built → s'.sent = s.sent.filter (·.1 ≠ t) →
        s'.waiting = s.waiting ++ (s.sent.filter (·.1 = t)).map (·.2) → s'.tasks = s.tasks → s'.holds = s.holds := by
      intro s' h1 h2 h3 h4 h5
      simp only [State.holds, h1, h2, h3, h4, h5, List.length_append, List.length_map]
      omega
    have hh := hholds { s with
        inbox := l, sent := s.sent.filter (·.1 ≠ t), waiting := s.waiting ++ (s.sent.filter (·.1 = t)).map (·.2) }
        rfl rfl rfl rfl rfl
    refine { i with
      idle := ?_, loc := ?_, acks := ?_, credit := ?_, cover := ?_, count := ?_, one := ?_
      inboxItems := fun x hx => i.inboxItems x (e2 x hx), guard := fun h => ?_, node := ?_ }
    · intro h
      obtain ⟨h1, h2⟩ := i.idle h
      refine ⟨?_, h2⟩
      simp only [State.refs, List.length_append, List.length_map] at h1 ⊢
      omega
    · have := i.loc; simp only; omega
    · simp only; have := i.acks; omega
    · simp only; have := i.credit; omega
    · intro v
      have h := i.cover v
      by_cases hv : v = t
      · subst hv; rw [m1] at h; exact h.2
      · rwa [m2 v hv] at h
    · intro v
      have h := i.count v
      simp only [hcnt]
      by_cases hv : v = t
      · subst hv
        rw [m1] at h
        have := i.one v
        simp only [List.cons_append, List.count_cons_self] at h
        simp only [if_true]
        omega
      · simp only [hv, if_false]
        rwa [m2 v hv] at h
    · intro v
      simp only [hcnt]
      split
      · omega
      · exact i.one v
    · refine (i.guard h).mono rfl rfl rfl ?_ [] (by simp) ?_
      · intro u hu
        refine Sharing.mem_mine.1 ?_
        have := Sharing.mem_mine.2 hu
        by_cases hv : u = t
        · subst hv; rw [m1] at this; simpa using this
        · rwa [m2 u hv] at this
      · rintro (⟨u, hr⟩ | hr)
        · by_cases hu : u = t
          · subst hu
            exact .inr (.inr (List.mem_append.2 (.inr (List.mem_map.2 ⟨(u, .request), List.mem_filter.2 ⟨hr, by simp⟩, rfl⟩))))
          · exact .inr (.inl ⟨u, List.mem_filter.2 ⟨hr, by simpa using hu⟩⟩)
        · exact .inr (.inr (List.mem_append.2 (.inl hr)))
    · rw [hh]; exact i.node
  · cases hs
  · cases hs

theorem inv_finish {s s' : State} {k : Kind} (i : Inv s) (hs : step s (.finish k) = .ok s') : Inv s' := by
  simp only [step] at hs
  split at hs
  · rename_i hk
    cases hs
    have hlen := List.length_erase_of_mem hk
    have hpos := List.length_pos_of_mem hk
    have hlive : s.live = true := i.isLive (by simp only [State.refs]; omega)
    cases k with
    | request =>
      rw [if_pos rfl]
      have hloc := i.loc
      have hacks := i.acks
      have hcredit := i.credit
      refine Pre.inv ⟨i.acq, fun h => ?_, i.told, i.used⟩ { i.toCore with
        idle := ?_, loc := ?_, acks := ?_, credit := ?_, guard := fun h => ?_ } (.inl ?_)
      · have := i.node.1 h
        simp only [State.holds] at this; omega
      · simp only [hlive, Bool.true_eq_false, false_implies]
      · simpa [List.countP_append, Task.acking] using hloc
      · simpa [List.countP_append, Task.acking] using hacks
      · simpa [List.countP_append, Task.todo] using hcredit
      · exact (i.guard h).mono rfl rfl rfl (fun _ h => h) [.done] rfl (fun _ => .inl (by simp))
      · simp only [State.holds, List.countP_append, List.countP_cons, List.countP_nil, Task.keeps, if_true]; omega
    | reply =>
      rw [if_neg (by simp)]
      refine Pre.settle ⟨i.acq, fun h => ?_, i.told, i.used⟩ { i.toCore with idle := ?_, guard := fun h => ?_ }
      · have := i.node.1 h
        simp only [State.holds] at this; omega
      · simp only [hlive, Bool.true_eq_false, false_implies]
      · refine (i.guard h).mono rfl rfl rfl (fun _ h => h) [] (by simp) fun h => .inr ?_
        rcases h with h | h
        · exact .inl h
        · exact .inr ((List.mem_erase_of_ne (by simp)).2 h)
  · cases hs

theorem inv_run {s s' : State} (i : Inv s) (hs : step s .run = .ok s') : Inv s' := by
  have hacks := i.acks
  have hloc := i.loc
  have hcredit := i.credit
  simp only [step] at hs
  split at hs
  · rename_i kept l ht
    cases hs
    rw [ht] at hacks hloc hcredit
    simp only [List.countP_cons, Task.acking, Task.todo, if_true, reduceCtorEq, decide_false, Bool.false_eq_true, if_false, Nat.add_zero] at hacks hloc hcredit
    have hh : s.has = true := by
      cases h : s.has with
      | true => rfl
      | false => simp only [h, Bool.false_eq_true, if_false] at hacks; omega
    have hlive : s.live = true := i.isLive (by simp only [State.refs, ht, List.length_cons]; omega)
    have hg := i.guard hh
    have hho : ∀ s' : State, s'.loose = s.loose → s'.built = s.built → s'.sent = s.sent → s'.waiting = s.waiting →
        s'.tasks = .acquired kept :: l → s'.holds = s.holds := by
      intro s' h1 h2 h3 h4 h5
      simp only [State.holds, h1, h2, h3, h4, h5, ht, List.countP_cons, Task.keeps]
      rfl
    by_cases hc : s.dead = false ∧ s.dropped = false ∧ s.acquired = false
    · rw [if_pos (by exact hc)]
      have hpos : 0 < s.holds := by
        rcases hg.holds i.toCore with h | h | h | h
        · rw [hc.2.2] at h; cases h
        · rw [hc.1] at h; cases h
        · rw [hc.2.1] at h; cases h
        · exact h
      have hnode : s.node ≠ none := by intro h; have := i.node.1 h; omega
      have hacq := i.acq
      simp only [hc.2.2, Bool.false_eq_true, if_false] at hacq
      simp only [if_neg hnode]
      refine Pre.inv ⟨?_, fun h => absurd h hnode, i.told, i.used⟩ { i.toCore with
        idle := ?_, loc := ?_, acks := ?_, credit := ?_, guard := fun _ => .inl rfl } (.inl (by simp only; omega))
      · simp only [if_true]; omega
      · simp only [hlive, Bool.true_eq_false, false_implies]
      · simp only [List.countP_cons, Task.acking, if_true]; omega
      · simp only [List.countP_cons, Task.acking, if_true]; omega
      · simp [List.countP_cons, Task.todo]; omega
    · rw [if_neg (by exact hc)]
      have hh2 := hho { s with tasks := .acquired kept :: l, strong := s.strong + 1 } rfl rfl rfl rfl rfl
      refine { i with idle := ?_, loc := ?_, acks := ?_, credit := ?_, guard := fun _ => ?_, node := ?_ }
      · simp only [hlive, Bool.true_eq_false, false_implies]
      · simp only [List.countP_cons, Task.acking, if_true]; omega
      · simp only [List.countP_cons, Task.acking, if_true]; omega
      · simp [List.countP_cons, Task.todo]; omega
      · unfold Guarded
        cases h1 : s.dead <;> cases h2 : s.dropped <;> cases h3 : s.acquired <;> simp_all
      · rw [hh2]; exact i.node
  · rename_i kept l ht
    cases hs
    rw [ht] at hacks hloc hcredit
    simp only [List.countP_cons, Task.acking, Task.todo, if_true, reduceCtorEq, decide_false, Bool.false_eq_true, if_false, Nat.add_zero] at hacks hloc hcredit
    have hh : s.has = true := by
      cases h : s.has with
      | true => rfl
      | false => simp only [h, Bool.false_eq_true, if_false] at hacks; omega
    have hlive : s.live = true := i.isLive (by simp only [State.refs, ht, List.length_cons]; omega)
    have hc : Core { s with tasks := l, localRefs := s.localRefs - 1 } := by
      refine { i.toCore with idle := ?_, loc := ?_, acks := ?_, credit := ?_, work := ?_, guard := fun h => ?_ }
      · simp only [hlive, Bool.true_eq_false, false_implies]
      · simp only; omega
      · simp only; omega
      · simp only; omega
      · simp only [hh, Bool.true_eq_false, false_implies]
      · exact (i.guard h).tail (x := .acquired kept) rfl ht rfl rfl rfl rfl rfl rfl rfl
    refine Pre.settle ?_ hc.unused
    have hp : Pre { s with tasks := l, localRefs := s.localRefs - 1 } := by
      refine ⟨i.acq, fun h => ?_, i.told, i.used⟩
      have := i.node.1 h
      simp only [State.holds, ht, List.countP_cons] at this
      simp only [State.holds]; omega
    simp only [State.ack]
    unfold State.unused
    split
    · exact { hp with }
    · exact hp
  · rename_i l ht
    cases hs
    rw [ht] at hacks hloc hcredit
    simp only [List.countP_cons, Task.acking, Task.todo, if_true, decide_true, Bool.false_eq_true, if_false, Nat.add_zero] at hacks hloc hcredit
    have hle : l.countP Task.todo ≤ l.countP Task.acking :=
      List.countP_mono_left (by intro x _ hx; cases x <;> simp_all [Task.todo, Task.acking])
    have hlive : s.live = true := i.isLive (by simp only [State.refs, ht, List.length_cons]; omega)
    have hh2 : ({ s with tasks := l, strong := s.strong - 1 } : State).holds = s.holds := by
      simp [State.holds, ht, List.countP_cons, Task.keeps]
    refine { i with idle := ?_, loc := ?_, acks := ?_, credit := ?_, guard := fun h => ?_, node := ?_ }
    · simp only [hlive, Bool.true_eq_false, false_implies]
    · simp only; omega
    · simp only; omega
    · simp only; omega
    · exact (i.guard h).tail (x := .release) rfl ht rfl rfl rfl rfl rfl rfl rfl
    · rw [hh2]; exact i.node
  · rename_i l ht
    cases hs
    rw [ht] at hacks hloc hcredit
    simp only [List.countP_cons, Task.acking, Task.todo, reduceCtorEq, decide_false, Bool.false_eq_true, if_false, Nat.add_zero] at hacks hloc hcredit
    have hlive : s.live = true := i.isLive (by simp only [State.refs, ht, List.length_cons]; omega)
    refine Pre.settle ⟨i.acq, fun h => ?_, i.told, i.used⟩ { i.toCore with
      idle := ?_, loc := ?_, acks := ?_, credit := ?_, guard := fun h => ?_ }
    · have := i.node.1 h
      simp only [State.holds, ht, List.countP_cons] at this
      simp only [State.holds]; omega
    · simp only [hlive, Bool.true_eq_false, false_implies]
    · simp only; omega
    · simp only; omega
    · simp only; omega
    · exact (i.guard h).tail (x := .done) rfl ht rfl rfl rfl rfl rfl rfl rfl
  · cases hs

theorem inv_step {s s' : State} {l : Label} (hc : Calm s l) (i : Inv s) (hs : step s l = .ok s') : Inv s' := by
  cases l with
  | receive n => exact inv_receive i hs
  | unrefBuffer => exact inv_unrefBuffer i hs
  | otherAcquire => exact inv_otherAcquire i hs
  | otherRelease => exact inv_otherRelease i hs
  | create k => exact inv_create i hs
  | find k => exact inv_find i hs
  | discard k => exact inv_discard i hs
  | send t k => exact inv_send i hs
  | read t => exact inv_read i hs
  | readProc t => exact inv_readProc i hs
  | take t => exact inv_take i hs
  | finish k => exact inv_finish i hs
  | run => exact inv_run i hs
  | more => exact inv_more i hs
  | less => exact inv_less i hs
  | call d =>
    refine inv_call ?_ i hs
    cases d with
    | true => rfl
    | false => exact absurd rfl hc
  | accept d => exact inv_accept i hs
  | handle d => exact inv_handle i hs
  | answered d => exact inv_answered i hs
  | leave => exact inv_leave i hs
  | die => exact inv_die i hs
  | drop => exact inv_drop i hs
  | free => exact inv_free i hs

theorem inv_reach {s : State} (h : ReachIf step Calm {} s) : Inv s := by
  induction h with
  | init => exact inv_init
  | step l _ hc hs ih => exact inv_step hc ih hs

theorem quiet_unused {s : State} : s.unused.has = true → s.unused.shared = 0 → s.unused.proc = true := by
  unfold State.unused
  split
  · simp
  · rename_i h; intro h1 h2; exact absurd ⟨h2, h1⟩ h

theorem settle_proc {s : State} : s.settle.has = s.has ∧ s.settle.shared = s.shared ∧ s.settle.proc = s.proc := by
  unfold State.settle; split <;> exact ⟨rfl, rfl, rfl⟩

theorem forget_proc {s : State} : s.forget.has = s.has ∧ s.forget.shared = s.shared ∧ s.forget.proc = s.proc := by
  unfold State.forget; split <;> exact ⟨rfl, rfl, rfl⟩

theorem quiet_readNode {s : State} {t : Nat} :
    (s.readNode t).has = true → (s.readNode t).shared = 0 → (s.readNode t).proc = true := by
  unfold State.readNode
  split
  · split
    · intro _ _; simp_all
    · intro _ h; simp only [State.shared] at *; omega
  · split
    · intro h; cases h
    · intro h; simp_all

/-- If nobody needs the proxy then the kernel is going to tell about it. -/
theorem quiet_step {s s' : State} {l : Label} (h : s.has = true → s.shared = 0 → s.proc = true)
    (hs : step s l = .ok s') : s'.has = true → s'.shared = 0 → s'.proc = true := by
  cases l <;> simp only [step] at hs <;> repeat' split at hs
  all_goals first
    | contradiction
    | skip
  all_goals cases hs
  all_goals first
    | exact h
    | exact quiet_readNode
    | (rw [settle_proc.1, settle_proc.2.1, settle_proc.2.2]; first | exact h | exact quiet_unused)
    | (rw [forget_proc.1, forget_proc.2.1, forget_proc.2.2]; first | exact h | exact quiet_unused)
    | exact quiet_unused
    | skip
  all_goals
    intro _ h0
    exfalso
    revert h0
    simp only [State.shared, State.incNode]
    try split
    all_goals first | omega | (simp only; omega)

theorem quiet_reach {s : State} (h : ReachIf step Calm {} s) : s.has = true → s.shared = 0 → s.proc = true := by
  induction h with
  | init => intro h; cases h
  | step l _ hc hs ih => exact quiet_step ih hs

end Gb.Bridged
