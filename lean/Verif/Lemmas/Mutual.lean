import Verif.Spec.Mutual
import Verif.Props.C90
/-
Lemmas about processes which call each other.
-/
set_option autoImplicit false

namespace Gb.Mutual
open Nested (Tx)

theorem nested_ok {s s' : State} {l : Nested.Label} {f : Nested.State → State} (h : nested s l f = .ok s') :
    ∃ b, Nested.step s.base l = .ok b ∧ s' = f b := by
  simp only [nested] at h
  split at h <;> cases h
  exact ⟨_, by assumption, rfl⟩

/-- What Model/Nested does. -/
inductive Base (c : Cfg) (s : State) : Label → State → Prop
  | call (t h q : Nat) (b : Nested.State) (hm : mayCall c s t = true) (hq : ∀ x ∈ s.base.chain h, c.proc x.src ≠ q)
      (hb : Nested.step s.base (.call t h) = .ok b) : Base c s (.call t h q) { s with base := b, tgt := upd s.tgt s.base.next q }
  | callTo (t h u : Nat) (b : Nested.State) (hm : mayCall c s t = true) (hb : Nested.step s.base (.callTo t h u) = .ok b) :
      Base c s (.callTo t h u) { s with base := b, tgt := upd s.tgt s.base.next (c.proc u) }
  | pick (u h : Nat) (b : Nested.State) (hm : c.isMain u = false)
      (hq : (s.base.chain h).head?.map (fun x => s.tgt x.id) = some (c.proc u))
      (hb : Nested.step s.base (.pick u h) = .ok b) : Base c s (.pick u h) { s with base := b }
  | read (t : Nat) (b : Nested.State) (hb : Nested.step s.base (.read t) = .ok b) : Base c s (.read t) { s with base := b }
  | reply (t h i : Nat) (fs : List Nested.Frame) (b : Nested.State) (hf : s.base.frames t = .handle i :: fs)
      (hd : c.isWorker t = false ∨ i ∈ s.done)
      (hb : Nested.step s.base (.reply t h true) = .ok b) : Base c s (.reply t h) { s with base := b }
  | take (p u i : Nat) (hl : inLoop c s p = true) (hj : s.job p = none) (hp : c.proc u = p) (hw : c.isWorker u = true)
      (hf : (s.base.frames u).head? = some (.handle i)) (hd : i ∉ s.done) (hb : i ∉ s.blocked) :
      Base c s (.take p u i) { s with job := upd s.job p (some i) }
  | finish (p i : Nat) (hj : s.job p = some i) (hl : inLoop c s p = true) :
      Base c s (.finish p) { s with job := upd s.job p none, done := i :: s.done }
  | block (p i : Nat) (hj : s.job p = some i) (hl : inLoop c s p = true) :
      Base c s (.block p) { s with job := upd s.job p none, blocked := i :: s.blocked }
  | complete (i : Nat) (hb : i ∈ s.blocked) :
      Base c s (.complete i) { s with blocked := s.blocked.filter (· != i), done := i :: s.done }

theorem base {c : Cfg} {s s' : State} {l : Label} (h : step c s l = .ok s') : Base c s l s' := by
  cases l with
  | call t h q =>
    simp only [step] at h
    split at h
    · rename_i hm
      obtain ⟨b, hb, rfl⟩ := nested_ok h
      exact .call _ _ _ b hm.1 hm.2 hb
    · cases h
  | callTo t h u =>
    simp only [step] at h
    split at h
    · rename_i hm
      obtain ⟨b, hb, rfl⟩ := nested_ok h
      exact .callTo _ _ _ b hm hb
    · cases h
  | pick u h =>
    simp only [step] at h
    split at h
    · rename_i hm
      obtain ⟨b, hb, rfl⟩ := nested_ok h
      exact .pick _ _ b hm.1 hm.2 hb
    · cases h
  | read t =>
    obtain ⟨b, hb, rfl⟩ := nested_ok h
    exact .read _ b hb
  | reply t h =>
    simp only [step] at h
    split at h
    · rename_i i fs hf
      split at h
      · rename_i hm
        obtain ⟨b, hb, rfl⟩ := nested_ok h
        exact .reply _ _ i fs b hf hm hb
      · cases h
    · cases h
  | take p u i =>
    simp only [step] at h
    split at h
    · rename_i hm
      cases h
      exact .take _ _ _ hm.1 hm.2.1 hm.2.2.1 hm.2.2.2.1 hm.2.2.2.2.1 hm.2.2.2.2.2.1 hm.2.2.2.2.2.2
    · cases h
  | finish p =>
    simp only [step] at h
    split at h
    · split at h
      · cases h
        exact .finish _ _ (by assumption) (by assumption)
      · cases h
    · cases h
  | block p =>
    simp only [step] at h
    split at h
    · split at h
      · cases h
        exact .block _ _ (by assumption) (by assumption)
      · cases h
    · cases h
  | complete i =>
    simp only [step] at h
    split at h
    · cases h
      exact .complete _ (by assumption)
    · cases h

/-- Each step is a step of Model/Nested, or doesn't concern it. -/
theorem base_step {c : Cfg} {s s' : State} {l : Label} (h : step c s l = .ok s') :
    s'.base = s.base ∨ ∃ l', Nested.step s.base l' = .ok s'.base := by
  cases base h with
  | call _ _ _ _ _ _ hb => exact .inr ⟨_, hb⟩
  | callTo _ _ _ _ _ hb => exact .inr ⟨_, hb⟩
  | pick _ _ _ _ _ hb => exact .inr ⟨_, hb⟩
  | read _ _ hb => exact .inr ⟨_, hb⟩
  | reply _ _ _ _ _ _ _ hb => exact .inr ⟨_, hb⟩
  | take => exact .inl rfl
  | finish => exact .inl rfl
  | block => exact .inl rfl
  | complete => exact .inl rfl

theorem base_reach {c : Cfg} {s : State} (h : Reach (step c) {} s) : Reach Nested.step {} s.base :=
  Reach.invariant (P := fun s => Reach Nested.step {} s.base) Reach.init (fun _ _ _ hi hs => by
    rcases base_step hs with e | ⟨l, e⟩
    · rw [e]; exact hi
    · exact hi.step e) h

theorem call_ok {s b : Nested.State} {t h : Nat} (hs : Nested.step s (.call t h) = .ok b) : s.mayCall t h = true ∧
    b.dead = s.dead ∧ b.next = s.next + 1 ∧ b.chain = upd s.chain h (⟨s.next, t, none⟩ :: s.chain h) ∧
    b.frames = upd s.frames t (.call s.next :: s.frames t) ∧ b.todo = upd s.todo t (s.todo t ++ [.complete]) := by
  simp only [Nested.step] at hs
  split at hs <;> cases hs
  exact ⟨by assumption, rfl, rfl, rfl, rfl, rfl⟩

theorem callTo_ok {s b : Nested.State} {t h u : Nat} (hs : Nested.step s (.callTo t h u) = .ok b) : s.mayCall t h = true ∧ u ≠ t ∧
    u ∈ (s.chain h).map (·.src) ∧
    b.dead = s.dead ∧ b.next = s.next + 1 ∧ b.chain = upd s.chain h (⟨s.next, t, some u⟩ :: s.chain h) ∧
    b.frames = upd s.frames t (.call s.next :: s.frames t) ∧
    (∀ v, v ≠ t → v ≠ u → b.todo v = s.todo v) := by
  simp only [Nested.step] at hs
  split at hs <;> cases hs
  rename_i hm
  refine ⟨hm.1, hm.2.1, hm.2.2.2, rfl, rfl, rfl, rfl, fun v h1 h2 => ?_⟩
  simp [Nested.State.post, Nested.State.push, upd, h1, h2]

theorem pick_ok {s b : Nested.State} {u h : Nat} (hs : Nested.step s (.pick u h) = .ok b) :
    ∃ x c, s.chain h = x :: c ∧ x.to = none ∧ s.frames u = [] ∧ b.dead = s.dead ∧ b.next = s.next ∧
    b.chain = upd s.chain h ({ x with to := some u } :: c) ∧ b.frames = s.frames ∧ ∀ v, v ≠ u → b.todo v = s.todo v := by
  simp only [Nested.step] at hs
  split at hs
  · rename_i hm
    split at hs
    · cases hs
    · split at hs <;> cases hs
      refine ⟨_, _, by assumption, by assumption, hm.2.1, rfl, rfl, rfl, rfl, fun v h1 => ?_⟩
      simp [Nested.State.post, upd, h1]
  · cases hs

theorem read_ok {s b : Nested.State} {t : Nat} (hs : Nested.step s (.read t) = .ok b) :
    s.todo t ≠ [] ∧ b.dead = s.dead ∧ b.next = s.next ∧ b.chain = s.chain ∧ (∀ v, v ≠ t → b.frames v = s.frames v) ∧
    ∀ v, v ≠ t → b.todo v = s.todo v := by
  simp only [Nested.step] at hs
  split at hs
  · cases hs
  · rename_i w ws hw
    split at hs
    · cases hs
    · split at hs
      · cases hs
      · cases hs
        refine ⟨by rw [hw]; simp, rfl, rfl, rfl, fun v h1 => ?_, fun v h1 => ?_⟩ <;> simp [upd, h1]

theorem reply_ok {s b : Nested.State} {t h : Nat} (hd : ∀ t, s.dead t = false) (hs : Nested.step s (.reply t h true) = .ok b) :
    ∃ x c, s.chain h = x :: c ∧ x.to = some t ∧ b.dead = s.dead ∧ b.next = s.next ∧ b.chain = upd s.chain h c ∧
    (∀ v, v ≠ t → b.frames v = s.frames v) ∧ ∀ v, v ≠ t → v ≠ x.src → b.todo v = s.todo v := by
  simp only [Nested.step] at hs
  split at hs
  · cases hs
  · split at hs
    · rename_i x c hf hc
      split at hs
      · rename_i hx
        simp only [hd, Bool.not_false, Bool.and_self, if_true] at hs
        cases hs
        refine ⟨x, c, hc, hx.1, rfl, rfl, rfl, fun v h1 => ?_, fun v h1 h2 => ?_⟩ <;> simp [Nested.State.post, upd, *]
      · cases hs
    · cases hs

/-- The process of libgbinder the main thread of which has to handle the call. -/
def Dest (c : Cfg) (tgt : Nat → Nat) (x : Tx) (q : Nat) : Prop :=
  match x.to with
  | none => c.lib (tgt x.id) = true ∧ q = tgt x.id
  | some u => c.isWorker u = true ∧ q = c.proc u

/-- The hierarchy is observed. -/
def Ranked (c : Cfg) (rank tgt : Nat → Nat) : List Tx → Prop
  | [] => True
  | x :: l => (∀ q, Dest c tgt x q → ∀ y ∈ x :: l, c.isMain y.src = true → rank (c.proc y.src) < rank q) ∧ Ranked c rank tgt l

theorem Ranked.tgt {c : Cfg} {rank tgt tgt' : Nat → Nat} {l : List Tx} (h : Ranked c rank tgt l)
    (he : ∀ x ∈ l, tgt' x.id = tgt x.id) : Ranked c rank tgt' l := by
  induction l with
  | nil => trivial
  | cons x l ih =>
    refine ⟨fun q hq => h.1 q ?_, ih h.2 fun y hy => he y (List.mem_cons_of_mem _ hy)⟩
    simp only [Dest, he x List.mem_cons_self] at hq
    exact hq

structure Fit (c : Cfg) (rank : Nat → Nat) (s : State) : Prop where
  alive : ∀ t, s.base.dead t = false
  ids : ∀ h, ∀ x ∈ s.base.chain h, x.id < s.base.next
  ranked : ∀ h, Ranked c rank s.tgt (s.base.chain h)

theorem Fit.init (c : Cfg) (rank : Nat → Nat) : Fit c rank {} := ⟨fun _ => rfl, by simp, fun _ => trivial⟩

theorem worker_lib {c : Cfg} {u : Nat} (h : c.isWorker u = true) : c.lib (c.proc u) = true := by
  simp only [Cfg.isWorker, Bool.and_eq_true] at h
  exact h.1

theorem Fit.made {c : Cfg} {rank : Nat → Nat} {s s' : State} (hi : Fit c rank s) {t h q : Nat} {o : Option Nat}
    (hd : s'.base.dead = s.base.dead) (hn : s'.base.next = s.base.next + 1)
    (hc : s'.base.chain = upd s.base.chain h (⟨s.base.next, t, o⟩ :: s.base.chain h)) (ht : s'.tgt = upd s.tgt s.base.next q)
    (hr : ∀ p, Dest c s'.tgt ⟨s.base.next, t, o⟩ p → (c.isMain t = true → rank (c.proc t) < rank p) ∧
      ∀ x ∈ s.base.chain h, c.isMain x.src = true → rank (c.proc x.src) < rank p) : Fit c rank s' := by
  have hold : ∀ k, Ranked c rank s'.tgt (s.base.chain k) := fun k => (hi.ranked k).tgt fun x hx => by
    have := hi.ids k x hx
    rw [ht, upd_ne _ _ (by omega)]
  refine ⟨by rw [hd]; exact hi.alive, fun k x hx => ?_, fun k => ?_⟩
  · rw [hn]
    rw [hc] at hx
    simp only [upd] at hx
    split at hx
    · rcases List.mem_cons.1 hx with rfl | hx
      · simp
      · have := hi.ids h x hx
        omega
    · have := hi.ids k x hx
      omega
  · rw [hc]
    simp only [upd]
    split
    · refine ⟨fun p hp y hy hm => ?_, hold h⟩
      rcases List.mem_cons.1 hy with rfl | hy
      · exact (hr p hp).1 hm
      · exact (hr p hp).2 y hy hm
    · exact hold k

theorem Fit.step {c : Cfg} {rank : Nat → Nat} {s s' : State} {l : Label} (hi : Fit c rank s) (ho : Ok c rank s l)
    (hs : step c s l = .ok s') : Fit c rank s' := by
  cases base hs with
  | call t h q b hm hq hb =>
    obtain ⟨_, h1, h2, h3, _⟩ := call_ok hb
    refine hi.made (t := t) (h := h) (o := none) h1 h2 h3 rfl (fun p hp => ?_)
    simp only [Dest, upd_same] at hp
    obtain ⟨hl, rfl⟩ := hp
    exact ho hl
  | callTo t h u b hm hb =>
    obtain ⟨_, _, _, h1, h2, h3, _⟩ := callTo_ok hb
    refine hi.made (t := t) (h := h) (o := some u) h1 h2 h3 rfl (fun p hp => ?_)
    simp only [Dest] at hp
    obtain ⟨hl, rfl⟩ := hp
    exact ho hl
  | pick u h b hm hq hb =>
    obtain ⟨x, l, hc, hx, hf, h1, h2, h3, _⟩ := pick_ok hb
    have hr := hi.ranked h
    rw [hc] at hr
    have hid := hi.ids h
    rw [hc] at hid
    refine ⟨by simp only [h1]; exact hi.alive, fun k y hy => ?_, fun k => ?_⟩
    · simp only [h2]
      simp only [h3, upd] at hy
      split at hy
      · rcases List.mem_cons.1 hy with rfl | hy
        · exact hid x List.mem_cons_self
        · exact hid y (List.mem_cons_of_mem _ hy)
      · exact hi.ids k y hy
    · simp only [h3, upd]
      split
      · refine ⟨fun p hp y hy hm => ?_, hr.2⟩
        simp only [Dest] at hp
        simp only [hc, List.head?_cons, Option.map_some, Option.some.injEq] at hq
        have hp' : Dest c s.tgt x p := by
          simp only [Dest, hx, hq]
          exact ⟨worker_lib hp.1, hp.2⟩
        rcases List.mem_cons.1 hy with rfl | hy
        · exact hr.1 p hp' x List.mem_cons_self hm
        · exact hr.1 p hp' y (List.mem_cons_of_mem _ hy) hm
      · exact hi.ranked k
  | read t b hb =>
    obtain ⟨_, h1, h2, h3, _⟩ := read_ok hb
    exact ⟨by simp only [h1]; exact hi.alive, by simp only [h2, h3]; exact hi.ids, by simp only [h3]; exact hi.ranked⟩
  | reply t h i fs b hf hd hb =>
    obtain ⟨x, l, hc, hx, h1, h2, h3, _⟩ := reply_ok hi.alive hb
    have hr := hi.ranked h
    rw [hc] at hr
    have hid := hi.ids h
    rw [hc] at hid
    refine ⟨by simp only [h1]; exact hi.alive, fun k y hy => ?_, fun k => ?_⟩
    · simp only [h2]
      simp only [h3, upd] at hy
      split at hy
      · exact hid y (List.mem_cons_of_mem _ hy)
      · exact hi.ids k y hy
    · simp only [h3, upd]
      split
      · exact hr.2
      · exact hi.ranked k
  | take => exact ⟨hi.alive, hi.ids, hi.ranked⟩
  | finish => exact ⟨hi.alive, hi.ids, hi.ranked⟩
  | block => exact ⟨hi.alive, hi.ids, hi.ranked⟩
  | complete => exact ⟨hi.alive, hi.ids, hi.ranked⟩

theorem Fit.reach {c : Cfg} {rank : Nat → Nat} {s : State} (h : ReachIf (Mutual.step c) (Ok c rank) {} s) : Fit c rank s := by
  induction h with
  | init => exact Fit.init c rank
  | step l _ ho hs ih => exact ih.step ho hs

theorem can_read {s : Nested.State} (hr : Reach Nested.step {} s) {t : Nat} (ht : s.dead t = false) (hw : s.todo t ≠ []) :
    ∃ b, Nested.step s (.read t) = .ok b := by
  cases hw' : s.todo t with
  | nil => exact absurd hw' hw
  | cons w ws =>
    simp only [Nested.step, hw', ht]
    split
    · cases ‹false = true›
    · split
      · rename_i hf
        have := ((Nested.Inv.reach hr).active ht hf).1
        exact absurd this hw
      · exact ⟨_, rfl⟩

theorem can_reply {s : Nested.State} {t h i : Nat} {fs : List Nested.Frame} {x : Tx} {l : List Tx} (ht : ∀ t, s.dead t = false)
    (hf : s.frames t = .handle i :: fs) (hc : s.chain h = x :: l) (hx : x.to = some t) (hid : x.id = i) :
    ∃ b, Nested.step s (.reply t h true) = .ok b := by
  simp [Nested.step, ht, hf, hc, hx, hid]

/-- Something can be done. -/
def Moves (c : Cfg) (s : State) : Prop := ∃ l s', Progress l = true ∧ step c s l = .ok s'

theorem moves_read {c : Cfg} {s : State} (hr : Reach Nested.step {} s.base) {t : Nat} (ht : s.base.dead t = false)
    (hw : s.base.todo t ≠ []) : Moves c s := by
  obtain ⟨b, hb⟩ := can_read hr ht hw
  exact ⟨.read t, { s with base := b }, rfl, by simp [step, nested, hb]⟩

theorem moves_reply {c : Cfg} {s : State} {t h i : Nat} {fs : List Nested.Frame} {x : Tx} {l : List Tx} (ht : ∀ t, s.base.dead t = false)
    (hf : s.base.frames t = .handle i :: fs) (hc : s.base.chain h = x :: l) (hx : x.to = some t) (hid : x.id = i)
    (hd : c.isWorker t = false ∨ i ∈ s.done) : Moves c s := by
  obtain ⟨b, hb⟩ := can_reply ht hf hc hx hid
  exact ⟨.reply t h, { s with base := b }, rfl, by simp only [step, hf, if_pos hd, nested, hb]⟩

theorem main_isMain {c : Cfg} {p : Nat} (h : c.lib p = true) : c.isMain (c.main p) = true := by simp [Cfg.isMain, c.main_proc, h]

theorem main_notWorker {c : Cfg} (p : Nat) : c.isWorker (c.main p) = false := by simp [Cfg.isWorker, c.main_proc]

theorem isMain_lib {c : Cfg} {m : Nat} (h : c.isMain m = true) : c.lib (c.proc m) = true := by
  simp only [Cfg.isMain, Bool.and_eq_true] at h
  exact h.1

theorem lib_cases {c : Cfg} {m : Nat} (h : c.lib (c.proc m) = true) : c.isMain m = true ∨ c.isWorker m = true := by
  simp only [Cfg.isMain, Cfg.isWorker, h, Bool.true_and, beq_iff_eq, bne_iff_ne]
  exact Classical.em _

/-- There's something to do about a transaction which a thread has passed to the main thread, or else that waits for a call. -/
theorem moves_passed {c : Cfg} {rank : Nat → Nat} {s : State} (hr : Reach Nested.step {} s.base) (hi : Fit c rank s) {u i : Nat}
    {fs : List Nested.Frame} (hu : c.isWorker u = true) (hf : s.base.frames u = .handle i :: fs) :
    Moves c s ∨ ∃ h1, ∃ y ∈ s.base.chain h1, y.src = c.main (c.proc u) := by
  by_cases hd : i ∈ s.done
  · obtain ⟨_, h1, y, l1, hc1, hy1, hy2⟩ := (Nested.Inv.reach hr).active (hi.alive _) hf
    exact .inl (moves_reply hi.alive hf hc1 hy1 hy2 (.inr hd))
  · by_cases hbl : i ∈ s.blocked
    · exact .inl ⟨.complete i, _, rfl, by rw [step, if_pos hbl]⟩
    have hlib := worker_lib hu
    by_cases hwm : s.base.todo (c.main (c.proc u)) = []
    · cases hfm : s.base.frames (c.main (c.proc u)) with
      | nil =>
        have hloop : inLoop c s (c.proc u) = true := by simp [inLoop, hlib, hfm, hwm]
        left
        cases hj : s.job (c.proc u) with
        | none => exact ⟨.take (c.proc u) u i, _, rfl, by rw [step, if_pos ⟨hloop, hj, rfl, hu, by rw [hf]; rfl, hd, hbl⟩]⟩
        | some i => exact ⟨.finish (c.proc u), _, rfl, by simp only [step, hj]; rw [if_pos hloop]⟩
      | cons f fs =>
        obtain ⟨w1, w2, w3⟩ := C90.C90_waits hr (hi.alive _) hwm
        cases f with
        | call k =>
          obtain ⟨h1, y, hy, _, hys⟩ := w3 k (by rw [hfm]; exact List.mem_cons_self)
          exact .inr ⟨h1, y, hy, hys⟩
        | oneway => exact absurd (by rw [hfm]; exact List.mem_cons_self) w1
        | replied => exact absurd (by rw [hfm]; exact List.mem_cons_self) w2
        | handle k =>
          obtain ⟨_, h1, y, l1, hc1, hy1, hy2⟩ := (Nested.Inv.reach hr).active (hi.alive _) hfm
          exact .inl (moves_reply hi.alive hfm hc1 hy1 hy2 (.inl (main_notWorker _)))
    · exact .inl (moves_read hr (hi.alive _) hwm)

theorem moves_pick {c : Cfg} {s : State} (ha : ∀ t, s.base.dead t = false) {h u : Nat} {x : Tx} {l : List Tx}
    (hc : s.base.chain h = x :: l) (hx : x.to = none) (h1 : c.proc u = s.tgt x.id) (h2 : c.isMain u = false)
    (h3 : s.base.frames u = []) (h4 : s.base.todo u = []) : Moves c s := by
  have hb : ∃ b, Nested.step s.base (.pick u h) = .ok b := by simp [Nested.step, ha, h3, h4, hc, hx]
  obtain ⟨b, hb⟩ := hb
  refine ⟨.pick u h, { s with base := b }, rfl, ?_⟩
  simp only [step]
  rw [if_pos ⟨h2, by rw [hc, h1]; rfl⟩, nested, hb]

/-- There's something to do, or else the main thread which the last call of the chain depends on waits in another one. -/
theorem moves_or {c : Cfg} {rank : Nat → Nat} {s : State} (hr : Reach Nested.step {} s.base) (hi : Fit c rank s) (hidle : CanReceive c s)
    {h : Nat} {x : Tx} {l : List Tx} (hc : s.base.chain h = x :: l) :
    Moves c s ∨ ∃ q, c.lib q = true ∧ Dest c s.tgt x q ∧ ∃ h1, ∃ y ∈ s.base.chain h1, y.src = c.main q := by
  cases hx : x.to with
  | none =>
    obtain ⟨u, h1, h2, ⟨h3, h4⟩ | ⟨hlib, hnc⟩⟩ := hidle h x (by rw [hc]; rfl) hx
    · exact .inl (moves_pick hi.alive hc hx h1 h2 h3 h4)
    · by_cases hw : s.base.todo u = []
      · obtain ⟨w1, w2, _⟩ := C90.C90_waits hr (hi.alive u) hw
        have hu : c.isWorker u = true := by
          rcases lib_cases hlib with e | e
          · rw [h2] at e; cases e
          · exact e
        cases hf : s.base.frames u with
        | nil => exact .inl (moves_pick hi.alive hc hx h1 h2 hf hw)
        | cons f fs =>
          cases f with
          | call k => exact absurd (by rw [hf]; exact List.mem_cons_self) (hnc k)
          | oneway => exact absurd (by rw [hf]; exact List.mem_cons_self) w1
          | replied => exact absurd (by rw [hf]; exact List.mem_cons_self) w2
          | handle k =>
            rcases moves_passed hr hi hu hf with hm | hm
            · exact .inl hm
            · exact .inr ⟨c.proc u, hlib, by rw [Dest, hx]; exact ⟨by rw [← h1]; exact hlib, h1⟩, hm⟩
      · exact .inl (moves_read hr (hi.alive u) hw)
  | some u =>
    by_cases hw : s.base.todo u = []
    · have hf : s.base.frames u = Nested.expected u (s.base.chain h) := by
        rcases (Nested.Inv.reach hr).cases h (hi.alive u) (by rw [hw]; rfl) with he | he
        · exact he
        · rw [hc, Nested.expected, if_pos hx] at he
          cases he
      rw [hc, Nested.expected, if_pos hx] at hf
      simp only [List.cons_append, List.nil_append] at hf
      by_cases hu : c.isWorker u = true
      · rcases moves_passed hr hi hu hf with hm | hm
        · exact .inl hm
        · exact .inr ⟨c.proc u, worker_lib hu, by rw [Dest, hx]; exact ⟨hu, rfl⟩, hm⟩
      · exact .inl (moves_reply hi.alive hf hc hx rfl (.inl (by simpa using hu)))
    · exact .inl (moves_read hr (hi.alive u) hw)

theorem moves {c : Cfg} {rank : Nat → Nat} {s : State} (hr : Reach Nested.step {} s.base) (hi : Fit c rank s) (hidle : CanReceive c s)
    {B : Nat} (hB : ∀ q, rank q ≤ B) (n : Nat) {h : Nat} (hne : s.base.chain h ≠ [])
    (hn : B + 1 < n ∨ ∃ y ∈ s.base.chain h, c.isMain y.src = true ∧ B < n + rank (c.proc y.src)) : Moves c s := by
  induction n generalizing h with
  | zero =>
    rcases hn with hn | ⟨y, _, _, hn⟩
    · omega
    · have := hB (c.proc y.src)
      omega
  | succ n ih =>
    cases hc : s.base.chain h with
    | nil => exact absurd hc hne
    | cons x l =>
      rcases moves_or hr hi hidle hc with h1 | ⟨q, hq, hdest, h1, y, hy, hys⟩
      · exact h1
      · refine ih (h := h1) (List.ne_nil_of_mem hy) (.inr ⟨y, hy, by rw [hys]; exact main_isMain hq, ?_⟩)
        rw [hys, c.main_proc]
        rcases hn with hn | ⟨z, hz, hzm, hn⟩
        · omega
        · have hrk := hi.ranked h
          rw [hc] at hrk hz
          have := hrk.1 q hdest z hz hzm
          omega

/-- Of all threads of libgbinder, only one makes calls of a chain; and if the main thread handles a call itself, that's the one. -/
def SoloC (c : Cfg) : List Tx → Prop
  | [] => True
  | x :: l => (∀ y ∈ l, c.lib (c.proc x.src) = true → c.lib (c.proc y.src) = true → x.src = y.src) ∧
      (∀ m, x.to = some m → c.isMain m = true → ∃ y ∈ l, y.src = m) ∧ SoloC c l

theorem SoloC.eq {c : Cfg} {l : List Tx} (h : SoloC c l) {x y : Tx} (hx : x ∈ l) (hy : y ∈ l) (h1 : c.lib (c.proc x.src) = true)
    (h2 : c.lib (c.proc y.src) = true) : x.src = y.src := by
  induction l with
  | nil => cases hx
  | cons z l ih =>
    rcases List.mem_cons.1 hx with e | hx' <;> rcases List.mem_cons.1 hy with e' | hy'
    · rw [e, e']
    · subst e; exact h.1 y hy' h1 h2
    · subst e'; exact (h.1 x hx' h2 h1).symm
    · exact ih h.2.2 hx' hy'

theorem main_worker {c : Cfg} {m : Nat} (h : c.isMain m = true) : c.isWorker m = false := by
  simp only [Cfg.isMain, Bool.and_eq_true, beq_iff_eq] at h
  simp only [Cfg.isWorker, Bool.and_eq_false_iff, bne_eq_false_iff_eq]
  exact .inr h.2

/-- A thread of libgbinder which continues a chain has made a call of it before. -/
theorem continues {c : Cfg} {s : State} (hr : Reach Nested.step {} s.base) {t h : Nat} (hs : SoloC c (s.base.chain h))
    (hm : mayCall c s t = true) (hb : s.base.mayCall t h = true) (hl : c.lib (c.proc t) = true) :
    s.base.chain h = [] ∨ ∃ y ∈ s.base.chain h, y.src = t := by
  rcases ((Nested.Inv.reach hr).mayCall hb).2.2 with ⟨i, fs, x, l, hf, hc, hx, _⟩ | ⟨_, hc⟩
  · right
    rcases lib_cases hl with hmn | hw
    · rw [hc] at hs ⊢
      obtain ⟨y, hy, e⟩ := hs.2.1 t hx hmn
      exact ⟨y, List.mem_cons_of_mem _ hy, e⟩
    · simp [mayCall, hw, hf] at hm
  · exact .inl hc

theorem SoloC.made {c : Cfg} {s : State} (hr : Reach Nested.step {} s.base) {t h i : Nat} {o : Option Nat} (hs : SoloC c (s.base.chain h))
    (hm : mayCall c s t = true) (hb : s.base.mayCall t h = true) (ho : ∀ m, o = some m → m ∈ (s.base.chain h).map (·.src)) :
    SoloC c (⟨i, t, o⟩ :: s.base.chain h) := by
  refine ⟨fun y hy h1 h2 => ?_, fun m he _ => ?_, hs⟩
  · rcases continues hr hs hm hb h1 with e | ⟨z, hz, e⟩
    · rw [e] at hy; cases hy
    · have := hs.eq hz hy (by rw [e]; exact h1) h2
      rw [← this, e]
  · obtain ⟨y, hy, e⟩ := List.mem_map.1 (ho m he)
    exact ⟨y, hy, e⟩

theorem SoloC.step {c : Cfg} {s s' : State} {l : Label} (hr : Reach Nested.step {} s.base) (ha : ∀ t, s.base.dead t = false)
    (hi : ∀ h, SoloC c (s.base.chain h)) (hs : step c s l = .ok s') : ∀ h, SoloC c (s'.base.chain h) := by
  intro k
  cases base hs with
  | call t h q b hm hq hb =>
    obtain ⟨hmc, _, _, h3, _⟩ := call_ok hb
    simp only [h3, upd]
    split
    · exact (hi h).made hr hm hmc (by simp)
    · exact hi k
  | callTo t h u b hm hb =>
    obtain ⟨hmc, _, hu, _, _, h3, _⟩ := callTo_ok hb
    simp only [h3, upd]
    split
    · exact (hi h).made hr hm hmc (by intro m e; cases e; exact hu)
    · exact hi k
  | pick u h b hm hq hb =>
    obtain ⟨x, l, hc, hx, hf, _, _, h3, _⟩ := pick_ok hb
    have hih := hi h
    rw [hc] at hih
    simp only [h3, upd]
    split
    · refine ⟨hih.1, fun m e hm' => ?_, hih.2.2⟩
      cases e
      rw [hm] at hm'
      cases hm'
    · exact hi k
  | read t b hb =>
    obtain ⟨_, _, _, h3, _⟩ := read_ok hb
    simp only [h3]
    exact hi k
  | reply t h i fs b hf hd hb =>
    obtain ⟨x, l, hc, hx, _, _, h3, _⟩ := reply_ok ha hb
    have hih := hi h
    rw [hc] at hih
    simp only [h3, upd]
    split
    · exact hih.2.2
    · exact hi k
  | take => exact hi k
  | finish => exact hi k
  | block => exact hi k
  | complete => exact hi k

/-- With a single process which uses libgbinder, the hierarchy is trivial. -/
theorem single_ok {c : Cfg} (hone : ∀ p q, c.lib p = true → c.lib q = true → p = q) {s s' : State} {l : Label}
    (hr : Reach Nested.step {} s.base) (hi : ∀ h, SoloC c (s.base.chain h)) (hn : NotSelf c l) (hs : step c s l = .ok s') :
    Ok c (fun _ => 0) s l := by
  cases base hs with
  | call t h q b hm hq hb =>
    intro hl
    exact ⟨fun h1 => absurd (hone _ _ (isMain_lib h1) hl) (hn h1), fun x hx h1 => absurd (hone _ _ (isMain_lib h1) hl) (hq x hx)⟩
  | callTo t h u b hm hb =>
    intro hw
    obtain ⟨hmc, hne, hu, _⟩ := callTo_ok hb
    obtain ⟨z, hz, e⟩ := List.mem_map.1 hu
    have key : ∀ x ∈ s.base.chain h, c.isMain x.src = true → False := fun x hx h1 => by
      have := (hi h).eq hx hz (isMain_lib h1) (by rw [e]; exact worker_lib hw)
      rw [this, e] at h1
      rw [main_worker h1] at hw
      cases hw
    refine ⟨fun h1 => ?_, fun x hx h1 => (key x hx h1).elim⟩
    rcases continues hr (hi h) hm hmc (isMain_lib h1) with e1 | ⟨y, hy, e1⟩
    · rw [e1] at hz; cases hz
    · exact (key y hy (by rw [e1]; exact h1)).elim
  | pick => trivial
  | read => trivial
  | reply => trivial
  | take => trivial
  | finish => trivial
  | block => trivial
  | complete => trivial

theorem single_reach {c : Cfg} (hone : ∀ p q, c.lib p = true → c.lib q = true → p = q) {s : State}
    (h : ReachIf (Mutual.step c) (fun _ => NotSelf c) {} s) : ReachIf (Mutual.step c) (Ok c fun _ => 0) {} s := by
  have key : ReachIf (Mutual.step c) (Ok c fun _ => 0) {} s ∧ ∀ h, SoloC c (s.base.chain h) := by
    induction h with
    | init => exact ⟨.init, fun _ => trivial⟩
    | @step s s' l h1 hn hs ih =>
      have hr := base_reach ih.1.reach
      exact ⟨.step l ih.1 (single_ok hone hr ih.2 hn hs) hs, SoloC.step hr (Fit.reach ih.1).alive ih.2 hs⟩
  exact key.1

/-- If main threads don't call anything, the hierarchy is trivial. -/
theorem async_reach {c : Cfg} {s : State} (h : ReachIf (Mutual.step c) (fun _ => Async c) {} s) :
    ReachIf (Mutual.step c) (Ok c fun _ => 0) {} s := by
  have key : ReachIf (Mutual.step c) (Ok c fun _ => 0) {} s ∧ ∀ h, ∀ x ∈ s.base.chain h, c.isMain x.src = false := by
    induction h with
    | init => exact ⟨.init, by simp⟩
    | @step s s' l h1 hn hs ih =>
      obtain ⟨ih1, ih2⟩ := ih
      have hno : ∀ k, ∀ x ∈ s.base.chain k, c.isMain x.src = true → 0 < 0 := fun k x hx e => by rw [ih2 k x hx] at e; cases e
      refine ⟨.step l ih1 ?_ hs, fun k y hy => ?_⟩
      · cases l with
        | call t k q => exact fun _ => ⟨fun e => absurd (hn.symm.trans e) (by simp), hno k⟩
        | callTo t k u => exact fun _ => ⟨fun e => absurd (hn.symm.trans e) (by simp), hno k⟩
        | _ => trivial
      · cases base hs with
        | call t h q b hm hq hb =>
          obtain ⟨_, _, _, h3, _⟩ := call_ok hb
          simp only [h3, upd] at hy
          split at hy
          · rcases List.mem_cons.1 hy with rfl | hy
            · exact hn
            · exact ih2 h y hy
          · exact ih2 k y hy
        | callTo t h u b hm hb =>
          obtain ⟨_, _, _, _, _, h3, _⟩ := callTo_ok hb
          simp only [h3, upd] at hy
          split at hy
          · rcases List.mem_cons.1 hy with rfl | hy
            · exact hn
            · exact ih2 h y hy
          · exact ih2 k y hy
        | pick u h b hm hq hb =>
          obtain ⟨x, l, hc, _, _, _, _, h3, _⟩ := pick_ok hb
          have := ih2 h
          rw [hc] at this
          simp only [h3, upd] at hy
          split at hy
          · rcases List.mem_cons.1 hy with rfl | hy
            · exact this x List.mem_cons_self
            · exact this y (List.mem_cons_of_mem _ hy)
          · exact ih2 k y hy
        | read t b hb =>
          obtain ⟨_, _, _, h3, _⟩ := read_ok hb
          simp only [h3] at hy
          exact ih2 k y hy
        | reply t h i fs b hf hd hb =>
          obtain ⟨x, l, hc, _, _, _, h3, _⟩ := reply_ok (Fit.reach ih1).alive hb
          have := ih2 h
          rw [hc] at this
          simp only [h3, upd] at hy
          split at hy
          · exact this y (List.mem_cons_of_mem _ hy)
          · exact ih2 k y hy
        | take => exact ih2 k y hy
        | finish => exact ih2 k y hy
        | block => exact ih2 k y hy
        | complete => exact ih2 k y hy
  exact key.1

end Gb.Mutual
