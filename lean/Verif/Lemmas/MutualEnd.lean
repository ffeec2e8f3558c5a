import Verif.Lemmas.Mutual
/-
How much is left to do until all calls have returned.
-/
set_option autoImplicit false

namespace Gb.Mutual
open Nested (Tx)

/-- The sum of the first values. -/
def sumTo (f : Nat → Nat) : Nat → Nat
  | 0 => 0
  | n + 1 => sumTo f n + f n

theorem sumTo_le {f g : Nat → Nat} (h : ∀ k, f k ≤ g k) (n : Nat) : sumTo f n ≤ sumTo g n := by
  induction n with
  | zero => exact Nat.le_refl _
  | succ n ih => have := h n; simp only [sumTo]; omega

theorem sumTo_lt {f g : Nat → Nat} (h : ∀ k, f k ≤ g k) {k n : Nat} (hk : f k < g k) (hn : k < n) : sumTo f n < sumTo g n := by
  induction n with
  | zero => omega
  | succ n ih =>
    simp only [sumTo]
    by_cases e : k = n
    · have := sumTo_le h n
      subst e
      omega
    · have := ih (by omega)
      have := h n
      omega

theorem sumTo_mono (f : Nat → Nat) {m n : Nat} (h : m ≤ n) : sumTo f m ≤ sumTo f n := by
  induction n with
  | zero => simp at h; subst h; exact Nat.le_refl _
  | succ n ih =>
    by_cases e : m = n + 1
    · subst e; exact Nat.le_refl _
    · have := ih (by omega)
      simp only [sumTo]
      omega

theorem sumTo_upd_out {f : Nat → Nat} {k n : Nat} (v : Nat) (h : n ≤ k) : sumTo (upd f k v) n = sumTo f n := by
  induction n with
  | zero => rfl
  | succ n ih => simp only [sumTo]; rw [ih (by omega), upd_ne _ _ (by omega)]

theorem sumTo_upd {f : Nat → Nat} {k n : Nat} (v : Nat) (h : k < n) : sumTo (upd f k v) n + f k = sumTo f n + v := by
  induction n with
  | zero => omega
  | succ n ih =>
    simp only [sumTo]
    by_cases e : k = n
    · subst e
      rw [sumTo_upd_out v (Nat.le_refl k), upd_same]
      omega
    · have := ih (by omega)
      rw [upd_ne _ _ (by omega : n ≠ k)]
      omega

theorem comp_upd {α : Type} (g : α → Nat) (f : Nat → α) (k : Nat) (v : α) : (fun j => g (upd f k v j)) = upd (fun j => g (f j)) k (g v) := by
  funext j
  simp only [upd]
  split <;> rfl

/-- How much there's in the kernel for the first threads. -/
def waiting (todo : Nat → List Nested.Work) (n : Nat) : Nat := sumTo (fun t => (todo t).length) n

theorem waiting_post {todo : Nat → List Nested.Work} {t n : Nat} (w : Nested.Work) (h : t < n) :
    waiting (upd todo t (todo t ++ [w])) n = waiting todo n + 1 := by
  have := sumTo_upd (f := fun t => (todo t).length) (todo t ++ [w]).length h
  simp only [waiting, comp_upd List.length]
  simp only [List.length_append, List.length_singleton] at this ⊢
  omega

theorem waiting_read {todo : Nat → List Nested.Work} {t n : Nat} {w : Nested.Work} {ws : List Nested.Work} (hw : todo t = w :: ws)
    (h : t < n) : waiting (upd todo t ws) n + 1 = waiting todo n := by
  have := sumTo_upd (f := fun t => (todo t).length) ws.length h
  simp only [waiting, comp_upd List.length]
  simp only [hw, List.length_cons] at this
  omega

/-- What has to be done about a call. -/
def weight (c : Cfg) (job : Nat → Option Nat) (held done : List Nat) (x : Tx) : Nat :=
  match x.to with
  | none => 8
  | some u => 3 + if x.id ∈ done then 0 else if x.id ∈ held then 1 else if job (c.proc u) = some x.id then 2 else 3

theorem weight_ge (c : Cfg) (job : Nat → Option Nat) (held done : List Nat) (x : Tx) : 3 ≤ weight c job held done x := by
  simp only [weight]
  split <;> omega

theorem weight_le (c : Cfg) (job : Nat → Option Nat) (held done : List Nat) (x : Tx) : weight c job held done x ≤ 8 := by
  simp only [weight]
  split
  · omega
  · split
    · omega
    · split
      · omega
      · split <;> omega

/-- What has to be done about a chain of calls. -/
def load (c : Cfg) (job : Nat → Option Nat) (held done : List Nat) : List Tx → Nat
  | [] => 0
  | x :: l => weight c job held done x + load c job held done l

theorem load_le {c : Cfg} {job job' : Nat → Option Nat} {held held' done done' : List Nat}
    (h : ∀ x, weight c job' held' done' x ≤ weight c job held done x) (l : List Tx) : load c job' held' done' l ≤ load c job held done l := by
  induction l with
  | nil => exact Nat.le_refl _
  | cons x l ih => have := h x; simp only [load]; omega

theorem load_lt {c : Cfg} {job job' : Nat → Option Nat} {held held' done done' : List Nat}
    (h : ∀ x, weight c job' held' done' x ≤ weight c job held done x) {l : List Tx} {x : Tx} (hx : x ∈ l)
    (hlt : weight c job' held' done' x < weight c job held done x) : load c job' held' done' l < load c job held done l := by
  induction l with
  | nil => cases hx
  | cons y l ih =>
    simp only [load]
    rcases List.mem_cons.1 hx with e | hx'
    · have := load_le h l
      subst e
      omega
    · have := ih hx'
      have := h y
      omega

/-- What's left to do. -/
def left (c : Cfg) (s : State) (n : Nat) : Nat :=
  waiting s.base.todo n + sumTo (fun h => load c s.job s.blocked s.done (s.base.chain h)) n

theorem left_mono (c : Cfg) (s : State) {m n : Nat} (h : m ≤ n) : left c s m ≤ left c s n := by
  have := sumTo_mono (fun t => (s.base.todo t).length) h
  have := sumTo_mono (fun k => load c s.job s.blocked s.done (s.base.chain k)) h
  simp only [left, waiting]
  omega

/-- Threads are alive; calls have numbers of their own; the main thread is handling a call which hasn't been replied to, and the same goes
for those which have been blocked. -/
structure Tidy (c : Cfg) (s : State) : Prop where
  alive : ∀ t, s.base.dead t = false
  ids : ∀ h, ∀ x ∈ s.base.chain h, x.id < s.base.next
  nodup : ∀ h, (s.base.chain h).Pairwise fun x y => x.id ≠ y.id
  apart : ∀ h k, h ≠ k → ∀ x ∈ s.base.chain h, ∀ y ∈ s.base.chain k, x.id ≠ y.id
  jobs : ∀ p i, s.job p = some i → (i ∉ s.done ∧ i ∉ s.blocked) ∧ ∃ h, ∃ x ∈ s.base.chain h, x.id = i ∧ ∃ u, x.to = some u ∧
    c.proc u = p ∧ c.isWorker u = true
  held : ∀ i ∈ s.blocked, i ∉ s.done ∧ ∃ h, ∃ x ∈ s.base.chain h, x.id = i ∧ ∃ u, x.to = some u ∧ c.isWorker u = true

theorem Tidy.init (c : Cfg) : Tidy c {} := ⟨fun _ => rfl, by simp, fun _ => .nil, by simp, by simp, by simp⟩

theorem pairwise_eq {l : List Tx} (h : l.Pairwise fun x y => x.id ≠ y.id) {x y : Tx} (hx : x ∈ l) (hy : y ∈ l) (e : x.id = y.id) :
    x = y := by
  induction l with
  | nil => cases hx
  | cons z l ih =>
    rw [List.pairwise_cons] at h
    rcases List.mem_cons.1 hx with e1 | hx' <;> rcases List.mem_cons.1 hy with e2 | hy'
    · rw [e1, e2]
    · subst e1; exact absurd e (h.1 y hy')
    · subst e2; exact absurd e.symm (h.1 x hx')
    · exact ih h.2 hx' hy'

theorem Tidy.same {c : Cfg} {s : State} (hi : Tidy c s) {h k : Nat} {x y : Tx} (hx : x ∈ s.base.chain h) (hy : y ∈ s.base.chain k)
    (e : x.id = y.id) : x = y := by
  by_cases hk : h = k
  · subst hk
    exact pairwise_eq (hi.nodup h) hx hy e
  · exact absurd e (hi.apart h k hk x hx y hy)

theorem Tidy.made {c : Cfg} {s s' : State} (hi : Tidy c s) {t h : Nat} {o : Option Nat}
    (hd : s'.base.dead = s.base.dead) (hn : s'.base.next = s.base.next + 1)
    (hc : s'.base.chain = upd s.base.chain h (⟨s.base.next, t, o⟩ :: s.base.chain h)) (hj : s'.job = s.job) (hdn : s'.done = s.done)
    (hbl : s'.blocked = s.blocked) :
    Tidy c s' := by
  have hmem : ∀ k x, x ∈ s'.base.chain k ↔ x ∈ s.base.chain k ∨ (k = h ∧ x = ⟨s.base.next, t, o⟩) := by
    intro k x
    rw [hc]
    simp only [upd]
    split
    · rename_i e; subst e; simp only [List.mem_cons]; grind
    · grind
  refine ⟨by rw [hd]; exact hi.alive, fun k x hx => ?_, fun k => ?_, fun k k' hk x hx y hy => ?_, fun p i hp => ?_, fun i hp => ?_⟩
  · rw [hn]
    rcases (hmem k x).1 hx with hx | ⟨_, rfl⟩
    · have := hi.ids k x hx; omega
    · simp
  · rw [hc]
    simp only [upd]
    split
    · refine List.pairwise_cons.2 ⟨fun y hy => ?_, hi.nodup h⟩
      have := hi.ids h y hy
      simp only
      omega
    · exact hi.nodup k
  · rcases (hmem k x).1 hx with hx | ⟨e1, rfl⟩ <;> rcases (hmem k' y).1 hy with hy | ⟨e2, rfl⟩
    · exact hi.apart k k' hk x hx y hy
    · have := hi.ids k x hx; simp only; omega
    · have := hi.ids k' y hy; simp only; omega
    · exact absurd (e1.trans e2.symm) hk
  · rw [hj] at hp
    rw [hdn, hbl]
    obtain ⟨h1, k, x, hx, h2⟩ := hi.jobs p i hp
    exact ⟨h1, k, x, (hmem k x).2 (.inl hx), h2⟩
  · rw [hbl] at hp
    rw [hdn]
    obtain ⟨h1, k, x, hx, h2⟩ := hi.held i hp
    exact ⟨h1, k, x, (hmem k x).2 (.inl hx), h2⟩

theorem reply_id {s b : Nested.State} {t h i : Nat} {ok : Bool} {fs : List Nested.Frame} (hf : s.frames t = .handle i :: fs)
    (hs : Nested.step s (.reply t h ok) = .ok b) {x : Tx} {l : List Tx} (hc : s.chain h = x :: l) : x.id = i := by
  simp only [Nested.step, hf, hc] at hs
  split at hs
  · cases hs
  · split at hs
    · rename_i hx; exact hx.2
    · cases hs

theorem Tidy.step {c : Cfg} {s s' : State} {l : Label} (hr : Reach Nested.step {} s.base) (hi : Tidy c s)
    (hs : step c s l = .ok s') : Tidy c s' := by
  cases base hs with
  | call t h q b hm hq hb =>
    obtain ⟨_, h1, h2, h3, _⟩ := call_ok hb
    exact hi.made (h := h) h1 h2 h3 rfl rfl rfl
  | callTo t h u b hm hb =>
    obtain ⟨_, _, _, h1, h2, h3, _⟩ := callTo_ok hb
    exact hi.made (h := h) h1 h2 h3 rfl rfl rfl
  | pick u h b hm hq hb =>
    obtain ⟨x, l, hc, hx, hf, h1, h2, h3, _⟩ := pick_ok hb
    have hmem : ∀ k y, y ∈ b.chain k → ∃ z ∈ s.base.chain k, z.id = y.id := by
      intro k y hy
      simp only [h3, upd] at hy
      split at hy
      · rename_i e
        subst e
        rcases List.mem_cons.1 hy with rfl | hy
        · exact ⟨x, by rw [hc]; exact List.mem_cons_self, rfl⟩
        · exact ⟨y, by rw [hc]; exact List.mem_cons_of_mem _ hy, rfl⟩
      · exact ⟨y, hy, rfl⟩
    refine ⟨by simp only [h1]; exact hi.alive, fun k y hy => ?_, fun k => ?_, fun k k' hk y hy z hz => ?_, fun p i hp => ?_, fun i hp => ?_⟩
    · obtain ⟨z, hz, e⟩ := hmem k y hy
      simp only [h2]
      rw [← e]
      exact hi.ids k z hz
    · have hn := hi.nodup h
      rw [hc] at hn
      simp only [h3, upd]
      split
      · exact List.pairwise_cons.2 (List.pairwise_cons.1 hn)
      · exact hi.nodup k
    · obtain ⟨y', hy', e⟩ := hmem k y hy
      obtain ⟨z', hz', e'⟩ := hmem k' z hz
      rw [← e, ← e']
      exact hi.apart k k' hk y' hy' z' hz'
    · obtain ⟨a1, k, y, hy, a2, v, a3, a4⟩ := hi.jobs p i hp
      refine ⟨a1, k, y, ?_, a2, v, a3, a4⟩
      simp only [h3, upd]
      split
      · rename_i e
        subst e
        rw [hc] at hy
        rcases List.mem_cons.1 hy with rfl | hy
        · rw [hx] at a3; cases a3
        · exact List.mem_cons_of_mem _ hy
      · exact hy
    · obtain ⟨a1, k, y, hy, a2, v, a3, a4⟩ := hi.held i hp
      refine ⟨a1, k, y, ?_, a2, v, a3, a4⟩
      simp only [h3, upd]
      split
      · rename_i e
        subst e
        rw [hc] at hy
        rcases List.mem_cons.1 hy with rfl | hy
        · rw [hx] at a3; cases a3
        · exact List.mem_cons_of_mem _ hy
      · exact hy
  | read t b hb =>
    obtain ⟨_, h1, h2, h3, _⟩ := read_ok hb
    exact ⟨by simp only [h1]; exact hi.alive, by simp only [h2, h3]; exact hi.ids, by simp only [h3]; exact hi.nodup,
      by simp only [h3]; exact hi.apart, by simp only [h3]; exact hi.jobs, by simp only [h3]; exact hi.held⟩
  | reply t h i fs b hf hd hb =>
    obtain ⟨x, l, hc, hx, h1, h2, h3, _⟩ := reply_ok hi.alive hb
    have hid := reply_id hf hb hc
    have hmem : ∀ k y, y ∈ b.chain k → y ∈ s.base.chain k := by
      intro k y hy
      simp only [h3, upd] at hy
      split at hy
      · rename_i e
        subst e
        rw [hc]; exact List.mem_cons_of_mem _ hy
      · exact hy
    refine ⟨by simp only [h1]; exact hi.alive, fun k y hy => ?_, fun k => ?_, fun k k' hk y hy z hz => ?_, fun p j hp => ?_, fun j hp => ?_⟩
    · simp only [h2]
      exact hi.ids k y (hmem k y hy)
    · have hn := hi.nodup h
      rw [hc] at hn
      simp only [h3, upd]
      split
      · exact (List.pairwise_cons.1 hn).2
      · exact hi.nodup k
    · exact hi.apart k k' hk y (hmem k y hy) z (hmem k' z hz)
    · obtain ⟨a1, k, y, hy, a2, v, a3, a4, a5⟩ := hi.jobs p j hp
      refine ⟨a1, k, y, ?_, a2, v, a3, a4, a5⟩
      simp only [h3, upd]
      split
      · rename_i e
        subst e
        rw [hc] at hy
        rcases List.mem_cons.1 hy with rfl | hy
        · rw [hx] at a3
          cases a3
          rcases hd with hd | hd
          · rw [hd] at a5; cases a5
          · rw [← hid, a2] at hd
            exact absurd hd a1.1
        · exact hy
      · exact hy
    · obtain ⟨a1, k, y, hy, a2, v, a3, a5⟩ := hi.held j hp
      refine ⟨a1, k, y, ?_, a2, v, a3, a5⟩
      simp only [h3, upd]
      split
      · rename_i e
        subst e
        rw [hc] at hy
        rcases List.mem_cons.1 hy with rfl | hy
        · rw [hx] at a3
          cases a3
          rcases hd with hd | hd
          · rw [hd] at a5; cases a5
          · rw [← hid, a2] at hd
            exact absurd hd a1
        · exact hy
      · exact hy
  | take p u i hl hj hp hw hf hd hbl =>
    refine ⟨hi.alive, hi.ids, hi.nodup, hi.apart, fun p' j hp' => ?_, hi.held⟩
    simp only [upd] at hp'
    split at hp'
    · rename_i e
      cases hp'
      cases hfu : s.base.frames u with
      | nil => rw [hfu] at hf; cases hf
      | cons f fs =>
        rw [hfu] at hf
        cases hf
        obtain ⟨_, k, x, l, hc, hx, hid⟩ := (Nested.Inv.reach hr).active (hi.alive u) hfu
        exact ⟨⟨hd, hbl⟩, k, x, by rw [hc]; exact List.mem_cons_self, hid, u, hx, hp.trans e.symm, hw⟩
    · exact hi.jobs p' j hp'
  | finish p i hj hl =>
    obtain ⟨b1, k', z, hz, b2, v', b3, b4, _⟩ := hi.jobs p i hj
    refine ⟨hi.alive, hi.ids, hi.nodup, hi.apart, fun p' j hp' => ?_, fun j hj' => ?_⟩
    · simp only [upd] at hp'
      split at hp'
      · cases hp'
      · rename_i hne
        obtain ⟨a1, k, y, hy, a2, v, a3, a4, a5⟩ := hi.jobs p' j hp'
        refine ⟨⟨fun hm => ?_, a1.2⟩, k, y, hy, a2, v, a3, a4, a5⟩
        rcases List.mem_cons.1 hm with e | hm
        · have := hi.same hy hz (by rw [a2, b2, e])
          subst this
          rw [a3] at b3
          cases b3
          exact hne (a4.symm.trans b4)
        · exact a1.1 hm
    · obtain ⟨a1, a2⟩ := hi.held j hj'
      refine ⟨fun hm => ?_, a2⟩
      rcases List.mem_cons.1 hm with e | hm
      · subst e; exact b1.2 hj'
      · exact a1 hm
  | block p i hj hl =>
    obtain ⟨b1, k', z, hz, b2, v', b3, b4, b5⟩ := hi.jobs p i hj
    refine ⟨hi.alive, hi.ids, hi.nodup, hi.apart, fun p' j hp' => ?_, fun j hj' => ?_⟩
    · simp only [upd] at hp'
      split at hp'
      · cases hp'
      · rename_i hne
        obtain ⟨a1, k, y, hy, a2, v, a3, a4, a5⟩ := hi.jobs p' j hp'
        refine ⟨⟨a1.1, fun hm => ?_⟩, k, y, hy, a2, v, a3, a4, a5⟩
        rcases List.mem_cons.1 hm with e | hm
        · have := hi.same hy hz (by rw [a2, b2, e])
          subst this
          rw [a3] at b3
          cases b3
          exact hne (a4.symm.trans b4)
        · exact a1.2 hm
    · rcases List.mem_cons.1 hj' with e | hj'
      · subst e; exact ⟨b1.1, k', z, hz, b2, v', b3, b5⟩
      · exact hi.held j hj'
  | complete i hb =>
    refine ⟨hi.alive, hi.ids, hi.nodup, hi.apart, fun p' j hp' => ?_, fun j hj' => ?_⟩
    · obtain ⟨a1, a2⟩ := hi.jobs p' j hp'
      refine ⟨⟨fun hm => ?_, fun hm => a1.2 (List.mem_filter.1 hm).1⟩, a2⟩
      rcases List.mem_cons.1 hm with e | hm
      · subst e; exact a1.2 hb
      · exact a1.1 hm
    · obtain ⟨h1, h2⟩ := List.mem_filter.1 hj'
      obtain ⟨a1, a2⟩ := hi.held j h1
      refine ⟨fun hm => ?_, a2⟩
      rcases List.mem_cons.1 hm with e | hm
      · simp [e] at h2
      · exact a1 hm

theorem Tidy.reach {c : Cfg} {s : State} (h : Reach (Mutual.step c) {} s) : Tidy c s :=
  (Reach.invariant (P := fun s => Reach Nested.step {} s.base ∧ Tidy c s) ⟨Reach.init, Tidy.init c⟩ (fun _ _ _ hi hs => ⟨by
    rcases base_step hs with e | ⟨l, e⟩
    · rw [e]; exact hi.1
    · exact hi.1.step e, hi.2.step hi.1 hs⟩) h).2

/-- Something is posted to threads, and a chain is changed. -/
theorem load_upd {c : Cfg} {job : Nat → Option Nat} {held done : List Nat} {chain : Nat → List Tx} {h n : Nat} (l : List Tx) (hn : h < n) :
    sumTo (fun k => load c job held done (upd chain h l k)) n + load c job held done (chain h) =
      sumTo (fun k => load c job held done (chain k)) n + load c job held done l := by
  have := sumTo_upd (f := fun k => load c job held done (chain k)) (load c job held done l) hn
  rw [comp_upd (load c job held done)]
  exact this

theorem weight_take {c : Cfg} {job : Nat → Option Nat} {held done : List Nat} {p i : Nat} (hj : job p = none) (x : Tx) :
    weight c (upd job p (some i)) held done x ≤ weight c job held done x := by
  simp only [weight]
  split
  · exact Nat.le_refl _
  · rename_i u _
    by_cases e : c.proc u = p
    · rw [e, upd_same, hj]
      grind
    · rw [upd_ne _ _ e]
      exact Nat.le_refl _

theorem weight_finish {c : Cfg} {job : Nat → Option Nat} {held done : List Nat} {p i : Nat} (hj : job p = some i) (x : Tx) :
    weight c (upd job p none) held (i :: done) x ≤ weight c job held done x := by
  simp only [weight]
  split
  · exact Nat.le_refl _
  · rename_i u _
    by_cases e : c.proc u = p
    · rw [e, upd_same, hj]
      grind
    · rw [upd_ne _ _ e]
      grind

theorem weight_block {c : Cfg} {job : Nat → Option Nat} {held done : List Nat} {p i : Nat} (hj : job p = some i) (x : Tx) :
    weight c (upd job p none) (i :: held) done x ≤ weight c job held done x := by
  simp only [weight]
  split
  · exact Nat.le_refl _
  · rename_i u _
    by_cases e : c.proc u = p
    · rw [e, upd_same, hj]
      grind
    · rw [upd_ne _ _ e]
      grind

theorem weight_complete {c : Cfg} {job : Nat → Option Nat} {held done : List Nat} {i : Nat} (x : Tx) :
    weight c job (held.filter (· != i)) (i :: done) x ≤ weight c job held done x := by
  simp only [weight]
  split
  · exact Nat.le_refl _
  · by_cases e : x.id = i
    · simp [e]
    · simp [e]

/-- Nothing changes but what's known about the calls. -/
theorem left_lt {c : Cfg} {s s' : State} (hb : s'.base = s.base)
    (hle : ∀ x, weight c s'.job s'.blocked s'.done x ≤ weight c s.job s.blocked s.done x) {k n : Nat} {x : Tx}
    (hx : x ∈ s.base.chain k) (hlt : weight c s'.job s'.blocked s'.done x < weight c s.job s.blocked s.done x) (hn : k < n) :
    left c s' n + 1 ≤ left c s n := by
  have := sumTo_lt (f := fun h => load c s'.job s'.blocked s'.done (s.base.chain h))
    (g := fun h => load c s.job s.blocked s.done (s.base.chain h)) (fun h => load_le hle _) (k := k) (n := n) (load_lt hle hx hlt) hn
  simp only [left, hb]
  omega

theorem step_left {c : Cfg} {s s' : State} {l : Label} (hr : Reach Nested.step {} s.base) (hi : Tidy c s)
    (hs : step c s l = .ok s') : ∃ m, ∀ n, m ≤ n →
      (Progress l = true → left c s' n + 1 ≤ left c s n) ∧ left c s' n ≤ left c s n + 10 := by
  cases base hs with
  | call t h q b hm hq hb =>
    obtain ⟨_, _, _, h3, _, h5⟩ := call_ok hb
    refine ⟨t + h + 1, fun n hn => ⟨fun hp => by simp [Progress] at hp, ?_⟩⟩
    have e1 := waiting_post (todo := s.base.todo) .complete (by omega : t < n)
    have e2 := load_upd (c := c) (job := s.job) (held := s.blocked) (done := s.done) (chain := s.base.chain) (⟨s.base.next, t, none⟩ :: s.base.chain h)
      (by omega : h < n)
    have := weight_le c s.job s.blocked s.done ⟨s.base.next, t, none⟩
    simp only [left, h3, h5]
    simp only [load] at e2
    omega
  | callTo t h u b hm hb =>
    obtain ⟨_, _, _, _, _, h3, _⟩ := callTo_ok hb
    have h5 : b.todo = upd (upd s.base.todo t (s.base.todo t ++ [.complete])) u
        (upd s.base.todo t (s.base.todo t ++ [.complete]) u ++ [.transaction s.base.next]) := by
      simp only [Nested.step] at hb
      split at hb <;> cases hb
      rfl
    refine ⟨t + u + h + 1, fun n hn => ⟨fun hp => by simp [Progress] at hp, ?_⟩⟩
    have e1 := waiting_post (todo := s.base.todo) .complete (by omega : t < n)
    have e3 := waiting_post (todo := upd s.base.todo t (s.base.todo t ++ [.complete])) (.transaction s.base.next) (by omega : u < n)
    have e2 := load_upd (c := c) (job := s.job) (held := s.blocked) (done := s.done) (chain := s.base.chain) (⟨s.base.next, t, some u⟩ :: s.base.chain h)
      (by omega : h < n)
    have := weight_le c s.job s.blocked s.done ⟨s.base.next, t, some u⟩
    simp only [left, h3, h5]
    simp only [load] at e2
    omega
  | pick u h b hm hq hb =>
    obtain ⟨x, l, hc, hx, hf, _, _, h3, _⟩ := pick_ok hb
    have h5 : b.todo = upd s.base.todo u (s.base.todo u ++ [.transaction x.id]) := by
      simp only [Nested.step, hc, hx] at hb
      split at hb
      · cases hb
        rfl
      · cases hb
    refine ⟨u + h + 1, fun n hn => ?_⟩
    have e1 := waiting_post (todo := s.base.todo) (.transaction x.id) (by omega : u < n)
    have e2 := load_upd (c := c) (job := s.job) (held := s.blocked) (done := s.done) (chain := s.base.chain) ({ x with to := some u } :: l)
      (by omega : h < n)
    have w1 : weight c s.job s.blocked s.done x = 8 := by simp [weight, hx]
    have w2 : weight c s.job s.blocked s.done { x with to := some u } ≤ 6 := by
      simp only [weight]
      split
      · omega
      · split
        · omega
        · split <;> omega
    rw [hc] at e2
    simp only [load] at e2
    simp only [left, h3, h5]
    exact ⟨fun _ => by omega, by omega⟩
  | read t b hb =>
    obtain ⟨_, _, _, h3, _⟩ := read_ok hb
    have h5 : ∃ w ws, s.base.todo t = w :: ws ∧ b.todo = upd s.base.todo t ws := by
      simp only [Nested.step] at hb
      split at hb
      · cases hb
      · rename_i w ws hw
        split at hb
        · cases hb
        · split at hb
          · cases hb
          · cases hb
            exact ⟨w, ws, hw, rfl⟩
    obtain ⟨w, ws, hw, h5⟩ := h5
    refine ⟨t + 1, fun n hn => ?_⟩
    have e1 := waiting_read hw (by omega : t < n)
    simp only [left, h3, h5]
    exact ⟨fun _ => by omega, by omega⟩
  | reply t h i fs b hf hd hb =>
    obtain ⟨x, l, hc, hx, _, _, h3, _⟩ := reply_ok hi.alive hb
    have hid := reply_id hf hb hc
    have h5 : b.todo = upd (upd s.base.todo t (s.base.todo t ++ [.complete])) x.src
        (upd s.base.todo t (s.base.todo t ++ [.complete]) x.src ++ [.reply i]) := by
      simp only [Nested.step, hi.alive, hf, hc] at hb
      rw [if_neg (by simp), if_pos ⟨hx, hid⟩] at hb
      simp only [Bool.not_false, Bool.and_self, if_true] at hb
      cases hb
      rfl
    refine ⟨t + x.src + h + 1, fun n hn => ?_⟩
    have e1 := waiting_post (todo := s.base.todo) .complete (by omega : t < n)
    have e3 := waiting_post (todo := upd s.base.todo t (s.base.todo t ++ [.complete])) (.reply i) (by omega : x.src < n)
    have e2 := load_upd (c := c) (job := s.job) (held := s.blocked) (done := s.done) (chain := s.base.chain) l (by omega : h < n)
    have := weight_ge c s.job s.blocked s.done x
    rw [hc] at e2
    simp only [load] at e2
    simp only [left, h3, h5]
    exact ⟨fun _ => by omega, by omega⟩
  | take p u i hl hj hp hw hf hd hbl =>
    cases hfu : s.base.frames u with
    | nil => rw [hfu] at hf; cases hf
    | cons f fs =>
      rw [hfu] at hf
      cases hf
      obtain ⟨_, k, x, l, hc, hx, hid⟩ := (Nested.Inv.reach hr).active (hi.alive u) hfu
      refine ⟨k + 1, fun n hn => ?_⟩
      have := left_lt (c := c) (s := s) (s' := { s with job := upd s.job p (some i) }) rfl (weight_take hj) (k := k) (n := n) (x := x)
        (by rw [hc]; exact List.mem_cons_self) (by simp [weight, hx, hid, hd, hbl, hp, upd_same, hj]) (by omega)
      exact ⟨fun _ => this, by omega⟩
  | finish p i hj hl =>
    obtain ⟨hd, k, x, hx, hid, u, hto, hp, _⟩ := hi.jobs p i hj
    refine ⟨k + 1, fun n hn => ?_⟩
    have := left_lt (c := c) (s := s) (s' := { s with job := upd s.job p none, done := i :: s.done }) rfl (weight_finish hj) (n := n) hx
      (by simp [weight, hto, hid, hd.1, hd.2, hp, hj]) (by omega)
    exact ⟨fun _ => this, by omega⟩
  | block p i hj hl =>
    obtain ⟨hd, k, x, hx, hid, u, hto, hp, _⟩ := hi.jobs p i hj
    refine ⟨k + 1, fun n hn => ?_⟩
    have := left_lt (c := c) (s := s) (s' := { s with job := upd s.job p none, blocked := i :: s.blocked }) rfl (weight_block hj) (n := n)
      hx (by simp [weight, hto, hid, hd.1, hd.2, hp, hj]) (by omega)
    exact ⟨fun _ => this, by omega⟩
  | complete i hb =>
    obtain ⟨hd, k, x, hx, hid, u, hto, _⟩ := hi.held i hb
    refine ⟨k + 1, fun n hn => ?_⟩
    have := left_lt (c := c) (s := s) (s' := { s with blocked := s.blocked.filter (· != i), done := i :: s.done }) rfl
      (fun x => weight_complete x) (n := n) hx (by simp [weight, hto, hid, hd, hb]) (by omega)
    exact ⟨fun _ => this, by omega⟩

/-- There's a limited amount of things to do. -/
def Limited (c : Cfg) (s : State) (b : Nat) : Prop := ∀ n, left c s n ≤ b

theorem limited {c : Cfg} {s : State} (h : Reach (step c) {} s) : ∃ b, Limited c s b := by
  have key : (Reach (step c) {} s) ∧ ∃ b, Limited c s b := by
    refine Reach.invariant (P := fun s => Reach (step c) {} s ∧ ∃ b, Limited c s b) ⟨Reach.init, 0, fun n => ?_⟩ ?_ h
    · have e : ∀ n, sumTo (fun _ => 0) n = 0 := by
        intro n
        induction n with
        | zero => rfl
        | succ n ih => simp only [sumTo, ih]
      simp [left, waiting, load, e]
    · intro s l s' ⟨hr, b, hb⟩ hs
      obtain ⟨m, hm⟩ := step_left (base_reach hr) (Tidy.reach hr) hs
      refine ⟨hr.step hs, b + 10, fun n => ?_⟩
      have h1 := left_mono c s' (Nat.le_max_left n m)
      have h2 := (hm _ (Nat.le_max_right n m)).2
      have := hb (max n m)
      omega
  exact key.2

theorem progress_ends {c : Cfg} {s s' : State} (h : Reach (step c) {} s) {b : Nat} (hb : Limited c s b) {ls : List Label}
    (hp : ∀ l ∈ ls, Progress l = true) (he : exec (step c) s ls = .ok s') : ls.length ≤ b := by
  induction ls generalizing s b with
  | nil => simp
  | cons l ls ih =>
    simp only [exec] at he
    split at he
    · rename_i s1 h1
      obtain ⟨m, hm⟩ := step_left (base_reach h) (Tidy.reach h) h1
      have hpl := hp l List.mem_cons_self
      have hb1 : Limited c s1 (b - 1) := fun n => by
        have a1 := left_mono c s1 (Nat.le_max_left n m)
        have a2 := (hm _ (Nat.le_max_right n m)).1 hpl
        have := hb (max n m)
        omega
      have hpos : 1 ≤ b := by
        have a2 := (hm m (Nat.le_refl m)).1 hpl
        have := hb m
        omega
      have := ih (h.step h1) hb1 (fun l hl => hp l (List.mem_cons_of_mem _ hl)) he
      simp only [List.length_cons]
      omega
    · cases he
    · cases he

/-- Once there's nothing to do, nobody waits for anything. -/
theorem all_done {c : Cfg} {rank : Nat → Nat} {B : Nat} (hB : ∀ q, rank q ≤ B) {s : State}
    (h : ReachIf (Mutual.step c) (Ok c rank) {} s) (hidle : CanReceive c s) (hn : ¬ Moves c s) (t : Nat) :
    s.base.frames t = [] ∧ s.base.todo t = [] := by
  have hr := base_reach h.reach
  have hf := Fit.reach h
  have hw : s.base.todo t = [] := Classical.byContradiction fun hw => hn (moves_read hr (hf.alive t) hw)
  refine ⟨?_, hw⟩
  obtain ⟨k, hk, _⟩ := (Nested.Inv.reach hr).fine t (hf.alive t)
  have hc : s.base.chain k = [] := Classical.byContradiction fun hc => hn (moves hr hf hidle hB (B + 2) hc (.inl (by omega)))
  rw [hw, hc] at hk
  simpa [Nested.run, Nested.expected] using hk

end Gb.Mutual
