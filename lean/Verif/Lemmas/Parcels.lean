import Verif.Spec.Parcels
import Verif.Lemmas.Owns
/-
Everything in the heap and all descriptors belong to the application or are registered with exactly
one parcel.
-/
set_option autoImplicit false

namespace Gb.Parcels

/-! ### The log -/

theorem owner_append (k : Kind) (a : Nat) (l : List Ev) (e : Ev) :
    owner k a (l ++ [e]) = (owner k a l).bind fun o => nextOwner k a o e := by
  simp [owner, List.foldl_append]

theorem duties_append (p : Nat) (l : List Ev) (e : Ev) :
    duties p (l ++ [e]) = (duties p l).bind fun o => nextDuty p o e := by
  simp [duties, List.foldl_append]

theorem owner_see {k : Kind} {a : Nat} {l : List Ev} {o o' : Owner} {e : Ev} (h : owner k a l = some o)
    (h' : nextOwner k a o e = some o') : owner k a (l ++ [e]) = some o' := by
  rw [owner_append, h]; exact h'

theorem duties_see {p : Nat} {l : List Ev} {o o' : Duties} {e : Ev} (h : duties p l = some o)
    (h' : nextDuty p o e = some o') : duties p (l ++ [e]) = some o' := by
  rw [duties_append, h]; exact h'

theorem owner_gets {k k' : Kind} {a p : Nat} (l : List Nat) : ∀ {log : List Ev} {o : Owner},
    owner k a log = some o → l.Nodup → (k' = k → a ∈ l → o = .nobody) →
    owner k a (log ++ l.map (.get k' (some p))) = some (if k' = k ∧ a ∈ l then .of p false else o) := by
  induction l with
  | nil => intro log o h _ _; simpa using h
  | cons b l ih =>
    intro log o h hn ho
    obtain ⟨hb, hn⟩ := List.nodup_cons.1 hn
    have hc : log ++ (b :: l).map (.get k' (some p)) =
        (log ++ [.get k' (some p) b]) ++ l.map (.get k' (some p)) := by simp
    rw [hc]
    by_cases hk : k' = k ∧ b = a
    · have h0 := ho hk.1 (by rw [hk.2]; exact List.mem_cons_self)
      subst h0
      have hal : a ∉ l := hk.2 ▸ hb
      have h1 : owner k a (log ++ [.get k' (some p) b]) = some (.of p false) :=
        owner_see h (by simp [nextOwner, hk])
      rw [ih h1 hn fun _ h => absurd h hal, if_neg fun h => hal h.2, if_pos ⟨hk.1, by simp [hk.2]⟩]
    · have h1 : owner k a (log ++ [.get k' (some p) b]) = some o := owner_see h (by simp [nextOwner, hk])
      rw [ih h1 hn fun h h' => ho h (List.mem_cons_of_mem _ h')]
      congr 1
      by_cases hk' : k' = k
      · have : a ≠ b := fun h => hk ⟨hk', h.symm⟩
        simp [hk', this]
      · simp [hk']

theorem owner_regs {k : Kind} {a p : Nat} (l : List CleanupItem) : ∀ {log : List Ev} {o : Owner},
    owner k a log = some o → owner k a (log ++ l.map (.reg (some p))) = some o := by
  induction l with
  | nil => intro log o h; simpa using h
  | cons c l ih =>
    intro log o h
    have hc : log ++ (c :: l).map (.reg (some p)) = (log ++ [.reg (some p) c]) ++ l.map (.reg (some p)) := by simp
    rw [hc]
    exact ih (owner_see h rfl)

theorem duties_gets {q p : Nat} {k : Kind} (l : List Nat) : ∀ {log : List Ev} {d : Duties},
    duties q log = some d → duties q (log ++ l.map (.get k (some p))) = some d := by
  induction l with
  | nil => intro log o h; simpa using h
  | cons c l ih =>
    intro log o h
    have hc : log ++ (c :: l).map (.get k (some p)) = (log ++ [.get k (some p) c]) ++ l.map (.get k (some p)) := by
      simp
    rw [hc]
    exact ih (duties_see h rfl)

theorem duties_regs {q p : Nat} (l : List CleanupItem) : ∀ {log : List Ev} {d : Duties},
    duties q log = some d →
      duties q (log ++ l.map (.reg (some p))) = some (if p = q then { d with later := d.later ++ l } else d) := by
  induction l with
  | nil => intro log o h; simpa using h
  | cons c l ih =>
    intro log d h
    have hc : log ++ (c :: l).map (.reg (some p)) = (log ++ [.reg (some p) c]) ++ l.map (.reg (some p)) := by simp
    rw [hc]
    by_cases hp : p = q
    · have h1 : duties q (log ++ [.reg (some p) c]) = some { d with later := d.later ++ [c] } :=
        duties_see h (by simp [nextDuty, hp])
      rw [ih h1, if_pos hp, if_pos hp]
      simp
    · have h1 : duties q (log ++ [.reg (some p) c]) = some d := duties_see h (by simp [nextDuty, hp])
      rw [ih h1, if_neg hp, if_neg hp]

/-! ### The invariant -/

/-- Items which wait for the end. -/
def Parcel.later (x : Parcel) : List CleanupItem :=
  match x.phase with
  | .idle => x.w.cleanup
  | .resetting _ n => x.w.cleanup.drop n
  | .freeing _ => []

/-- Items which are going to be run. -/
def Parcel.now (x : Parcel) : List CleanupItem :=
  match x.phase with
  | .idle => []
  | .resetting i n => (x.w.cleanup.take n).drop i
  | .freeing i => x.w.cleanup.drop i

def Parcel.Wf (x : Parcel) : Prop :=
  match x.phase with
  | .idle => 0 < x.refs
  | .resetting i n => 0 < x.refs ∧ i ≤ n ∧ n ≤ x.w.cleanup.length
  | .freeing _ => x.refs = 0

/-- What is stored in the items. -/
def item : Kind → CleanupItem → Option Nat
  | .mem => CleanupItem.addr
  | .fd => CleanupItem.fd

def State.pool (s : State) : Kind → List Nat
  | .mem => s.mem.map (·.1)
  | .fd => s.fds

/-- NULL isn't an address. -/
def valid (k : Kind) (a : Nat) : Prop := k = .mem → a ≠ 0

/-- The rules have led to `o`. -/
structure Owned (s : State) (k : Kind) (a : Nat) (o : Owner) : Prop where
  pool : (s.pool k).count a = if o = .nobody then 0 else 1
  later : ∀ p x, s.parcel p = some x → (these (item k) x.later).count a = if o = .of p false then 1 else 0
  now : ∀ p x, s.parcel p = some x → (these (item k) x.now).count a = if o = .of p true then 1 else 0
  there : ∀ p b, o = .of p b → s.parcel p ≠ none

/-- What's left to do, as the code sees it. -/
def State.duties (s : State) (p : Nat) : Duties :=
  match s.parcel p with
  | none => {}
  | some x => { later := these CleanupItem.call x.later, now := these CleanupItem.call x.now }

structure Inv (s : State) : Prop where
  wf : ∀ p x, s.parcel p = some x → x.Wf
  lt : ∀ p x, s.parcel p = some x → p < s.no
  duty : ∀ p, Parcels.duties p s.log = some (s.duties p)
  own : ∀ k a, valid k a → ∃ o, owner k a s.log = some o ∧ Owned s k a o
  null : owner .mem 0 s.log = some .nobody ∧ (s.pool .mem).count 0 = 0
  nobody : ∀ c, registered c s.log = Parcels.done c s.log

theorem Inv.init : Inv {} where
  wf _ _ h := by cases h
  lt _ _ h := by cases h
  duty _ := rfl
  own k a _ := ⟨.nobody, rfl, by cases k <;> rfl, fun _ _ h => (by cases h), fun _ _ h => (by cases h),
    fun _ _ h => (by cases h)⟩
  null := ⟨rfl, rfl⟩
  nobody _ := rfl

theorem upd_cases {α : Type} {f : Nat → Option α} {k q : Nat} {v : Option α} {y : α} (h : upd f k v q = some y) :
    (q = k ∧ v = some y) ∨ (q ≠ k ∧ f q = some y) := by
  by_cases hq : q = k
  · subst hq; rw [upd_same] at h; exact .inl ⟨rfl, h⟩
  · rw [upd_ne _ _ hq] at h; exact .inr ⟨hq, h⟩

theorem duties_set {s : State} {p q : Nat} {x : Parcel} (l : List Ev) :
    ((s.set p (some x)).see l).duties q = if q = p then
      { later := these CleanupItem.call x.later, now := these CleanupItem.call x.now } else s.duties q := by
  simp only [State.duties, State.set, State.see, upd]
  by_cases h : q = p <;> simp [h]

theorem duties_some {s : State} {p : Nat} {x : Parcel} (h : s.parcel p = some x) : s.duties p =
    { later := these CleanupItem.call x.later, now := these CleanupItem.call x.now } := by
  simp [State.duties, h]

/-- Nothing that matters has changed. -/
theorem Inv.same {s : State} (h : Inv s) {p : Nat} {x x' : Parcel} (hp : s.parcel p = some x) (hw : x'.Wf)
    (hl : x'.later = x.later) (hn : x'.now = x.now) : Inv (s.set p (some x')) where
  wf q y hq := by
    rcases upd_cases hq with ⟨_, hy⟩ | ⟨_, hy⟩
    · cases hy; exact hw
    · exact h.wf q y hy
  lt q y hq := by
    rcases upd_cases hq with ⟨h1, _⟩ | ⟨_, hy⟩
    · rw [h1]; exact h.lt p x hp
    · exact h.lt q y hy
  duty q := by
    have h1 := h.duty q
    have h2 := duties_set (s := s) (p := p) (q := q) (x := x') []
    have h3 : ((s.set p (some x')).see []) = s.set p (some x') := by simp [State.see, State.set]
    rw [h3] at h2
    rw [h2, hl, hn]
    show Parcels.duties q s.log = _
    rw [h1]
    split
    · rename_i hq; rw [hq, duties_some hp]
    · rfl
  own k a hv := by
    obtain ⟨o, h1, h2⟩ := h.own k a hv
    refine ⟨o, h1, by have := h2.pool; cases k <;> exact this, ?_, ?_, ?_⟩
    · intro q y hq0
      rcases upd_cases hq0 with ⟨hq, hy⟩ | ⟨_, hy⟩
      · cases hy; rw [hl, hq]; exact h2.later p x hp
      · exact h2.later q y hy
    · intro q y hq0
      rcases upd_cases hq0 with ⟨hq, hy⟩ | ⟨_, hy⟩
      · cases hy; rw [hn, hq]; exact h2.now p x hp
      · exact h2.now q y hy
    · intro q b ho
      show upd s.parcel p (some x') q ≠ none
      by_cases hq : q = p
      · subst hq; rw [upd_same]; simp
      · rw [upd_ne _ _ hq]; exact h2.there q b ho
  null := h.null
  nobody := h.nobody

theorem Inv.create {s : State} (h : Inv s) {x : Parcel} (hw : x.Wf) (hl : x.later = []) (hn : x.now = []) :
    Inv (({ s with no := s.no + 1 } : State).set s.no (some x)) where
  wf q y hq := by
    rcases upd_cases hq with ⟨_, hy⟩ | ⟨_, hy⟩
    · cases hy; exact hw
    · exact h.wf q y hy
  lt q y hq := by
    show q < s.no + 1
    rcases upd_cases hq with ⟨h1, _⟩ | ⟨_, hy⟩
    · omega
    · have := h.lt q y hy; omega
  duty q := by
    have h1 := h.duty q
    show Parcels.duties q s.log = _
    rw [h1]
    by_cases hq : q = s.no
    · subst hq
      have hnone : s.parcel s.no = none := by
        cases hs : s.parcel s.no with
        | none => rfl
        | some y => exact absurd (h.lt _ _ hs) (Nat.lt_irrefl _)
      simp [State.duties, State.set, upd_same, hl, hn, hnone, these]
    · simp [State.duties, State.set, upd_ne _ _ hq]
  own k a hv := by
    obtain ⟨o, h1, h2⟩ := h.own k a hv
    have hno : ∀ b, o ≠ .of s.no b := by
      intro b hb
      cases hs : s.parcel s.no with
      | none => exact h2.there _ _ hb hs
      | some y => exact absurd (h.lt _ _ hs) (Nat.lt_irrefl _)
    refine ⟨o, h1, by have := h2.pool; cases k <;> exact this, ?_, ?_, ?_⟩
    · intro q y hq0
      rcases upd_cases hq0 with ⟨hq, hy⟩ | ⟨_, hy⟩
      · cases hy; rw [hl, hq, if_neg (hno false)]; rfl
      · exact h2.later q y hy
    · intro q y hq0
      rcases upd_cases hq0 with ⟨hq, hy⟩ | ⟨_, hy⟩
      · cases hy; rw [hn, hq, if_neg (hno true)]; rfl
      · exact h2.now q y hy
    · intro q b ho
      show upd s.parcel s.no (some x) q ≠ none
      by_cases hq : q = s.no
      · subst hq; rw [upd_same]; simp
      · rw [upd_ne _ _ hq]; exact h2.there q b ho
  null := h.null
  nobody := h.nobody

/-- Everything has to be done now. -/
theorem Inv.ending {s : State} (h : Inv s) {p : Nat} {x x' : Parcel} (hp : s.parcel p = some x) (hw : x'.Wf)
    (hx : x.now = []) (hl : x'.later = []) (hn : x'.now = x.later) :
    Inv ((s.set p (some x')).see [.ending p]) where
  wf q y hq := by
    rcases upd_cases hq with ⟨_, hy⟩ | ⟨_, hy⟩
    · cases hy; exact hw
    · exact h.wf q y hy
  lt q y hq := by
    rcases upd_cases hq with ⟨h1, _⟩ | ⟨_, hy⟩
    · rw [h1]; exact h.lt p x hp
    · exact h.lt q y hy
  duty q := by
    rw [duties_set]
    refine duties_see (h.duty q) ?_
    simp only [nextDuty]
    by_cases hq : q = p
    · subst hq
      rw [if_pos rfl, if_pos rfl, duties_some hp]
      simp [hx, hl, hn, these]
    · rw [if_neg (Ne.symm hq), if_neg hq]
  own k a hv := by
    obtain ⟨o, h1, h2⟩ := h.own k a hv
    have hla := h2.later p x hp
    have hno := h2.now p x hp
    rw [hx] at hno
    have hot : o ≠ .of p true := by
      intro ho; rw [if_pos ho] at hno; cases hno
    by_cases ho : o = .of p false
    · refine ⟨.of p true, owner_see h1 (by simp [nextOwner, ho]), ?_, ?_, ?_, ?_⟩
      · have := h2.pool
        rw [ho, if_neg (by simp)] at this
        rw [if_neg (by simp)]
        cases k <;> exact this
      · intro q y hq0
        rcases upd_cases hq0 with ⟨hq, hy⟩ | ⟨hq, hy⟩
        · cases hy; rw [hl]; simp [these]
        · rw [h2.later q y hy, ho]; simp [Ne.symm hq]
      · intro q y hq0
        rcases upd_cases hq0 with ⟨hq, hy⟩ | ⟨hq, hy⟩
        · cases hy; rw [hn, hla, if_pos ho, hq]; simp
        · rw [h2.now q y hy, ho]; simp [Ne.symm hq]
      · intro q b hb
        cases hb
        show upd s.parcel p (some x') p ≠ none
        rw [upd_same]; simp
    · refine ⟨o, owner_see h1 ?_, by have := h2.pool; cases k <;> exact this, ?_, ?_, ?_⟩
      · cases o with
        | nobody => rfl
        | app => rfl
        | of q b =>
          cases b with
          | true => rfl
          | false =>
            have : q ≠ p := fun hq => ho (by rw [hq])
            simp [nextOwner, this]
      · intro q y hq0
        rcases upd_cases hq0 with ⟨hq, hy⟩ | ⟨_, hy⟩
        · cases hy; rw [hl, hq, if_neg ho]; rfl
        · exact h2.later q y hy
      · intro q y hq0
        rcases upd_cases hq0 with ⟨hq, hy⟩ | ⟨_, hy⟩
        · cases hy; rw [hn, hq, if_neg hot, hla, if_neg ho]
        · exact h2.now q y hy
      · intro q b ho
        show upd s.parcel p (some x') q ≠ none
        by_cases hq : q = p
        · subst hq; rw [upd_same]; simp
        · rw [upd_ne _ _ hq]; exact h2.there q b ho
  null := ⟨owner_see h.null.1 rfl, h.null.2⟩
  nobody c := by
    have := h.nobody c
    simpa [registered, Parcels.done, State.see, State.set] using this

/-- Everything has been done. -/
theorem Inv.done {s : State} (h : Inv s) {p : Nat} {x : Parcel} {x' : Option Parcel} (hp : s.parcel p = some x)
    (hx : x.now = []) (hx' : match x' with
      | none => x.later = []
      | some x' => x'.Wf ∧ x'.later = x.later ∧ x'.now = []) :
    Inv ((s.set p x').see [.done p]) where
  wf q y hq := by
    rcases upd_cases hq with ⟨_, hy⟩ | ⟨_, hy⟩
    · subst hy; exact hx'.1
    · exact h.wf q y hy
  lt q y hq := by
    rcases upd_cases hq with ⟨h1, _⟩ | ⟨_, hy⟩
    · rw [h1]; exact h.lt p x hp
    · exact h.lt q y hy
  duty q := by
    refine duties_see (h.duty q) ?_
    simp only [nextDuty]
    by_cases hq : q = p
    · subst hq
      rw [if_pos rfl, duties_some hp]
      cases x' with
      | none =>
        have hx' : x.later = [] := hx'
        simp [State.duties, State.see, State.set, upd_same, hx, hx', these]
      | some x' =>
        have hx' : x'.Wf ∧ x'.later = x.later ∧ x'.now = [] := hx'
        simp [State.duties, State.see, State.set, upd_same, hx, hx'.2.1, hx'.2.2, these]
    · rw [if_neg (Ne.symm hq)]
      simp [State.duties, State.see, State.set, upd_ne _ _ hq]
  own k a hv := by
    obtain ⟨o, h1, h2⟩ := h.own k a hv
    have hno := h2.now p x hp
    rw [hx] at hno
    have hot : o ≠ .of p true := by
      intro ho; rw [if_pos ho] at hno; cases hno
    refine ⟨o, owner_see h1 ?_, by have := h2.pool; cases k <;> exact this, ?_, ?_, ?_⟩
    · cases o with
      | nobody => rfl
      | app => rfl
      | of q b =>
        cases b with
        | false => rfl
        | true =>
          have : q ≠ p := fun hq => hot (by rw [hq])
          simp [nextOwner, this]
    · intro q y hq0
      rcases upd_cases hq0 with ⟨hq, hy⟩ | ⟨_, hy⟩
      · subst hy; rw [hx'.2.1, hq]; exact h2.later p x hp
      · exact h2.later q y hy
    · intro q y hq0
      rcases upd_cases hq0 with ⟨hq, hy⟩ | ⟨_, hy⟩
      · subst hy; rw [hx'.2.2, hq, if_neg hot]; rfl
      · exact h2.now q y hy
    · intro q b ho
      show upd s.parcel p x' q ≠ none
      by_cases hq : q = p
      · subst hq
        rw [upd_same]
        cases x' with
        | some x' => simp
        | none =>
          exfalso
          have hx' : x.later = [] := hx'
          have h3 := h2.later q x hp
          cases b with
          | true => exact hot ho
          | false => rw [hx', if_pos ho] at h3; cases h3
      · rw [upd_ne _ _ hq]; exact h2.there q b ho
  null := ⟨owner_see h.null.1 rfl, h.null.2⟩
  nobody c := by
    have := h.nobody c
    simpa [registered, Parcels.done, State.see, State.set] using this

/-- What a call has got from the system. -/
def got (l f : List Nat) : Kind → List Nat
  | .mem => l
  | .fd => f

/-- Something has been added. -/
theorem Inv.grow {s : State} (h : Inv s) {p : Nat} {x x' : Parcel} (hp : s.parcel p = some x) (hw : x'.Wf)
    {m : Mem} {l f : List Nat} {items calls : List CleanupItem} (hm : m.map (·.1) = l ++ s.mem.map (·.1))
    (hmn : (m.map (·.1)).Nodup) (hm0 : ∀ a ∈ m.map (·.1), a ≠ 0) (hf : (f ++ s.fds).Nodup)
    (hl : x'.later = x.later ++ items) (hn : x'.now = x.now)
    (hia : ∀ a, a ≠ 0 → l.count a = (these CleanupItem.addr items).count a)
    (hif : these CleanupItem.fd items = f) (hic : these CleanupItem.call items = calls) :
    Inv (({ s with mem := m, fds := f ++ s.fds } : State).set p (some x') |>.see
      (l.map (.get .mem (some p)) ++ f.map (.get .fd (some p)) ++ calls.map (.reg (some p)))) where
  wf q y hq := by
    rcases upd_cases hq with ⟨_, hy⟩ | ⟨_, hy⟩
    · cases hy; exact hw
    · exact h.wf q y hy
  lt q y hq := by
    show q < s.no
    rcases upd_cases hq with ⟨h1, _⟩ | ⟨_, hy⟩
    · rw [h1]; exact h.lt p x hp
    · exact h.lt q y hy
  duty q := by
    rw [duties_set]
    show Parcels.duties q (s.log ++ (_ ++ _)) = _
    rw [← List.append_assoc, ← List.append_assoc, duties_regs _ (duties_gets _ (duties_gets _ (h.duty q)))]
    by_cases hq : q = p
    · subst hq
      rw [if_pos rfl, if_pos rfl, duties_some hp, hl, hn, these_append, hic]
    · rw [if_neg (Ne.symm hq), if_neg hq]; rfl
  own k a hv := by
    obtain ⟨o, h1, h2⟩ := h.own k a hv
    have hpool : ∀ k, (({ s with mem := m, fds := f ++ s.fds } : State).set p (some x') |>.see
      (l.map (.get .mem (some p)) ++ f.map (.get .fd (some p)) ++ calls.map (.reg (some p)))).pool k =
        got l f k ++ s.pool k := by intro k; cases k; exact hm; rfl
    have hnd : (got l f k ++ s.pool k).Nodup := by
      cases k
      · show (l ++ s.mem.map (·.1)).Nodup; rw [← hm]; exact hmn
      · exact hf
    obtain ⟨hn1, hn2, hdis⟩ := List.nodup_append.1 hnd
    have hfree : a ∈ got l f k → o = .nobody := by
      intro ha
      have h3 : (s.pool k).count a = 0 := List.count_eq_zero_of_not_mem fun hb => hdis a ha a hb rfl
      rw [h2.pool] at h3
      by_cases ho : o = .nobody
      · exact ho
      · rw [if_neg ho] at h3; cases h3
    have hitem : (these (item k) items).count a = (got l f k).count a := by
      cases k
      · exact (hia a (hv rfl)).symm
      · show (these CleanupItem.fd items).count a = f.count a; rw [hif]
    have hl1 : l.Nodup := by
      rw [hm] at hmn; exact (List.nodup_append.1 hmn).1
    have hf1 : f.Nodup := (List.nodup_append.1 hf).1
    have hlog : owner k a (s.log ++ (l.map (.get .mem (some p)) ++ f.map (.get .fd (some p)) ++
        calls.map (.reg (some p)))) = some (if a ∈ got l f k then .of p false else o) := by
      rw [← List.append_assoc, ← List.append_assoc]
      refine owner_regs _ ?_
      cases k
      · have g1 := owner_gets (k' := .mem) (p := p) l h1 hl1 fun _ => hfree
        have g2 := owner_gets (k' := .fd) (p := p) f g1 hf1 fun h => (by cases h)
        rw [g2]
        by_cases ha : a ∈ l <;> simp [got, ha]
      · have g1 := owner_gets (k' := .mem) (p := p) l h1 hl1 fun h => (by cases h)
        have g2 := owner_gets (k' := .fd) (p := p) f g1 hf1 fun _ ha => by
          rw [if_neg (by simp)]; exact hfree ha
        rw [g2]
        by_cases ha : a ∈ f <;> simp [got, ha]
    refine ⟨_, hlog, ?_, ?_, ?_, ?_⟩
    · rw [hpool, List.count_append, h2.pool]
      by_cases ha : a ∈ got l f k
      · rw [hfree ha, if_pos ha, if_pos rfl, if_neg (by simp), hn1.count, if_pos ha]
      · rw [if_neg ha, List.count_eq_zero_of_not_mem ha, Nat.zero_add]
    · intro q y hq0
      rcases upd_cases hq0 with ⟨hq, hy⟩ | ⟨hq, hy⟩
      · cases hy
        rw [hl, these_append, List.count_append, h2.later p x hp, hitem, hq]
        by_cases ha : a ∈ got l f k
        · rw [hfree ha, if_pos ha, if_neg (by simp), if_pos rfl, hn1.count, if_pos ha]
        · rw [if_neg ha, List.count_eq_zero_of_not_mem ha]; rfl
      · have h3 := h2.later q y hy
        rw [h3]
        by_cases ha : a ∈ got l f k
        · rw [hfree ha, if_pos ha]
          simp [Ne.symm hq]
        · rw [if_neg ha]
    · intro q y hq0
      have h3 : (these (item k) y.now).count a = if o = .of q true then 1 else 0 := by
        rcases upd_cases hq0 with ⟨hq, hy⟩ | ⟨hq, hy⟩
        · cases hy
          rw [hn, hq]; exact h2.now p x hp
        · exact h2.now q y hy
      rw [h3]
      by_cases ha : a ∈ got l f k
      · rw [hfree ha, if_pos ha]; simp
      · rw [if_neg ha]
    · intro q b ho
      show upd s.parcel p (some x') q ≠ none
      by_cases hq : q = p
      · subst hq; rw [upd_same]; simp
      · rw [upd_ne _ _ hq]
        by_cases ha : a ∈ got l f k
        · rw [if_pos ha] at ho; cases ho; exact absurd rfl hq
        · rw [if_neg ha] at ho; exact h2.there q b ho
  null := by
    have h0 : 0 ∉ m.map (·.1) := fun h0 => hm0 0 h0 rfl
    have hl1 : l.Nodup := by
      rw [hm] at hmn; exact (List.nodup_append.1 hmn).1
    have hf1 : f.Nodup := (List.nodup_append.1 hf).1
    have h0l : 0 ∉ l := fun h => h0 (by rw [hm]; exact List.mem_append_left _ h)
    refine ⟨?_, List.count_eq_zero_of_not_mem h0⟩
    show owner .mem 0 (s.log ++ (_ ++ _)) = _
    rw [← List.append_assoc, ← List.append_assoc]
    refine owner_regs _ ?_
    have g1 := owner_gets (k' := .mem) (p := p) l h.null.1 hl1 fun _ h => absurd h h0l
    have g2 := owner_gets (k' := .fd) (p := p) f g1 hf1 fun h => (by cases h)
    rw [g2]
    simp [h0l]
  nobody c := by
    have h1 : ∀ (k : Kind) (l : List Nat) (e : Ev), (∀ k w a, e ≠ .get k w a) →
        (l.map (Ev.get k (some p))).count e = 0 := by
      intro k l e he
      refine List.count_eq_zero_of_not_mem fun h => ?_
      obtain ⟨a, _, ha⟩ := List.mem_map.1 h
      exact he _ _ _ ha.symm
    have h2 : ∀ (l : List CleanupItem) (e : Ev), (∀ c, e ≠ .reg (some p) c) →
        (l.map (Ev.reg (some p))).count e = 0 := by
      intro l e he
      refine List.count_eq_zero_of_not_mem fun h => ?_
      obtain ⟨a, _, ha⟩ := List.mem_map.1 h
      exact he _ ha.symm
    have := h.nobody c
    simp only [registered, Parcels.done, State.see, State.set, List.count_append] at this ⊢
    rw [h1 _ _ _ (by simp), h1 _ _ _ (by simp), h2 _ _ (by simp), h1 _ _ _ (by simp), h1 _ _ _ (by simp),
      h2 _ _ (by simp), this]

/-- A parcel releases something. -/
theorem Inv.release {s s' : State} (h : Inv s) {p : Nat} {x x' : Parcel} (hp : s.parcel p = some x) (hw : x'.Wf)
    {k : Kind} {a : Nat} (hv : valid k a) (hl : x'.later = x.later)
    (hk : these (item k) x.now = a :: these (item k) x'.now)
    (hk' : ∀ k', k' ≠ k → these (item k') x.now = these (item k') x'.now)
    (hc : these CleanupItem.call x.now = these CleanupItem.call x'.now)
    (hpar : s'.parcel = upd s.parcel p (some x')) (hno : s'.no = s.no)
    (hpool : s'.pool k = (s.pool k).erase a) (hpool' : ∀ k', k' ≠ k → s'.pool k' = s.pool k')
    (hlog : s'.log = s.log ++ [.put k (some p) a]) : Inv s' where
  wf q y hq := by
    rw [hpar] at hq
    rcases upd_cases hq with ⟨_, hy⟩ | ⟨_, hy⟩
    · cases hy; exact hw
    · exact h.wf q y hy
  lt q y hq := by
    rw [hpar] at hq
    rw [hno]
    rcases upd_cases hq with ⟨h1, _⟩ | ⟨_, hy⟩
    · rw [h1]; exact h.lt p x hp
    · exact h.lt q y hy
  duty q := by
    rw [hlog]
    refine duties_see (h.duty q) ?_
    show some _ = some _
    congr 1
    by_cases hq : q = p
    · subst hq
      simp only [State.duties, hpar, upd_same, hp]
      rw [hl, hc]
    · simp [State.duties, hpar, upd_ne _ _ hq]
  own k1 a1 hv1 := by
    obtain ⟨o, h1, h2⟩ := h.own k1 a1 hv1
    rw [hlog]
    by_cases hka : k = k1 ∧ a = a1
    · obtain ⟨rfl, rfl⟩ := hka
      have ho : o = .of p true := by
        have := h2.now p x hp
        by_cases ho : o = .of p true
        · exact ho
        · rw [if_neg ho, hk, List.count_cons_self] at this; cases this
      subst ho
      refine ⟨.nobody, owner_see h1 (by simp [nextOwner]), ?_, ?_, ?_, fun _ _ h => (by cases h)⟩
      · rw [hpool, List.count_erase_self, h2.pool]; rfl
      · intro q y hq0
        rw [if_neg (by simp)]
        rw [hpar] at hq0
        rcases upd_cases hq0 with ⟨hq, hy⟩ | ⟨hq, hy⟩
        · cases hy; rw [hl, h2.later p x hp]; simp
        · rw [h2.later q y hy]; simp
      · intro q y hq0
        rw [if_neg (by simp)]
        rw [hpar] at hq0
        rcases upd_cases hq0 with ⟨hq, hy⟩ | ⟨hq, hy⟩
        · cases hy
          have := h2.now p x hp
          rw [hk, List.count_cons_self, if_pos rfl] at this
          omega
        · rw [h2.now q y hy]; simp [Ne.symm hq]
    · have hcnt : (these (item k1) x'.now).count a1 = (these (item k1) x.now).count a1 := by
        by_cases hkk : k1 = k
        · subst hkk
          rw [hk, List.count_cons_of_ne]
          exact fun h => hka ⟨rfl, h⟩
        · rw [hk' k1 hkk]
      refine ⟨o, owner_see h1 (by simp [nextOwner, hka]), ?_, ?_, ?_, ?_⟩
      · rw [← h2.pool]
        by_cases hkk : k1 = k
        · subst hkk
          rw [hpool, List.count_erase_of_ne]
          exact fun h => hka ⟨rfl, h.symm⟩
        · rw [hpool' k1 hkk]
      · intro q y hq0
        rw [hpar] at hq0
        rcases upd_cases hq0 with ⟨hq, hy⟩ | ⟨hq, hy⟩
        · cases hy; rw [hl, hq]; exact h2.later p x hp
        · exact h2.later q y hy
      · intro q y hq0
        rw [hpar] at hq0
        rcases upd_cases hq0 with ⟨hq, hy⟩ | ⟨hq, hy⟩
        · cases hy; rw [hcnt, hq]; exact h2.now p x hp
        · exact h2.now q y hy
      · intro q b ho
        rw [hpar]
        by_cases hq : q = p
        · subst hq; rw [upd_same]; simp
        · rw [upd_ne _ _ hq]; exact h2.there q b ho
  null := by
    have hka : ¬(k = .mem ∧ a = 0) := fun h => hv h.1 h.2
    refine ⟨by rw [hlog]; exact owner_see h.null.1 (by simp [nextOwner, hka]), ?_⟩
    by_cases hkk : Kind.mem = k
    · subst hkk
      rw [hpool, List.count_erase_of_ne (fun h => hka ⟨rfl, h.symm⟩)]
      exact h.null.2
    · rw [hpool' .mem hkk]; exact h.null.2
  nobody c := by
    have := h.nobody c
    rw [hlog]
    simpa [registered, Parcels.done] using this

/-- Something is done for the parcel. -/
theorem Inv.ran {s : State} (h : Inv s) {p : Nat} {x x' : Parcel} {c : CleanupItem} (hp : s.parcel p = some x)
    (hw : x'.Wf) (hl : x'.later = x.later) (hn : x.now = c :: x'.now) (hc : c.call = some c) (hk : ∀ k, item k c = none) :
    Inv ((s.set p (some x')).see [.ran (some p) c]) where
  wf q y hq := by
    rcases upd_cases hq with ⟨_, hy⟩ | ⟨_, hy⟩
    · cases hy; exact hw
    · exact h.wf q y hy
  lt q y hq := by
    rcases upd_cases hq with ⟨h1, _⟩ | ⟨_, hy⟩
    · rw [h1]; exact h.lt p x hp
    · exact h.lt q y hy
  duty q := by
    rw [duties_set]
    refine duties_see (h.duty q) ?_
    simp only [nextDuty]
    by_cases hq : q = p
    · subst hq
      rw [if_pos rfl, if_pos rfl, duties_some hp]
      simp [hn, hl, these, hc]
    · rw [if_neg (by simpa using Ne.symm hq), if_neg hq]
  own k a hv := by
    obtain ⟨o, h1, h2⟩ := h.own k a hv
    have hcnt : these (item k) x.now = these (item k) x'.now := by
      rw [hn]; simp [these, hk k]
    refine ⟨o, owner_see h1 rfl, by have := h2.pool; cases k <;> exact this, ?_, ?_, ?_⟩
    · intro q y hq0
      rcases upd_cases hq0 with ⟨hq, hy⟩ | ⟨_, hy⟩
      · cases hy; rw [hl, hq]; exact h2.later p x hp
      · exact h2.later q y hy
    · intro q y hq0
      rcases upd_cases hq0 with ⟨hq, hy⟩ | ⟨_, hy⟩
      · cases hy; rw [← hcnt, hq]; exact h2.now p x hp
      · exact h2.now q y hy
    · intro q b ho
      show upd s.parcel p (some x') q ≠ none
      by_cases hq : q = p
      · subst hq; rw [upd_same]; simp
      · rw [upd_ne _ _ hq]; exact h2.there q b ho
  null := ⟨owner_see h.null.1 rfl, h.null.2⟩
  nobody c := by
    have := h.nobody c
    simpa [registered, Parcels.done, State.see, State.set] using this

theorem map_eraseP (m : Mem) (a : Nat) : (m.eraseP (·.1 == a)).map (·.1) = (m.map (·.1)).erase a := by
  induction m with
  | nil => rfl
  | cons b m ih =>
    simp only [List.map_cons, List.erase_cons, List.eraseP_cons]
    by_cases h : b.1 == a
    · simp [h]
    · simp [h, ih]

/-- The next item. -/
theorem Inv.destroy {s : State} (h : Inv s) {p : Nat} {x x' : Parcel} {c : CleanupItem} (hp : s.parcel p = some x)
    (hw : x'.Wf) (hl : x'.later = x.later) (hn : x.now = c :: x'.now) :
    ∃ s', (s.set p (some x')).destroy p c = .ok s' ∧ Inv s' := by
  have key : ∀ k a, valid k a → item k c = some a → a ∈ s.pool k := by
    intro k a hv hi
    obtain ⟨o, _, h2⟩ := h.own k a hv
    have h3 := h2.now p x hp
    have h4 : these (item k) x.now = a :: these (item k) x'.now := by rw [hn]; simp [these, hi]
    have ho : o = .of p true := by
      by_cases ho : o = .of p true
      · exact ho
      · rw [if_neg ho, h4, List.count_cons_self] at h3; cases h3
    have := h2.pool
    rw [ho, if_neg (by simp)] at this
    exact List.count_pos_iff.1 (by omega)
  cases c with
  | free a =>
    by_cases ha : a = 0
    · subst ha
      refine ⟨s.set p (some x'), by simp [State.destroy, State.free], ?_⟩
      refine
        { wf := ?_, lt := ?_, duty := ?_, own := ?_, null := h.null, nobody := h.nobody }
      · intro q y hq
        rcases upd_cases hq with ⟨_, hy⟩ | ⟨_, hy⟩
        · cases hy; exact hw
        · exact h.wf q y hy
      · intro q y hq
        rcases upd_cases hq with ⟨h1, _⟩ | ⟨_, hy⟩
        · rw [h1]; exact h.lt p x hp
        · exact h.lt q y hy
      · intro q
        have h1 := h.duty q
        show Parcels.duties q s.log = _
        rw [h1]
        congr 1
        by_cases hq : q = p
        · subst hq
          simp only [State.duties, State.set, upd_same, hp, hl, hn]
          rfl
        · simp [State.duties, State.set, upd_ne _ _ hq]
      · intro k a hv
        obtain ⟨o, h1, h2⟩ := h.own k a hv
        have hcnt : (these (item k) x.now).count a = (these (item k) x'.now).count a := by
          rw [hn]
          cases k
          · have : these (item .mem) (CleanupItem.free 0 :: x'.now) = 0 :: these (item .mem) x'.now := rfl
            rw [this, List.count_cons_of_ne (fun h => hv rfl h.symm)]
          · rfl
        refine ⟨o, h1, by have := h2.pool; cases k <;> exact this, ?_, ?_, ?_⟩
        · intro q y hq0
          rcases upd_cases hq0 with ⟨hq, hy⟩ | ⟨_, hy⟩
          · cases hy; rw [hl, hq]; exact h2.later p x hp
          · exact h2.later q y hy
        · intro q y hq0
          rcases upd_cases hq0 with ⟨hq, hy⟩ | ⟨_, hy⟩
          · cases hy; rw [← hcnt, hq]; exact h2.now p x hp
          · exact h2.now q y hy
        · intro q b ho
          show upd s.parcel p (some x') q ≠ none
          by_cases hq : q = p
          · subst hq; rw [upd_same]; simp
          · rw [upd_ne _ _ hq]; exact h2.there q b ho
    · have hm : a ∈ s.mem.map (·.1) := key .mem a (fun _ => ha) rfl
      refine ⟨_, by
        show (if a = 0 then _ else if a ∈ s.mem.map (·.1) then _ else _) = _
        rw [if_neg ha, if_pos hm], ?_⟩
      exact h.release hp hw (k := .mem) (a := a) (fun _ => ha) hl (by rw [hn]; rfl)
        (by intro k' hk'; cases k' with
            | mem => exact absurd rfl hk'
            | fd => rw [hn]; rfl)
        (by rw [hn]; rfl) rfl rfl (map_eraseP _ _)
        (by intro k' hk'; cases k' with
            | mem => exact absurd rfl hk'
            | fd => rfl) rfl
  | closeFd d =>
    have hm : d ∈ s.fds := key .fd d (fun h => by cases h) rfl
    refine ⟨_, by
      show (if d ∈ s.fds then _ else _) = _
      rw [if_pos hm], ?_⟩
    exact h.release hp hw (k := .fd) (a := d) (fun h => by cases h) hl (by rw [hn]; rfl)
      (by intro k' hk'; cases k' with
          | fd => exact absurd rfl hk'
          | mem => rw [hn]; rfl)
      (by rw [hn]; rfl) rfl rfl rfl
      (by intro k' hk'; cases k' with
          | fd => exact absurd rfl hk'
          | mem => rfl) rfl
  | unrefBuffer n => exact ⟨_, rfl, h.ran hp hw hl hn rfl fun k => by cases k <;> rfl⟩
  | unrefLocal n => exact ⟨_, rfl, h.ran hp hw hl hn rfl fun k => by cases k <;> rfl⟩
  | user f y => exact ⟨_, rfl, h.ran hp hw hl hn rfl fun k => by cases k <;> rfl⟩

/-- Steps of the application. -/
theorem Inv.app {s s' : State} (h : Inv s) {k : Kind} {a : Nat} (hv : valid k a) {e : Ev} (hpar : s'.parcel = s.parcel)
    (hno : s'.no = s.no) (hlog : s'.log = s.log ++ [e]) (hpool' : ∀ k', k' ≠ k → s'.pool k' = s.pool k')
    (hcase : (e = .get k none a ∧ a ∉ s.pool k ∧ s'.pool k = a :: s.pool k) ∨
      (e = .put k none a ∧ owner k a s.log = some .app ∧ s'.pool k = (s.pool k).erase a)) : Inv s' where
  wf q y hq := h.wf q y (by rw [← hpar]; exact hq)
  lt q y hq := by rw [hno]; exact h.lt q y (by rw [← hpar]; exact hq)
  duty q := by
    have : s'.duties q = s.duties q := by simp [State.duties, hpar]
    rw [hlog, this]
    rcases hcase with ⟨rfl, _⟩ | ⟨rfl, _⟩ <;> exact duties_see (h.duty q) rfl
  own k1 a1 hv1 := by
    obtain ⟨o, h1, h2⟩ := h.own k1 a1 hv1
    rw [hlog]
    by_cases hka : k = k1 ∧ a = a1
    · obtain ⟨rfl, rfl⟩ := hka
      rcases hcase with ⟨rfl, h3, h4⟩ | ⟨rfl, h3, h4⟩
      · have ho : o = .nobody := by
          have := h2.pool
          rw [List.count_eq_zero_of_not_mem h3] at this
          by_cases ho : o = .nobody
          · exact ho
          · rw [if_neg ho] at this; cases this
        subst ho
        refine ⟨.app, owner_see h1 (by simp [nextOwner]), ?_, ?_, ?_, fun _ _ h => (by cases h)⟩
        · rw [h4, List.count_cons_self, List.count_eq_zero_of_not_mem h3]; rfl
        · intro q y hq; rw [hpar] at hq; rw [h2.later q y hq]; simp
        · intro q y hq; rw [hpar] at hq; rw [h2.now q y hq]; simp
      · rw [h1] at h3
        cases h3
        refine ⟨.nobody, owner_see h1 (by simp [nextOwner]), ?_, ?_, ?_, fun _ _ h => (by cases h)⟩
        · rw [h4, List.count_erase_self, h2.pool]; rfl
        · intro q y hq; rw [hpar] at hq; rw [h2.later q y hq]; simp
        · intro q y hq; rw [hpar] at hq; rw [h2.now q y hq]; simp
    · refine ⟨o, ?_, ?_, ?_, ?_, ?_⟩
      · rcases hcase with ⟨rfl, _⟩ | ⟨rfl, _⟩ <;> exact owner_see h1 (by simp [nextOwner, hka])
      · rw [← h2.pool]
        by_cases hkk : k1 = k
        · subst hkk
          have : a1 ≠ a := fun h => hka ⟨rfl, h.symm⟩
          rcases hcase with ⟨_, _, h4⟩ | ⟨_, _, h4⟩
          · rw [h4, List.count_cons_of_ne (Ne.symm this)]
          · rw [h4, List.count_erase_of_ne this]
        · rw [hpool' k1 hkk]
      · rw [hpar]; exact h2.later
      · rw [hpar]; exact h2.now
      · rw [hpar]; exact h2.there
  null := by
    have hka : ¬(k = .mem ∧ a = 0) := fun h => hv h.1 h.2
    refine ⟨?_, ?_⟩
    · rw [hlog]
      rcases hcase with ⟨rfl, _⟩ | ⟨rfl, _⟩ <;> exact owner_see h.null.1 (by simp [nextOwner, hka])
    · by_cases hkk : Kind.mem = k
      · subst hkk
        have : (0 : Nat) ≠ a := fun h => hka ⟨rfl, h.symm⟩
        rcases hcase with ⟨_, _, h4⟩ | ⟨_, _, h4⟩
        · rw [h4, List.count_cons_of_ne (Ne.symm this)]; exact h.null.2
        · rw [h4, List.count_erase_of_ne this]; exact h.null.2
      · rw [hpool' .mem hkk]; exact h.null.2
  nobody c := by
    have := h.nobody c
    rw [hlog]
    rcases hcase with ⟨rfl, _⟩ | ⟨rfl, _⟩ <;> simpa [registered, Parcels.done] using this

/-- Callbacks without a parcel. -/
theorem Inv.other {s : State} (h : Inv s) (c : CleanupItem) : Inv (s.see [.reg none c, .ran none c]) := by
  have hl : (s.see [.reg none c, .ran none c]).log = (s.log ++ [.reg none c]) ++ [.ran none c] := by
    simp [State.see]
  refine
    { wf := h.wf
      lt := h.lt
      duty := fun q => ?_
      own := fun k a hv => ?_
      null := ⟨?_, h.null.2⟩
      nobody := fun c' => ?_ }
  · rw [hl]
    have h1 : Parcels.duties q (s.log ++ [.reg none c]) = some (s.duties q) :=
      duties_see (h.duty q) (by simp [nextDuty])
    exact duties_see h1 (by simp [nextDuty]; rfl)
  · obtain ⟨o, h1, h2⟩ := h.own k a hv
    refine ⟨o, ?_, by have := h2.pool; cases k <;> exact this, h2.later, h2.now, h2.there⟩
    rw [hl]
    exact owner_see (owner_see h1 rfl) rfl
  · rw [hl]
    exact owner_see (owner_see h.null.1 rfl) rfl
  · have := h.nobody c'
    rw [hl]
    simp only [registered, Parcels.done, List.count_append] at this ⊢
    rw [this]
    by_cases hc : c = c'
    · subst hc; simp
    · simp [List.count_cons, hc]

/-- Appending to the list of items. -/
theorem grow_lists {x : Parcel} (hw : x.Wf) (hr : 0 < x.refs) {w : Writer} {items : List CleanupItem}
    (hc : w.cleanup = x.w.cleanup ++ items) :
    ({ x with w := w } : Parcel).Wf ∧ ({ x with w := w } : Parcel).later = x.later ++ items ∧
      ({ x with w := w } : Parcel).now = x.now := by
  obtain ⟨refs, w0, ph⟩ := x
  cases ph with
  | idle => exact ⟨hw, hc, rfl⟩
  | resetting i n =>
    obtain ⟨h1, h2, h3⟩ : 0 < refs ∧ i ≤ n ∧ n ≤ w0.cleanup.length := hw
    simp only [] at hc
    refine ⟨⟨h1, h2, ?_⟩, ?_, ?_⟩
    · show n ≤ w.cleanup.length; rw [hc, List.length_append]; omega
    · show w.cleanup.drop n = w0.cleanup.drop n ++ items; rw [hc, List.drop_append_of_le_length h3]
    · show (w.cleanup.take n).drop i = (w0.cleanup.take n).drop i; rw [hc, List.take_append_of_le_length h3]
  | freeing i =>
    have : refs = 0 := hw
    simp only [] at hr
    omega

theorem Inv.nodup {s : State} (h : Inv s) : (s.pool .mem).Nodup ∧ (∀ a ∈ s.pool .mem, a ≠ 0) ∧ (s.pool .fd).Nodup := by
  have h0 : ∀ a ∈ s.pool .mem, a ≠ 0 := by
    intro a ha h0
    subst h0
    have := List.count_pos_iff.2 ha
    have := h.null.2
    omega
  have key : ∀ k a, valid k a → (s.pool k).count a ≤ 1 := by
    intro k a hv
    obtain ⟨o, _, h2⟩ := h.own k a hv
    rw [h2.pool]
    split <;> omega
  refine ⟨List.nodup_iff_count.2 fun a => ?_, h0, List.nodup_iff_count.2 fun a => key .fd a fun h => (by cases h)⟩
  by_cases ha : a = 0
  · subst ha; rw [h.null.2]; omega
  · exact key .mem a fun _ => ha

theorem newBlocks_append (new m : Mem) : newBlocks (new ++ m) m.length = new.map (·.1) := by
  simp [newBlocks]

theorem step_op {e : Env} {s : State} {p : Nat} {o : WOp} {x : Parcel} (hp : s.parcel p = some x) (hr : 0 < x.refs)
    (hm : ∀ m, o ≠ .memory m) (hd : ∀ d ∈ o.dup, d ∉ s.fds) {w : Writer}
    (hw : o.run e { x.w with mem := s.mem } = .ok w) :
    step e s (.op p o) = .ok (({ s with mem := w.mem, fds := o.dup ++ s.fds } : State).set p
      (some { x with w := { w with mem := [] } }) |>.see
      ((newBlocks w.mem s.mem.length).map (.get .mem (some p)) ++
        o.dup.map (.get .fd (some p)) ++ o.callback.map (.reg (some p)))) := by
  have hany : o.dup.any (fun d => d ∈ s.fds) = false := by
    rw [List.any_eq_false]; intro d hd'; simpa using hd d hd'
  simp only [step, hp]
  rw [if_neg (by omega)]
  cases o <;> first | exact absurd rfl (hm _) | (simp only [hany, hw]; rfl)

theorem dup_nodup (o : WOp) : o.dup.Nodup := by
  unfold WOp.dup
  split <;> simp

/-- Every step of those who follow the rules. -/
theorem step_inv {e : Env} (ha : Allocates e) {s : State} (h : Inv s) (l : Label) (hok : Ok e s l) :
    step e s l = .no ∨ ∃ s', step e s l = .ok s' ∧ Inv s' := by
  cases l with
  | new io proto => exact .inr ⟨_, rfl, h.create (by show 0 < 1; omega) rfl rfl⟩
  | ref p =>
    obtain ⟨x, hp, hr⟩ := hok
    have hw := h.wf p x hp
    refine .inr ⟨_, by simp only [step, hp]; rw [if_neg (by omega)], ?_⟩
    refine h.same hp ?_ rfl rfl
    obtain ⟨refs, w, ph⟩ := x
    cases ph with
    | idle => show 0 < refs + 1; omega
    | resetting i n => exact ⟨by show 0 < refs + 1; omega, hw.2⟩
    | freeing i => have : refs = 0 := hw; simp only [] at hr; omega
  | unref p =>
    obtain ⟨x, hp, hr, hi⟩ := hok
    have hw := h.wf p x hp
    obtain ⟨refs, w, ph⟩ := x
    match refs, hr with
    | 1, _ =>
      have hph : ph = .idle := by
        by_cases hph : ph = .idle
        · exact hph
        · exact absurd (hi hph) (by simp)
      subst hph
      refine .inr ⟨_, by simp only [step, hp]; rfl, ?_⟩
      exact h.ending hp rfl rfl rfl rfl
    | n + 2, _ =>
      refine .inr ⟨_, by simp only [step, hp]; rfl, ?_⟩
      refine h.same hp ?_ rfl rfl
      cases ph with
      | idle => show 0 < n + 1; omega
      | resetting i k => exact ⟨by show 0 < n + 1; omega, hw.2⟩
      | freeing i => have : n + 2 = 0 := hw; omega
  | op p o =>
    obtain ⟨x, hp, hr, w, hrun⟩ := hok
    by_cases hm : ∃ m, o = .memory m
    · obtain ⟨m, rfl⟩ := hm
      left
      simp only [step, hp]
      rw [if_neg (by omega)]
    · by_cases hd : ∀ d ∈ o.dup, d ∉ s.fds
      · right
        have hm : ∀ m, o ≠ .memory m := fun m hc => hm ⟨m, hc⟩
        refine ⟨_, step_op hp hr hm hd hrun, ?_⟩
        obtain ⟨new, items, hmem, hcl, hia, hif, hic, hnd⟩ := run_owns (fun m n => (ha m n).1) hrun hm
        obtain ⟨h1, h2, h3⟩ := h.nodup
        obtain ⟨h4, h5⟩ := hnd ha s.mem h1 h2 rfl
        simp only [] at hmem hcl
        obtain ⟨g1, g2, g3⟩ := grow_lists (h.wf p x hp) hr (w := { w with mem := [] }) hcl
        have hnb : newBlocks w.mem s.mem.length = new.map (·.1) := by rw [hmem, newBlocks_append]
        rw [hnb]
        refine h.grow hp g1 (by rw [hmem, List.map_append]) h4 h5 ?_ g2 g3 hia hif hic
        refine List.nodup_append.2 ⟨dup_nodup o, h3, ?_⟩
        intro a h1 b h2 hab
        exact hd a h1 (hab ▸ h2)
      · left
        have hany : o.dup.any (fun d => d ∈ s.fds) = true := by
          rw [List.any_eq_true]
          obtain ⟨d, hd⟩ := Classical.not_forall.1 hd
          obtain ⟨h1, h2⟩ := Classical.not_imp.1 hd
          exact ⟨d, h1, by simpa using h2⟩
        simp only [step, hp]
        rw [if_neg (by omega)]
        cases o <;> first | rfl | (simp only [hany]; rfl)
  | contents p src off convert =>
    obtain ⟨x, hp, hr, w, hrun⟩ := hok
    right
    obtain ⟨h1, h2⟩ := appendContents_owns hrun
    obtain ⟨r1, r2, r3⟩ := refs_calls src convert
    refine ⟨_, by simp only [step, hp, hrun]; rw [if_neg (by omega)], ?_⟩
    obtain ⟨g1, g2, g3⟩ := grow_lists (h.wf p x hp) hr h2
    obtain ⟨n1, n2, n3⟩ := h.nodup
    have := h.grow hp g1 (m := s.mem) (l := []) (f := []) rfl n1 n2 n3 g2 g3 (fun a _ => by rw [r1]) r2 r3
    exact this
  | reset p =>
    obtain ⟨x, hp, hr, hi⟩ := hok
    obtain ⟨refs, w, ph⟩ := x
    simp only [] at hi
    subst hi
    match refs, hr with
    | n + 1, _ =>
      refine .inr ⟨_, by simp only [step, hp]; rfl, ?_⟩
      refine h.ending hp ⟨by show 0 < n + 1; omega, Nat.zero_le _, Nat.le_refl _⟩ rfl ?_ ?_
      · show w.cleanup.drop w.cleanup.length = []; simp
      · show (w.cleanup.take w.cleanup.length).drop 0 = w.cleanup; simp
  | run p =>
    simp only [step]
    cases hp : s.parcel p with
    | none => exact .inl rfl
    | some x =>
      have hw := h.wf p x hp
      obtain ⟨refs, w, ph⟩ := x
      cases ph with
      | idle => exact .inl rfl
      | resetting i n =>
        obtain ⟨h1, h2, h3⟩ : 0 < refs ∧ i ≤ n ∧ n ≤ w.cleanup.length := hw
        right
        simp only []
        by_cases hin : i < n
        · have hg : w.cleanup[i]? = some (w.cleanup[i]'(by omega)) := List.getElem?_eq_getElem (by omega)
          rw [if_pos hin, hg]
          refine h.destroy hp ⟨h1, hin, h3⟩ rfl ?_
          show (w.cleanup.take n).drop i = _ :: (w.cleanup.take n).drop (i + 1)
          rw [List.drop_eq_getElem_cons (by rw [List.length_take]; omega)]
          simp
        · rw [if_neg hin]
          refine ⟨_, rfl, h.done hp ?_ ⟨h1, rfl, rfl⟩⟩
          show (w.cleanup.take n).drop i = []
          rw [List.drop_eq_nil_iff, List.length_take]
          omega
      | freeing i =>
        right
        simp only []
        cases hg : w.cleanup[i]? with
        | some c =>
          obtain ⟨hlt, hc⟩ := List.getElem?_eq_some_iff.1 hg
          refine h.destroy hp hw rfl ?_
          show w.cleanup.drop i = _ :: w.cleanup.drop (i + 1)
          rw [List.drop_eq_getElem_cons hlt, hc]
        | none =>
          refine ⟨_, rfl, h.done hp (x' := none) ?_ rfl⟩
          show w.cleanup.drop i = []
          rw [List.drop_eq_nil_iff]
          exact List.getElem?_eq_none_iff.1 hg
  | requestNull f x =>
    right
    simp only [step]
    split
    · exact ⟨_, rfl, h⟩
    · exact ⟨_, rfl, h.other _⟩
  | writerNull f x => exact hok.elim
  | alloc d =>
    obtain ⟨h1, h2⟩ := ha s.mem d.length
    exact .inr ⟨_, rfl, h.app (k := .mem) (a := e.alloc s.mem d.length) (fun _ => h1) rfl rfl rfl
      (by intro k' hk'; cases k' with
          | mem => exact absurd rfl hk'
          | fd => rfl) (.inl ⟨rfl, h2, rfl⟩)⟩
  | free a =>
    right
    simp only [step, State.free]
    by_cases ha0 : a = 0
    · rw [if_pos ha0]; exact ⟨_, rfl, h⟩
    · rcases hok with hok | hok
      · exact absurd hok ha0
      · obtain ⟨o, h1, h2⟩ := h.own .mem a fun _ => ha0
        rw [hok] at h1
        cases h1
        have hm : a ∈ s.mem.map (·.1) := by
          have := h2.pool
          rw [if_neg (by simp)] at this
          exact List.count_pos_iff.1 (by rw [show s.mem.map (·.1) = s.pool .mem from rfl]; omega)
        rw [if_neg ha0, if_pos hm]
        exact ⟨_, rfl, h.app (k := .mem) (a := a) (fun _ => ha0) rfl rfl rfl
          (by intro k' hk'; cases k' with
              | mem => exact absurd rfl hk'
              | fd => rfl) (.inr ⟨rfl, hok, map_eraseP _ _⟩)⟩
  | opens d =>
    simp only [step]
    by_cases hd : d ∈ s.fds
    · rw [if_pos hd]; exact .inl rfl
    · rw [if_neg hd]
      exact .inr ⟨_, rfl, h.app (k := .fd) (a := d) (fun h => by cases h) rfl rfl rfl
        (by intro k' hk'; cases k' with
            | fd => exact absurd rfl hk'
            | mem => rfl) (.inl ⟨rfl, hd, rfl⟩)⟩
  | close d =>
    right
    simp only [step, State.close]
    have hok : owner .fd d s.log = some .app := hok
    obtain ⟨o, h1, h2⟩ := h.own .fd d fun h => (by cases h)
    rw [hok] at h1
    cases h1
    have hm : d ∈ s.fds := by
      have := h2.pool
      rw [if_neg (by simp)] at this
      exact List.count_pos_iff.1 (by rw [show s.fds = s.pool .fd from rfl]; omega)
    rw [if_pos hm]
    exact ⟨_, rfl, h.app (k := .fd) (a := d) (fun h => by cases h) rfl rfl rfl
      (by intro k' hk'; cases k' with
          | fd => exact absurd rfl hk'
          | mem => rfl) (.inr ⟨rfl, hok, rfl⟩)⟩

theorem reach_inv {e : Env} (ha : Allocates e) {s : State} (h : ReachIf (step e) (Ok e) {} s) : Inv s := by
  induction h with
  | init => exact .init
  | @step s0 s1 l _ hok hs ih =>
    rcases step_inv ha ih l hok with h1 | ⟨s', h1, h2⟩
    · rw [hs] at h1; cases h1
    · rw [hs] at h1; cases h1; exact h2

end Gb.Parcels
