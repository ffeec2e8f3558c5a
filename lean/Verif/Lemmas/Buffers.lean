import Verif.Spec.Buffers
/-
Each reference count is the number of references.
-/
set_option autoImplicit false

namespace Gb.Buffers

theorem track_append (a : Nat) (l : List Ev) (e : Ev) :
    track a (l ++ [e]) = (track a l).bind fun st => next a st e := by
  simp [track, List.foldl_append]

/-- Sum over the objects. -/
def total (f : Nat → Nat) : Nat → Nat
  | 0 => 0
  | n + 1 => total f n + f n

theorem total_congr {f g : Nat → Nat} {n : Nat} (h : ∀ i, i < n → f i = g i) : total f n = total g n := by
  induction n with
  | zero => rfl
  | succ n ih => simp only [total]; rw [ih fun i hi => h i (by omega), h n (by omega)]

theorem total_upd {f : Nat → Nat} {n i : Nat} (v : Nat) (h : i < n) :
    total (upd f i v) n + f i = total f n + v := by
  induction n with
  | zero => omega
  | succ n ih =>
    simp only [total]
    by_cases hi : i = n
    · subst hi
      rw [upd_same, total_congr (f := upd f i v) (g := f) (fun j hj => upd_ne _ _ (by omega))]
      omega
    · rw [upd_ne _ _ (Ne.symm hi)]
      have := ih (by omega)
      omega

theorem le_total {f : Nat → Nat} {n i : Nat} (h : i < n) : f i ≤ total f n := by
  have := total_upd (f := f) 0 h
  omega

theorem total_pos {f : Nat → Nat} {n : Nat} (h : 0 < total f n) : ∃ i, i < n ∧ 0 < f i := by
  induction n with
  | zero => simp [total] at h
  | succ n ih =>
    simp only [total] at h
    by_cases hn : 0 < f n
    · exact ⟨n, by omega, hn⟩
    · obtain ⟨i, hi, hp⟩ := ih (by omega)
      exact ⟨i, by omega, hp⟩

/-- References to `c` in an object. -/
def cnt (o : Option Obj) (c : Nat) : Nat := match o with | none => 0 | some o => o.cons.count c

/-- Pointers to the GBinderBuffer `b` in an object. -/
def own (o : Option Obj) (b : Nat) : Nat := match o with | none => 0 | some o => o.bufs.count b

/-- Is it a GBinderBuffer? -/
def buf (o : Option Obj) : Nat := match o with | some (.buffer _) => 1 | _ => 0

/-- Reference count of the object is not zero. Buffers have contents. -/
def fine (o : Option Obj) : Prop :=
  match o with
  | some (.remote n _) => 0 < n
  | some (.parcel n _ _) => 0 < n
  | some (.buffer c) => c.isSome
  | _ => True

def rc (k : Option Con) : Nat := match k with | none => 0 | some k => k.refs

/-- The address is free, or contents of one buffer are there. -/
def At (s : State) (a : Nat) : Prop :=
  (track a s.log = some none ∧ s.kern a = false ∧ ∀ c k, s.con c = some k → k.addr ≠ a) ∨
  (∃ c k, s.con c = some k ∧ k.addr = a ∧ track a s.log = some (some ⟨c, k.objs, false⟩) ∧
    s.kern a = true ∧ ∀ c' k', s.con c' = some k' → k'.addr = a → c' = c)

/-- `x` are references, and `y` are buffers held by the code being executed. -/
structure Inv (x y : List Nat) (s : State) : Prop where
  refs : ∀ c, rc (s.con c) = total (fun i => cnt (s.obj i) c) s.no + x.count c
  pos : ∀ c k, s.con c = some k → 0 < k.refs ∧ c < s.nc
  own : ∀ b, buf (s.obj b) = total (fun i => own (s.obj i) b) s.no + s.app.count b + y.count b
  lt : ∀ i o, s.obj i = some o → i < s.no
  fine : ∀ i, fine (s.obj i)
  addr : ∀ a, At s a

theorem Inv.init : Inv [] [] {} where
  refs _ := rfl
  pos _ _ h := by cases h
  own _ := rfl
  lt _ _ h := by cases h
  fine _ := trivial
  addr _ := .inl ⟨rfl, rfl, fun _ _ h => by cases h⟩

theorem Inv.perm {x x' y y' : List Nat} {s : State} (h : Inv x y s)
    (hx : ∀ c, x'.count c = x.count c) (hy : ∀ c, y'.count c = y.count c) : Inv x' y' s :=
  { h with
    refs := fun c => by rw [hx]; exact h.refs c
    own := fun b => by rw [hy]; exact h.own b }

/-- Changing an object. -/
theorem Inv.setObj {x y x' y' : List Nat} {s : State} (h : Inv x y s) {i : Nat} (hi : i < s.no)
    {o : Option Obj} (hb : buf o + y.count i = buf (s.obj i) + y'.count i)
    (hx : ∀ c, cnt o c + x'.count c = cnt (s.obj i) c + x.count c)
    (hy : ∀ b, b ≠ i → Buffers.own o b + y'.count b = Buffers.own (s.obj i) b + y.count b)
    (hyi : Buffers.own o i = Buffers.own (s.obj i) i)
    (hf : Buffers.fine o) : Inv x' y' (s.setObj i o) where
  refs c := by
    have h1 := total_upd (f := fun j => cnt (s.obj j) c) (cnt o c) hi
    have h2 : (fun j => cnt ((s.setObj i o).obj j) c) = upd (fun j => cnt (s.obj j) c) i (cnt o c) := by
      funext j
      simp only [State.setObj, upd]
      split <;> rfl
    have h3 := h.refs c
    have h4 := hx c
    show rc (s.con c) = total (fun j => cnt ((s.setObj i o).obj j) c) s.no + _
    rw [h2]
    omega
  pos := h.pos
  own b := by
    have h1 := total_upd (f := fun j => Buffers.own (s.obj j) b) (Buffers.own o b) hi
    have h2 : (fun j => Buffers.own ((s.setObj i o).obj j) b) =
        upd (fun j => Buffers.own (s.obj j) b) i (Buffers.own o b) := by
      funext j
      simp only [State.setObj, upd]
      split <;> rfl
    have h3 := h.own b
    show buf ((s.setObj i o).obj b) = total (fun j => Buffers.own ((s.setObj i o).obj j) b) s.no +
      s.app.count b + _
    rw [h2]
    by_cases hbi : b = i
    · subst hbi
      simp only [State.setObj, upd_same]
      omega
    · simp only [State.setObj, upd_ne _ _ hbi]
      have := hy b hbi
      omega
  lt j o' hj := by
    by_cases hji : j = i
    · subst hji; exact hi
    · simp only [State.setObj, upd_ne _ _ hji] at hj
      exact h.lt j o' hj
  fine j := by
    by_cases hji : j = i
    · subst hji; simpa only [State.setObj, upd_same] using hf
    · simpa only [State.setObj, upd_ne _ _ hji] using h.fine j
  addr := h.addr

/-- Creating an object. -/
theorem Inv.newObj {x y x' y' : List Nat} {s : State} (h : Inv x y s) {o : Obj}
    (hb : y'.count s.no = buf (some o) + y.count s.no)
    (hx : ∀ c, cnt (some o) c + x'.count c = x.count c)
    (hy : ∀ b, b ≠ s.no → Buffers.own (some o) b + y'.count b = y.count b)
    (hyi : Buffers.own (some o) s.no = 0)
    (hf : Buffers.fine (some o)) : Inv x' y' (s.newObj o) where
  refs c := by
    have h3 := h.refs c
    have h4 := hx c
    show rc (s.con c) = total (fun j => cnt (upd s.obj s.no (some o) j) c) (s.no + 1) + _
    simp only [total, upd_same]
    rw [total_congr (g := fun j => cnt (s.obj j) c) (fun j hj => by simp only [upd_ne s.obj (some o) (show j ≠ s.no by omega)])]
    omega
  pos := h.pos
  own b := by
    have h3 := h.own b
    have h5 := h.own s.no
    have h6 : s.obj s.no = none := by
      cases hc : s.obj s.no with
      | none => rfl
      | some o => exact absurd (h.lt _ _ hc) (by omega)
    show buf (upd s.obj s.no (some o) b) =
      total (fun j => Buffers.own (upd s.obj s.no (some o) j) b) (s.no + 1) + s.app.count b + _
    simp only [total, upd_same]
    rw [total_congr (g := fun j => Buffers.own (s.obj j) b) (fun j hj => by simp only [upd_ne s.obj (some o) (show j ≠ s.no by omega)])]
    by_cases hbi : b = s.no
    · subst hbi
      rw [h6] at h5
      simp only [upd_same]
      have : buf none = 0 := rfl
      omega
    · simp only [upd_ne _ _ hbi]
      have := hy b hbi
      omega
  lt j o' hj := by
    simp only [State.newObj] at hj ⊢
    by_cases hji : j = s.no
    · omega
    · rw [upd_ne _ _ hji] at hj
      have := h.lt j o' hj
      omega
  fine j := by
    by_cases hji : j = s.no
    · subst hji; simpa only [State.newObj, upd_same] using hf
    · simpa only [State.newObj, upd_ne _ _ hji] using h.fine j
  addr := h.addr

theorem Inv.held {x y : List Nat} {s : State} (h : Inv x y s) {c : Nat}
    (hc : 0 < total (fun i => cnt (s.obj i) c) s.no + x.count c) : ∃ k, s.con c = some k := by
  have := h.refs c
  cases hk : s.con c with
  | none => rw [hk] at this; simp only [rc] at this; omega
  | some k => exact ⟨k, rfl⟩

theorem Inv.con_of {x y : List Nat} {s : State} (h : Inv x y s) {c i : Nat} {o : Obj}
    (ho : s.obj i = some o) (hc : c ∈ o.cons) : ∃ k, s.con c = some k := by
  apply h.held
  have := le_total (f := fun i => cnt (s.obj i) c) (h.lt _ _ ho)
  rw [show cnt (s.obj i) c = o.cons.count c by rw [ho]; rfl] at this
  have := List.count_pos_iff.2 hc
  omega

/-- The code and objects other than contents, addresses and the log. -/
structure Same (s s' : State) : Prop where
  obj : s'.obj = s.obj
  no : s'.no = s.no
  app : s'.app = s.app
  nc : s'.nc = s.nc

theorem Same.rfl {s : State} : Same s s := ⟨.refl _, .refl _, .refl _, .refl _⟩

theorem Same.trans {s s' s'' : State} (h : Same s s') (h' : Same s' s'') : Same s s'' :=
  ⟨h'.obj.trans h.obj, h'.no.trans h.no, h'.app.trans h.app, h'.nc.trans h.nc⟩

theorem Inv.setRefs {x x' y : List Nat} {s : State} (h : Inv x y s) {c : Nat} {k : Con}
    (hk : s.con c = some k) {r : Nat} (hr : 0 < r) (hx : ∀ d, d ≠ c → x'.count d = x.count d)
    (hc : r + x.count c = k.refs + x'.count c) :
    Inv x' y { s with con := upd s.con c (some { k with refs := r }) } := by
  refine ⟨?_, ?_, h.own, h.lt, h.fine, ?_⟩
  · intro d
    show rc (upd s.con c (some { k with refs := r }) d) = total (fun i => cnt (s.obj i) d) s.no + _
    have := h.refs d
    by_cases hd : d = c
    · subst hd
      rw [hk] at this
      simp only [upd_same, rc] at this ⊢
      omega
    · rw [upd_ne _ _ hd, hx d hd]
      exact this
  · intro d k' hd
    simp only at hd
    by_cases hdc : d = c
    · subst hdc
      rw [upd_same] at hd
      cases hd
      exact ⟨hr, (h.pos _ _ hk).2⟩
    · rw [upd_ne _ _ hdc] at hd
      exact h.pos _ _ hd
  · intro a
    have hup : ∀ d k', upd s.con c (some { k with refs := r }) d = some k' →
        ∃ k0, s.con d = some k0 ∧ k0.addr = k'.addr := by
      intro d k' hd
      by_cases hdc : d = c
      · subst hdc
        rw [upd_same] at hd
        cases hd
        exact ⟨k, hk, rfl⟩
      · rw [upd_ne _ _ hdc] at hd
        exact ⟨k', hd, rfl⟩
    rcases h.addr a with ⟨h1, h2, h3⟩ | ⟨c0, k0, h1, h2, h3, h4, h5⟩
    · refine .inl ⟨h1, h2, fun d k' hd => ?_⟩
      obtain ⟨k0, h0, ha⟩ := hup d k' hd
      rw [← ha]
      exact h3 _ _ h0
    · right
      refine ⟨c0, if c0 = c then { k with refs := r } else k0, ?_⟩
      by_cases h0 : c0 = c
      · subst h0
        rw [hk] at h1
        cases h1
        refine ⟨by simp [upd_same], by simpa using h2, by simpa using h3, h4, ?_⟩
        intro d k' hd hda
        obtain ⟨k1, hd1, hda1⟩ := hup d k' hd
        exact h5 _ _ hd1 (hda1.trans hda)
      · rw [if_neg h0]
        refine ⟨by simp only [upd_ne _ _ h0]; exact h1, h2, h3, h4, ?_⟩
        intro d k' hd hda
        obtain ⟨k1, hd1, hda1⟩ := hup d k' hd
        exact h5 _ _ hd1 (hda1.trans hda)

theorem Inv.conRef {x y : List Nat} {s : State} (h : Inv x y s) {c : Nat} (hc : ∃ k, s.con c = some k) :
    ∃ s', s.conRef (some c) = .ok s' ∧ Inv (c :: x) y s' ∧ Same s s' := by
  obtain ⟨k, hk⟩ := hc
  refine ⟨{ s with con := upd s.con c (some { k with refs := k.refs + 1 }) }, ?_, ?_, ⟨rfl, rfl, rfl, rfl⟩⟩
  · simp only [State.conRef, hk]
  · exact h.setRefs hk (by omega) (fun d hd => List.count_cons_of_ne (Ne.symm hd))
      (by rw [List.count_cons_self]; omega)

theorem Inv.conFree {x y : List Nat} {s : State} {c : Nat} {k : Con} (h : Inv (c :: x) y s)
    (hk : s.con c = some k) (hr : k.refs = 1) : Inv x y (s.conFree c k) ∧ Same s (s.conFree c k) := by
  have hcon : (s.conFree c k).con = upd s.con c none := by
    simp only [State.conFree, State.freeBuffer]; split <;> rfl
  have hobj : Same s (s.conFree c k) := by
    simp only [State.conFree, State.freeBuffer]; split <;> exact ⟨rfl, rfl, rfl, rfl⟩
  have hker : (s.conFree c k).kern = fun x => if x = k.addr then false else s.kern x := by
    simp only [State.conFree, State.freeBuffer]; split <;> rfl
  refine ⟨⟨?_, ?_, ?_, ?_, ?_, ?_⟩, hobj⟩
  · intro d
    rw [hcon, hobj.obj, hobj.no]
    have := h.refs d
    by_cases hd : d = c
    · subst hd
      rw [hk] at this
      simp only [upd_same, rc, List.count_cons_self] at this ⊢
      omega
    · rw [upd_ne _ _ hd]
      rw [List.count_cons_of_ne (Ne.symm hd)] at this
      exact this
  · intro d k' hd
    rw [hcon] at hd
    by_cases hdc : d = c
    · subst hdc; rw [upd_same] at hd; cases hd
    · rw [upd_ne _ _ hdc] at hd
      rw [hobj.nc]
      exact h.pos _ _ hd
  · intro b
    rw [hobj.obj, hobj.no, hobj.app]
    exact h.own b
  · intro i o hi
    rw [hobj.obj] at hi
    rw [hobj.no]
    exact h.lt i o hi
  · intro i
    rw [hobj.obj]
    exact h.fine i
  · intro a
    by_cases ha : a = k.addr
    · subst ha
      rcases h.addr k.addr with ⟨_, _, h3⟩ | ⟨c0, k0, h1, h2, h3, h4, h5⟩
      · exact absurd rfl (h3 _ _ hk)
      · have := h5 _ _ hk rfl
        subst this
        rw [hk] at h1
        cases h1
        refine .inl ⟨?_, ?_, ?_⟩
        · simp only [State.conFree, State.freeBuffer]
          split
          · rename_i ho
            rw [track_append, track_append, h3]
            simp [next, ho]
          · rename_i ho
            rw [track_append, h3]
            simp [next, ho]
        · rw [hker]; simp
        · intro d k' hd had
          rw [hcon] at hd
          by_cases hdc : d = c
          · subst hdc; rw [upd_same] at hd; cases hd
          · rw [upd_ne _ _ hdc] at hd
            exact hdc (h5 _ _ hd had)
    · have htr : track a (s.conFree c k).log = track a s.log := by
        have ha' := Ne.symm ha
        simp only [State.conFree, State.freeBuffer]
        split
        · rw [track_append, track_append]
          cases track a s.log <;> simp [next, ha']
        · rw [track_append]
          cases track a s.log <;> simp [next, ha']
      have hke : (s.conFree c k).kern a = s.kern a := by
        rw [hker]; simp [ha]
      have hup : ∀ d k', upd s.con c none d = some k' → s.con d = some k' := by
        intro d k' hd
        by_cases hdc : d = c
        · subst hdc; rw [upd_same] at hd; cases hd
        · rwa [upd_ne _ _ hdc] at hd
      rcases h.addr a with ⟨h1, h2, h3⟩ | ⟨c0, k0, h1, h2, h3, h4, h5⟩
      · refine .inl ⟨htr.trans h1, hke.trans h2, fun d k' hd => ?_⟩
        rw [hcon] at hd
        exact h3 _ _ (hup _ _ hd)
      · have h0 : c0 ≠ c := by
          intro h0
          subst h0
          rw [hk] at h1
          cases h1
          exact ha h2.symm
        refine .inr ⟨c0, k0, ?_, h2, htr.trans h3, hke.trans h4, fun d k' hd hda => ?_⟩
        · rw [hcon, upd_ne _ _ h0]; exact h1
        · rw [hcon] at hd
          exact h5 _ _ (hup _ _ hd) hda

theorem Inv.conUnref {x y : List Nat} {s : State} {c : Nat} (h : Inv (c :: x) y s) :
    ∃ s', s.conUnref (some c) = .ok s' ∧ Inv x y s' ∧ Same s s' := by
  obtain ⟨k, hk⟩ := h.held (c := c) (by rw [List.count_cons_self]; omega)
  have hp := (h.pos _ _ hk).1
  match hr : k.refs with
  | 0 => omega
  | 1 =>
    refine ⟨s.conFree c k, ?_, h.conFree hk hr⟩
    simp only [State.conUnref, hk, hr]
  | r + 2 =>
    refine ⟨{ s with con := upd s.con c (some { k with refs := r + 1 }) }, ?_, ?_, ⟨rfl, rfl, rfl, rfl⟩⟩
    · simp only [State.conUnref, hk, hr]
    · exact h.setRefs hk (by omega) (fun d hd => (List.count_cons_of_ne (Ne.symm hd)).symm)
        (by rw [List.count_cons_self]; omega)

theorem Inv.conUnrefAll {x y l : List Nat} {s : State} (h : Inv (l ++ x) y s) :
    ∃ s', s.conUnrefAll l = .ok s' ∧ Inv x y s' ∧ Same s s' := by
  induction l generalizing s with
  | nil => exact ⟨s, rfl, h, .rfl⟩
  | cons c l ih =>
    obtain ⟨s1, h1, h2, h3⟩ := h.conUnref
    obtain ⟨s2, h4, h5, h6⟩ := ih h2
    exact ⟨s2, by simp only [State.conUnrefAll, h1, andThen, h4], h5, h3.trans h6⟩

theorem Inv.conRefAll {x y l : List Nat} {s : State} (h : Inv x y s)
    (hl : ∀ c ∈ l, 0 < total (fun i => cnt (s.obj i) c) s.no + x.count c) :
    ∃ s', s.conRefAll l = .ok s' ∧ Inv (l ++ x) y s' ∧ Same s s' := by
  induction l generalizing s x with
  | nil => exact ⟨s, rfl, h, .rfl⟩
  | cons c l ih =>
    obtain ⟨s1, h1, h2, h3⟩ := h.conRef (h.held (hl c (by simp)))
    obtain ⟨s2, h4, h5, h6⟩ := ih h2 (fun d hd => by
      have := hl d (by simp [hd])
      rw [h3.obj, h3.no]
      simp only [List.count_cons]
      omega)
    refine ⟨s2, by simp only [State.conRefAll, h1, andThen, h4], h5.perm (fun d => ?_) (fun _ => rfl), h3.trans h6⟩
    simp only [List.count_append, List.count_cons, List.cons_append]
    omega

/-! ### Changes of objects and references don't depend on each other -/

theorem upd_comm {α : Type} (f : Nat → α) {i j : Nat} (a b : α) (h : i ≠ j) :
    upd (upd f i a) j b = upd (upd f j b) i a := by
  funext x
  simp only [upd]
  split <;> split <;> simp_all

theorem conFree_setObj (s : State) (i : Nat) (o : Option Obj) (c : Nat) (k : Con) :
    (s.setObj i o).conFree c k = (s.conFree c k).setObj i o := by
  simp only [State.conFree, State.freeBuffer, State.setObj]
  split <;> rfl

theorem conUnref_setObj (s : State) (i : Nat) (o : Option Obj) (c : Option Nat) :
    (s.setObj i o).conUnref c = andThen (s.conUnref c) fun s => .ok (s.setObj i o) := by
  cases c with
  | none => rfl
  | some c =>
    simp only [State.conUnref]
    show (match s.con c with | none => _ | some k => _) = _
    cases s.con c with
    | none => rfl
    | some k =>
      simp only
      cases hk : k.refs with
      | zero => rfl
      | succ r =>
        cases r with
        | zero => simp only [andThen, conFree_setObj]
        | succ r => rfl

theorem conRef_setObj (s : State) (i : Nat) (o : Option Obj) (c : Option Nat) :
    (s.setObj i o).conRef c = andThen (s.conRef c) fun s => .ok (s.setObj i o) := by
  cases c with
  | none => rfl
  | some c =>
    simp only [State.conRef]
    show (match s.con c with | none => _ | some k => _) = _
    cases s.con c <;> rfl

theorem conUnref_obj {s s' : State} {c : Option Nat} (h : s.conUnref c = .ok s') : s'.obj = s.obj := by
  cases c with
  | none => cases h; rfl
  | some c =>
    simp only [State.conUnref] at h
    split at h
    · cases h
    · split at h
      · cases h
      · cases h
        simp only [State.conFree, State.freeBuffer]; split <;> rfl
      · cases h; rfl

theorem conRef_obj {s s' : State} {c : Option Nat} (h : s.conRef c = .ok s') : s'.obj = s.obj := by
  cases c with
  | none => cases h; rfl
  | some c =>
    simp only [State.conRef] at h
    split at h
    · cases h
    · cases h; rfl

theorem setObj_setObj (s : State) (i : Nat) (o o' : Option Obj) :
    (s.setObj i o).setObj i o' = s.setObj i o' := by
  simp only [State.setObj]
  congr 1
  funext x
  simp only [upd]
  split <;> rfl

theorem andThen_ok {o : Out State} {f : State → State} {s' : State}
    (h : (andThen o fun s => .ok (f s)) = .ok s') : ∃ s, o = .ok s ∧ f s = s' := by
  cases o with
  | no => cases h
  | ub => cases h
  | ok s => cases h; exact ⟨s, rfl, rfl⟩

theorem conUnrefAll_setObj (s : State) (i : Nat) (o : Option Obj) (l : List Nat) :
    (s.setObj i o).conUnrefAll l = andThen (s.conUnrefAll l) fun s => .ok (s.setObj i o) := by
  induction l generalizing s with
  | nil => rfl
  | cons c l ih =>
    simp only [State.conUnrefAll, conUnref_setObj]
    cases s.conUnref (some c) with
    | no => rfl
    | ub => rfl
    | ok s1 => simp only [andThen]; exact ih s1

theorem bufFree_setObj (s : State) {i b : Nat} (o : Option Obj) (h : i ≠ b) :
    (s.setObj i o).bufFree (some b) = andThen (s.bufFree (some b)) fun s => .ok (s.setObj i o) := by
  simp only [State.bufFree]
  have : (s.setObj i o).obj b = s.obj b := upd_ne _ _ (Ne.symm h)
  rw [this]
  cases s.obj b with
  | none => rfl
  | some ob =>
    cases ob with
    | buffer c =>
      simp only [conUnref_setObj]
      cases s.conUnref c with
      | no => rfl
      | ub => rfl
      | ok s1 => simp only [andThen, State.setObj]; rw [upd_comm _ _ _ h]
    | _ => rfl

/-! ### Operations -/

theorem count_self_zero {x : List Nat} {a : Nat} (h : x.count a = 0) : a ∉ x :=
  List.count_eq_zero.1 h

theorem Inv.conUnref' {x y : List Nat} {s : State} {c : Option Nat} (h : Inv (c.toList ++ x) y s) :
    ∃ s', s.conUnref c = .ok s' ∧ Inv x y s' ∧ Same s s' := by
  cases c with
  | none => exact ⟨s, rfl, h, .rfl⟩
  | some c => exact h.conUnref

theorem Inv.conRef' {x y : List Nat} {s : State} {c : Option Nat} (h : Inv x y s)
    (hc : ∀ d, c = some d → ∃ k, s.con d = some k) :
    ∃ s', s.conRef c = .ok s' ∧ Inv (c.toList ++ x) y s' ∧ Same s s' := by
  cases c with
  | none => exact ⟨s, rfl, h, .rfl⟩
  | some c => exact h.conRef (hc c rfl)

/-- What happens to objects when a buffer is freed. -/
structure Freed (b : Nat) (s s' : State) : Prop where
  obj : s'.obj = upd s.obj b none
  no : s'.no = s.no
  app : s'.app = s.app
  nc : s'.nc = s.nc

theorem Inv.is_buf {x y : List Nat} {s : State} {b : Nat} (h : Inv x y s)
    (hb : 0 < total (fun i => Buffers.own (s.obj i) b) s.no + s.app.count b + y.count b) :
    ∃ c, s.obj b = some (.buffer (some c)) := by
  have h1 := h.own b
  have h2 := h.fine b
  cases ho : s.obj b with
  | none => rw [ho] at h1; simp only [buf] at h1; omega
  | some o =>
    rw [ho] at h1 h2
    cases o with
    | buffer c =>
      cases c with
      | none => cases h2
      | some c => exact ⟨c, rfl⟩
    | _ => simp only [buf] at h1; omega

theorem Inv.bufFree {x y : List Nat} {s : State} {b : Nat} (h : Inv x (b :: y) s) :
    ∃ s', s.bufFree (some b) = .ok s' ∧ Inv x y s' ∧ Freed b s s' := by
  obtain ⟨c, hc⟩ := h.is_buf (b := b) (by rw [List.count_cons_self]; omega)
  have h1 : Inv (c :: x) y (s.setObj b none) := by
    refine h.setObj (h.lt _ _ hc) ?_ ?_ ?_ ?_ trivial
    · rw [hc, List.count_cons_self]; simp only [buf]; omega
    · intro d
      rw [hc]
      simp only [cnt, Obj.cons, Option.toList, List.count_cons, List.count_nil]
      omega
    · intro d hd
      rw [hc, List.count_cons_of_ne (Ne.symm hd)]
      simp only [Buffers.own, Obj.bufs, List.count_nil]
    · rw [hc]
      simp only [Buffers.own, Obj.bufs, List.count_nil]
  obtain ⟨s', h2, h3, h4⟩ := h1.conUnref
  refine ⟨s', ?_, h3, h4.obj, h4.no, h4.app, h4.nc⟩
  simp only [State.bufFree, hc]
  rw [← conUnref_setObj]
  exact h2

theorem own_remote (n : Nat) (b : Option Nat) (d : Nat) :
    Buffers.own (some (.remote n b)) d = b.toList.count d := rfl

theorem Inv.setData {x y : List Nat} {s : State} {r n b : Nat} {b0 : Option Nat} (h : Inv x (b :: y) s)
    (hr : s.obj r = some (.remote n b0)) :
    ∃ s', s.setData r b = .ok s' ∧ Inv x y s' ∧ s'.no = s.no ∧ s'.nc = s.nc ∧ s'.app = s.app ∧
      s'.obj b = s.obj b ∧ s'.obj r = some (.remote n (some b)) ∧
      (∀ i, b0 ≠ some i → i ≠ r → s'.obj i = s.obj i) := by
  have hlt := h.lt _ _ hr
  have hpos : 0 < n := by have := h.fine r; rw [hr] at this; exact this
  obtain ⟨c, hbc⟩ := h.is_buf (b := b) (by rw [List.count_cons_self]; omega)
  have hbr : b ≠ r := by intro e; subst e; rw [hr] at hbc; cases hbc
  have hb1 := h.own b
  rw [hbc, List.count_cons_self] at hb1
  simp only [buf] at hb1
  have hle := le_total (f := fun i => Buffers.own (s.obj i) b) hlt
  simp only [hr, own_remote] at hle
  have hb0 : b0 ≠ some b := by
    intro e
    subst e
    simp only [Option.toList, List.count_cons_self] at hle
    omega
  have h1 : Inv x (b0.toList ++ y) (s.setObj r (some (.remote n (some b)))) := by
    refine h.setObj hlt ?_ ?_ ?_ ?_ hpos
    · rw [hr, List.count_cons_of_ne hbr, List.count_append]
      have : b0.toList.count r = 0 := by
        cases b0 with
        | none => rfl
        | some b0 =>
          obtain ⟨c0, hc0⟩ := h.is_buf (b := b0) (by
            have := le_total (f := fun i => Buffers.own (s.obj i) b0) hlt
            simp only [hr, own_remote, Option.toList, List.count_cons_self] at this
            omega)
          have : b0 ≠ r := by intro e; subst e; rw [hr] at hc0; cases hc0
          simp [List.count_cons, this]
      simp only [buf, this]
      omega
    · intro c'
      rw [hr]
      rfl
    · intro d hd
      rw [hr]
      simp only [own_remote, Option.toList, List.count_cons, List.count_nil, List.count_append]
      omega
    · rw [hr]
      simp only [own_remote, Option.toList, List.count_cons, List.count_nil]
      cases b0 with
      | none => simp [hbr]
      | some b0 =>
        obtain ⟨c0, hc0⟩ := h.is_buf (b := b0) (by
            have := le_total (f := fun i => Buffers.own (s.obj i) b0) hlt
            simp only [hr, own_remote, Option.toList, List.count_cons_self] at this
            omega)
        have : b0 ≠ r := by intro e; subst e; rw [hr] at hc0; cases hc0
        simp [hbr, this]
  cases b0 with
  | none =>
    refine ⟨_, ?_, h1, rfl, rfl, rfl, upd_ne _ _ hbr, upd_same _ _ _, fun i _ hi => upd_ne _ _ hi⟩
    simp only [State.setData, hr, State.bufFree, andThen]
  | some b0 =>
    obtain ⟨c0, hc0⟩ := h.is_buf (b := b0) (by
      have := le_total (f := fun i => Buffers.own (s.obj i) b0) hlt
      simp only [hr, own_remote, Option.toList, List.count_cons_self] at this
      omega)
    have hne : r ≠ b0 := by intro e; subst e; rw [hr] at hc0; cases hc0
    obtain ⟨s', h2, h3, h4⟩ := h1.bufFree
    have hbb : b ≠ b0 := fun e => hb0 (by rw [e])
    refine ⟨s', ?_, h3, h4.no, h4.nc, h4.app, ?_, ?_, ?_⟩
    · rw [bufFree_setObj _ _ hne] at h2
      simp only [State.setData, hr]
      cases hf : s.bufFree (some b0) with
      | no => rw [hf] at h2; cases h2
      | ub => rw [hf] at h2; cases h2
      | ok s1 =>
        rw [hf] at h2
        simp only [andThen] at h2 ⊢
        have : s1.obj r = s.obj r := by
          simp only [State.bufFree, hc0] at hf
          cases hu : s.conUnref (some c0) with
          | no => rw [hu] at hf; cases hf
          | ub => rw [hu] at hf; cases hf
          | ok s2 =>
            rw [hu] at hf
            simp only [andThen] at hf
            cases hf
            have := conUnref_obj hu
            simp only [State.setObj, upd_ne _ _ hne, this]
        rw [this, hr]
        exact h2
    · rw [h4.obj, upd_ne _ _ hbb]
      exact upd_ne _ _ hbr
    · rw [h4.obj, upd_ne _ _ hne]
      exact upd_same _ _ _
    · intro i hi hir
      rw [h4.obj, upd_ne _ _ (fun e => hi (by rw [e]))]
      exact upd_ne _ _ hir

theorem Inv.listAdd {x y : List Nat} {s : State} {i : Nat} {c : Option Nat} (h : Inv x y s)
    (hc : ∀ d, c = some d → ∃ k, s.con d = some k) :
    s.listAdd i c = .no ∨ ∃ s', s.listAdd i c = .ok s' ∧ Inv x y s' := by
  simp only [State.listAdd]
  cases ho : s.obj i with
  | none => exact .inl rfl
  | some o =>
    cases o with
    | list l =>
      right
      cases c with
      | none => exact ⟨s, rfl, h⟩
      | some c =>
        obtain ⟨s1, h1, h2, h3⟩ := h.conRef (hc c rfl)
        simp only [h1, andThen]
        refine ⟨_, rfl, ?_⟩
        have ho' : s1.obj i = some (.list l) := by rw [h3.obj]; exact ho
        refine h2.setObj (h2.lt _ _ ho') ?_ ?_ ?_ ?_ trivial
        · rw [ho']; simp only [buf]
        · intro d
          rw [ho']
          simp only [cnt, Obj.cons, List.count_cons]
          omega
        · intro d _
          rw [ho']
          simp only [Buffers.own, Obj.bufs]
        · rw [ho']
          simp only [Buffers.own, Obj.bufs]
    | _ => exact .inl rfl

/-- A parcel changes. -/
theorem Inv.setParcel {x x' y : List Nat} {s : State} {p n n' : Nat} {k k' : Option Nat} {l l' : List Nat}
    (h : Inv x y s) (hp : s.obj p = some (.parcel n k l)) (hn : 0 < n')
    (hx : ∀ c, (k'.toList ++ l').count c + x'.count c = (k.toList ++ l).count c + x.count c) :
    Inv x' y (s.setObj p (some (.parcel n' k' l'))) := by
  refine h.setObj (h.lt _ _ hp) ?_ ?_ ?_ ?_ hn
  · rw [hp]; simp only [buf]
  · intro d; rw [hp]; exact hx d
  · intro d _; rw [hp]; simp only [Buffers.own, Obj.bufs]
  · rw [hp]; simp only [Buffers.own, Obj.bufs]

theorem Inv.appendContents {x y : List Nat} {s : State} {p n : Nat} {k c : Option Nat} {l : List Nat}
    (h : Inv x y s) (hp : s.obj p = some (.parcel n k l))
    (hc : ∀ d, c = some d → ∃ k, s.con d = some k) :
    ∃ s', s.appendContents p c = .ok s' ∧ Inv x y s' ∧
      s'.obj = upd s.obj p (some (.parcel n k (l ++ c.toList))) := by
  have hn : 0 < n := by have := h.fine p; rw [hp] at this; exact this
  cases c with
  | none =>
    refine ⟨s, rfl, h, ?_⟩
    funext i
    simp only [upd, Option.toList, List.append_nil]
    split
    · rename_i e; rw [e, hp]
    · rfl
  | some c =>
    obtain ⟨s1, h1, h2, h3⟩ := h.conRef (hc c rfl)
    have hp' : s1.obj p = some (.parcel n k l) := by rw [h3.obj]; exact hp
    refine ⟨s1.setObj p (some (.parcel n k (l ++ [c]))), ?_, ?_, ?_⟩
    · simp only [State.appendContents, h1, andThen, hp']
    · refine h2.setParcel hp' hn fun d => ?_
      simp only [List.count_append, List.count_cons, List.count_nil]
      omega
    · simp only [State.setObj, h3.obj, Option.toList]

theorem Inv.setContents {x y : List Nat} {s : State} {p n : Nat} {k c : Option Nat} {l : List Nat}
    (h : Inv x y s) (hp : s.obj p = some (.parcel n k l))
    (hc : ∀ d, c = some d → ∃ i o, s.obj i = some o ∧ i ≠ p ∧ d ∈ o.cons) :
    ∃ s', s.setContents p c = .ok s' ∧ Inv x y s' ∧ ∀ i, i ≠ p → s'.obj i = s.obj i := by
  have hn : 0 < n := by have := h.fine p; rw [hp] at this; exact this
  -- the cleanup list is emptied
  have h1 : Inv (l ++ x) y (s.setObj p (some (.parcel n k []))) := by
    refine h.setParcel hp hn fun d => ?_
    simp only [List.count_append, List.count_nil]
    omega
  obtain ⟨s1, e1, i1, o1⟩ := h1.conUnrefAll
  have hp1 : s1.obj p = some (.parcel n k []) := by rw [o1.obj]; exact upd_same _ _ _
  have hcon : ∀ (t : State) (x : List Nat), Inv x y t → (∀ i, i ≠ p → t.obj i = s.obj i) →
      ∀ d, c = some d → ∃ k, t.con d = some k := by
    intro t x ht hto d hd
    obtain ⟨i, o, ho, hi, hm⟩ := hc d hd
    exact ht.con_of (by rw [hto i hi]; exact ho) hm
  have f1 : ∀ i, i ≠ p → s1.obj i = s.obj i := by
    intro i hi; rw [o1.obj]; exact upd_ne _ _ hi
  obtain ⟨s2, e2, i2, o2⟩ := i1.appendContents hp1 (hcon _ _ i1 f1)
  have hp2 : s2.obj p = some (.parcel n k c.toList) := by rw [o2, upd_same, List.nil_append]
  have f2 : ∀ i, i ≠ p → s2.obj i = s.obj i := by
    intro i hi; rw [o2, upd_ne _ _ hi]; exact f1 i hi
  -- the old contents
  have h3 : Inv (k.toList ++ x) y (s2.setObj p (some (.parcel n none c.toList))) := by
    refine i2.setParcel hp2 hn fun d => ?_
    simp only [List.count_append, Option.toList, List.count_nil]
    omega
  obtain ⟨s3, e3, i3, o3⟩ := h3.conUnref'
  have f3 : ∀ i, i ≠ p → s3.obj i = s.obj i := by
    intro i hi; rw [o3.obj]; exact (upd_ne _ _ hi).trans (f2 i hi)
  -- and the new ones
  obtain ⟨s4, e4, i4, o4⟩ := i3.conRef' (hcon _ _ i3 f3)
  have hp4 : s4.obj p = some (.parcel n none c.toList) := by
    rw [o4.obj, o3.obj]; exact upd_same _ _ _
  have h5 : Inv x y (s4.setObj p (some (.parcel n c c.toList))) := by
    refine i4.setParcel hp4 hn fun d => ?_
    simp only [List.count_append, Option.toList, List.count_nil]
    omega
  refine ⟨_, ?_, h5, ?_⟩
  · rw [conUnrefAll_setObj] at e1
    obtain ⟨t1, a1, rfl⟩ := andThen_ok e1
    rw [conUnref_setObj] at e3
    obtain ⟨t3, a3, rfl⟩ := andThen_ok e3
    rw [conRef_setObj] at e4
    obtain ⟨t4, a4, rfl⟩ := andThen_ok e4
    have : t4.obj p = some (.parcel n k c.toList) := by
      rw [conRef_obj a4, conUnref_obj a3]; exact hp2
    simp only [State.setContents, hp, a1, andThen, e2, a3, a4, this, setObj_setObj]
  · intro i hi
    show upd s4.obj p _ i = _
    rw [upd_ne _ _ hi, o4.obj]
    exact f3 i hi

theorem deliver_some {s s' : State} {a : Nat} {full objs : Bool}
    (h : s.deliver (some a) full objs = some s') :
    s.kern a = false ∧ (objs = true → full = true) ∧
    s' = { s with
      nc := s.nc + 1, log := s.log ++ [.deliver s.nc a objs]
      kern := fun x => if x = a then true else s.kern x } := by
  simp only [State.deliver] at h
  split at h
  · cases h
  · rename_i hn
    cases h
    refine ⟨?_, ?_, rfl⟩
    · cases hk : s.kern a with
      | false => rfl
      | true => exact absurd (.inl hk) hn
    · intro ho
      cases full with
      | true => rfl
      | false => exact absurd (.inr ⟨ho, rfl⟩) hn

/-- A buffer is received, the code has a reference to it. -/
theorem Inv.deliver {x y : List Nat} {s : State} (h : Inv x y s) {a : Nat} (ha : s.kern a = false)
    (objs : Bool) : Inv (s.nc :: x) y { s with
      nc := s.nc + 1, log := s.log ++ [.deliver s.nc a objs]
      kern := fun x => if x = a then true else s.kern x
      con := upd s.con s.nc (some { refs := 1, addr := a, objs }) } := by
  have hnew : s.con s.nc = none := by
    cases hc : s.con s.nc with
    | none => rfl
    | some k => have := (h.pos _ _ hc).2; omega
  refine ⟨?_, ?_, h.own, h.lt, h.fine, ?_⟩
  · intro c
    show rc (upd s.con s.nc (some { refs := 1, addr := a, objs }) c) =
      total (fun i => cnt (s.obj i) c) s.no + _
    have := h.refs c
    by_cases hc : c = s.nc
    · subst hc
      rw [hnew] at this
      simp only [upd_same, rc, List.count_cons_self] at this ⊢
      omega
    · rw [upd_ne _ _ hc, List.count_cons_of_ne (Ne.symm hc)]
      exact this
  · intro c k hc
    simp only at hc ⊢
    by_cases he : c = s.nc
    · subst he
      rw [upd_same] at hc
      cases hc
      exact ⟨by simp, by omega⟩
    · rw [upd_ne _ _ he] at hc
      have := h.pos _ _ hc
      omega
  · intro b
    by_cases hb : b = a
    · subst hb
      rcases h.addr b with ⟨h1, h2, h3⟩ | ⟨_, _, _, _, _, h4, _⟩
      · refine .inr ⟨s.nc, { refs := 1, addr := b, objs }, upd_same _ _ _, rfl, ?_, ?_, ?_⟩
        · simp only [track_append, h1]
          simp [next]
        · simp
        · intro c k hc hk
          simp only at hc
          by_cases he : c = s.nc
          · exact he
          · rw [upd_ne _ _ he] at hc
            exact absurd hk (h3 _ _ hc)
      · rw [ha] at h4; cases h4
    · have htr : track b (s.log ++ [.deliver s.nc a objs]) = track b s.log := by
        rw [track_append]
        cases track b s.log <;> simp [next, Ne.symm hb]
      have hup : ∀ c k, upd s.con s.nc (some { refs := 1, addr := a, objs }) c = some k →
          k.addr = b → s.con c = some k := by
        intro c k hc hk
        by_cases he : c = s.nc
        · subst he
          rw [upd_same] at hc
          cases hc
          exact absurd hk.symm hb
        · rwa [upd_ne _ _ he] at hc
      rcases h.addr b with ⟨h1, h2, h3⟩ | ⟨c0, k0, h1, h2, h3, h4, h5⟩
      · refine .inl ⟨htr.trans h1, by simpa [hb] using h2, fun c k hc hk => ?_⟩
        exact h3 _ _ (hup _ _ hc hk) hk
      · refine .inr ⟨c0, k0, ?_, h2, htr.trans h3, by simpa [hb] using h4, fun c k hc hk => ?_⟩
        · have : c0 ≠ s.nc := by have := (h.pos _ _ h1).2; omega
          simp only [upd_ne _ _ this]
          exact h1
        · exact h5 _ _ (hup _ _ hc hk) hk

/-- A buffer is received and immediately returned. -/
theorem Inv.bounce {x y : List Nat} {s : State} (h : Inv x y s) {a : Nat} (ha : s.kern a = false) :
    Inv x y { s with
      nc := s.nc + 1, log := (s.log ++ [.deliver s.nc a false]) ++ [.free a]
      kern := fun x => if x = a then false else if x = a then true else s.kern x } := by
  refine ⟨h.refs, fun c k hc => ?_, h.own, h.lt, h.fine, ?_⟩
  · have := h.pos c k hc
    simp only
    omega
  · intro b
    have htr : track b ((s.log ++ [.deliver s.nc a false]) ++ [.free a]) = track b s.log := by
      by_cases hb : b = a
      · subst hb
        rcases h.addr b with ⟨h1, _, _⟩ | ⟨_, _, _, _, _, h4, _⟩
        · rw [track_append, track_append, h1]
          simp [next]
        · rw [ha] at h4; cases h4
      · rw [track_append, track_append]
        cases track b s.log <;> simp [next, Ne.symm hb]
    have hke : (if b = a then false else if b = a then true else s.kern b) = s.kern b := by
      by_cases hb : b = a
      · subst hb; simp [ha]
      · simp [hb]
    rcases h.addr b with ⟨h1, h2, h3⟩ | ⟨c0, k0, h1, h2, h3, h4, h5⟩
    · exact .inl ⟨htr.trans h1, hke.trans h2, h3⟩
    · exact .inr ⟨c0, k0, h1, h2, htr.trans h3, hke.trans h4, h5⟩

/-- `receive`, after the reference has been created. -/
theorem Inv.receive {s : State} {x r c a n : Nat} {objs : Bool} {b0 : Option Nat}
    (h : Inv [c] [] { s with con := upd s.con c (some { refs := 1, addr := a, objs }) })
    (hr : s.obj r = some (.remote n b0)) :
    s.receive x r c a objs = .no ∨ ∃ s', s.receive x r c a objs = .ok s' ∧ Inv [] [] s' := by
  have h1 : Inv [] [s.no] (s.bufNew c a objs) := by
    refine h.newObj ?_ ?_ ?_ ?_ rfl
    · simp [buf]
    · intro d
      simp [cnt, Obj.cons]
    · intro d hd
      simp only [Buffers.own, Obj.bufs, List.count_nil]
      rw [List.count_cons_of_ne (Ne.symm hd)]
      rfl
    · rfl
  have hlt : r < s.no := h.lt r _ hr
  have hr' : (s.bufNew c a objs).obj r = some (.remote n b0) :=
    (upd_ne _ _ (show r ≠ s.no by omega)).trans hr
  obtain ⟨s1, e1, i1, _, _, _, ob, _, _⟩ := h1.setData hr'
  have hb : s1.obj s.no = some (.buffer (some c)) := ob.trans (upd_same _ _ _)
  simp only [State.receive, e1, andThen, State.contents, hb]
  exact i1.listAdd fun d hd => i1.con_of hb (by cases hd; simp [Obj.cons])

/-- What is in a buffer of a live request or reply. -/
theorem Inv.contents {x y : List Nat} {s : State} (h : Inv x y s) {r n : Nat} {b : Option Nat}
    (hr : s.obj r = some (.remote n b)) :
    ∃ c, s.contents b = some c ∧
      ∀ d, c = some d → ∃ i, b = some i ∧ s.obj i = some (.buffer (some d)) := by
  cases b with
  | none => exact ⟨none, rfl, fun d hd => by cases hd⟩
  | some b =>
    obtain ⟨c, hc⟩ := h.is_buf (b := b) (by
      have := le_total (f := fun i => Buffers.own (s.obj i) b) (h.lt _ _ hr)
      simp only [hr, own_remote, Option.toList, List.count_cons_self] at this
      omega)
    refine ⟨some c, by simp only [State.contents, hc], fun d hd => ?_⟩
    cases hd
    exact ⟨b, rfl, hc⟩

/-- Each step is safe and keeps the counts right. -/
theorem step_inv {s : State} (h : Inv [] [] s) (l : Label) :
    step s l = .no ∨ ∃ s', step s l = .ok s' ∧ Inv [] [] s' := by
  have hnone : s.obj s.no = none := by
    cases hc : s.obj s.no with
    | none => rfl
    | some o => have := h.lt _ _ hc; omega
  -- a new object without references
  have hnew : ∀ (t : State) (o : Obj), Inv [] [] t → o.cons = [] → o.bufs = [] → buf (some o) = 0 →
      Buffers.fine (some o) → Inv [] [] (t.newObj o) := by
    intro t o ht h1 h2 h3 h4
    refine ht.newObj ?_ ?_ ?_ ?_ h4
    · rw [h3]; rfl
    · intro c; simp [cnt, h1]
    · intro b _; simp [Buffers.own, h2]
    · simp [Buffers.own, h2]
  cases l with
  | newList => exact .inr ⟨_, rfl, hnew _ _ h rfl rfl rfl trivial⟩
  | newRemote => exact .inr ⟨_, rfl, hnew _ _ h rfl rfl rfl Nat.one_pos⟩
  | newParcel => exact .inr ⟨_, rfl, hnew _ _ h rfl rfl rfl Nat.one_pos⟩
  | freeList i =>
    simp only [step]
    split
    · rename_i l ho
      right
      have h1 : Inv (l ++ []) [] (s.setObj i none) := by
        refine h.setObj (h.lt _ _ ho) ?_ ?_ ?_ ?_ trivial
        · rw [ho]; simp only [buf]
        · intro c; rw [ho]; simp [cnt, Obj.cons]
        · intro b _; rw [ho]; simp [Buffers.own, Obj.bufs]
        · rw [ho]; simp [Buffers.own, Obj.bufs]
      obtain ⟨s1, e1, i1, _⟩ := h1.conUnrefAll
      rw [conUnrefAll_setObj] at e1
      exact ⟨s1, e1, i1⟩
    · exact .inl rfl
  | dupList i =>
    simp only [step]
    split
    · rename_i l ho
      right
      obtain ⟨s1, e1, i1, _⟩ := h.conRefAll (l := l) (fun c hc => by
        have := le_total (f := fun i => cnt (s.obj i) c) (h.lt _ _ ho)
        rw [show cnt (s.obj i) c = l.count c by rw [ho]; rfl] at this
        have := List.count_pos_iff.2 hc
        omega)
      simp only [e1, andThen]
      refine ⟨_, rfl, i1.newObj ?_ ?_ ?_ ?_ trivial⟩
      · rfl
      · intro c; simp [cnt, Obj.cons]
      · intro b _; rfl
      · rfl
    · exact .inl rfl
  | transaction i data full objs =>
    simp only [step]
    split
    · exact .inl rfl
    · rename_i s' hd
      cases data with
      | none =>
        simp only [State.deliver] at hd
        split at hd
        · cases hd
        · cases hd
          exact .inr ⟨_, rfl, hnew _ _ h rfl rfl rfl Nat.one_pos⟩
      | some a =>
        obtain ⟨ha, hfull, rfl⟩ := deliver_some hd
        simp only
        split
        · have h1 := h.deliver ha objs
          have h2 : Inv [s.nc] [] (State.newObj { s with
              nc := s.nc + 1, log := s.log ++ [.deliver s.nc a objs]
              kern := fun x => if x = a then true else s.kern x
              con := upd s.con s.nc (some { refs := 1, addr := a, objs }) } (.remote 1 none)) := by
            refine h1.newObj ?_ ?_ ?_ ?_ Nat.one_pos
            · rfl
            · intro c; simp [cnt, Obj.cons]
            · intro b _; rfl
            · rfl
          have h3 := Inv.receive (s := State.newObj { s with
              nc := s.nc + 1, log := s.log ++ [.deliver s.nc a objs]
              kern := fun x => if x = a then true else s.kern x } (.remote 1 none))
            (x := i) (r := s.no) (n := 1) (b0 := none) h2 (upd_same _ _ _)
          exact h3
        · rename_i hf
          have hobjs : objs = false := by
            cases objs with
            | false => rfl
            | true => exact absurd (hfull rfl) hf
          subst hobjs
          have h1 := h.bounce ha
          exact .inr ⟨_, rfl, hnew _ _ h1 rfl rfl rfl Nat.one_pos⟩
  | reply i r data full objs =>
    simp only [step]
    split
    · exact .inl rfl
    · rename_i s' hd
      split
      · rename_i a r
        obtain ⟨ha, hfull, rfl⟩ := deliver_some hd
        split
        · rename_i n b0 hr
          exact Inv.receive (h.deliver ha objs) hr
        · exact .inl rfl
      · split
        · exact .inl rfl
        · rename_i ho
          have hobjs : objs = false := by cases objs <;> simp_all
          subst hobjs
          right
          cases data with
          | none =>
            simp only [State.deliver] at hd
            split at hd
            · cases hd
            · cases hd
              exact ⟨_, rfl, h⟩
          | some a =>
            obtain ⟨ha, _, rfl⟩ := deliver_some hd
            exact ⟨_, rfl, h.bounce ha⟩
  | refRemote r =>
    simp only [step]
    split
    · rename_i n b ho
      refine .inr ⟨_, rfl, h.setObj (h.lt _ _ ho) ?_ ?_ ?_ ?_ (Nat.succ_pos n)⟩
      · rw [ho]; simp only [buf]
      · intro c; rw [ho]; rfl
      · intro c _; rw [ho]; rfl
      · rw [ho]; rfl
    · exact .inl rfl
  | unrefRemote r =>
    simp only [step]
    split
    · rename_i n b ho
      have hn : 0 < n := by have := h.fine r; rw [ho] at this; exact this
      right
      split
      · omega
      · have hbr : b.toList.count r = 0 := by
          cases b with
          | none => rfl
          | some b =>
            obtain ⟨c, hc, hcd⟩ := h.contents ho
            simp only [State.contents] at hc
            have : b ≠ r := by
              intro e; subst e; rw [ho] at hc; cases hc
            simp [List.count_cons, this]
        have h1 : Inv [] (b.toList ++ []) (s.setObj r none) := by
          refine h.setObj (h.lt _ _ ho) ?_ ?_ ?_ ?_ trivial
          · rw [ho, List.append_nil, hbr]; rfl
          · intro c; rw [ho]; rfl
          · intro d _; rw [ho, own_remote]; simp [Buffers.own]
          · rw [ho, own_remote, hbr]; rfl
        cases b with
        | none => exact ⟨_, rfl, h1⟩
        | some b =>
          obtain ⟨s1, e1, i1, _⟩ := h1.bufFree
          have : r ≠ b := by
            intro e; subst e
            simp at hbr
          rw [bufFree_setObj _ _ this] at e1
          exact ⟨s1, e1, i1⟩
      · refine ⟨_, rfl, h.setObj (h.lt _ _ ho) ?_ ?_ ?_ ?_ (Nat.succ_pos _)⟩
        · rw [ho]; simp only [buf]
        · intro c; rw [ho]; rfl
        · intro c _; rw [ho]; rfl
        · rw [ho]; rfl
    · exact .inl rfl
  | readBuffer r =>
    simp only [step]
    split
    · rename_i n b ho
      obtain ⟨c, hc, hcd⟩ := h.contents ho
      rw [hc]
      right
      obtain ⟨s1, e1, i1, o1⟩ := h.conRef' (c := c) fun d hd => by
        obtain ⟨i, _, hi⟩ := hcd d hd
        exact h.con_of hi (by simp [Obj.cons])
      simp only [e1, andThen]
      refine ⟨_, rfl, ?_⟩
      have hcs : c.isSome := by
        obtain ⟨c0, hc0⟩ := h.is_buf (b := b) (by
          have := le_total (f := fun i => Buffers.own (s.obj i) b) (h.lt _ _ ho)
          simp only [ho, own_remote, Option.toList, List.count_cons_self] at this
          omega)
        simp only [State.contents, hc0] at hc
        cases hc
        rfl
      have h2 : Inv [] [s1.no] (s1.newObj (.buffer c)) := by
        refine i1.newObj ?_ ?_ ?_ ?_ hcs
        · simp [buf]
        · intro d; simp [cnt, Obj.cons]
        · intro d hd
          rw [List.count_cons_of_ne (Ne.symm hd)]
          rfl
        · rfl
      refine ⟨h2.refs, h2.pos, fun d => ?_, h2.lt, h2.fine, h2.addr⟩
      have := h2.own d
      simp only [List.count_cons, List.count_nil] at this ⊢
      omega
    · exact .inl rfl
  | freeBuffer b =>
    simp only [step]
    split
    · rename_i hb
      right
      have h1 : Inv [] [b] { s with app := s.app.erase b } := by
        refine ⟨h.refs, h.pos, fun d => ?_, h.lt, h.fine, h.addr⟩
        have := h.own d
        simp only [List.count_nil] at this ⊢
        by_cases hd : d = b
        · subst hd
          rw [List.count_erase_self, List.count_cons_self]
          have := List.count_pos_iff.2 hb
          simp only [List.count_nil]
          omega
        · rw [List.count_erase_of_ne hd, List.count_cons_of_ne (Ne.symm hd)]
          exact this
      obtain ⟨s1, e1, i1, _⟩ := h1.bufFree
      exact ⟨s1, e1, i1⟩
    · exact .inl rfl
  | refParcel p =>
    simp only [step]
    split
    · rename_i n c l ho
      exact .inr ⟨_, rfl, h.setParcel ho (Nat.succ_pos _) fun d => rfl⟩
    · exact .inl rfl
  | unrefParcel p =>
    simp only [step]
    split
    · rename_i n c l ho
      have hn : 0 < n := by have := h.fine p; rw [ho] at this; exact this
      right
      split
      · omega
      · have h1 : Inv (l ++ (c.toList ++ [])) [] (s.setObj p none) := by
          refine h.setObj (h.lt _ _ ho) ?_ ?_ ?_ ?_ trivial
          · rw [ho]; simp only [buf]
          · intro d; rw [ho]; simp only [cnt, Obj.cons, List.count_append, List.count_nil]; omega
          · intro b _; rw [ho]; rfl
          · rw [ho]; rfl
        obtain ⟨s1, e1, i1, _⟩ := h1.conUnrefAll
        obtain ⟨s2, e2, i2, _⟩ := i1.conUnref'
        rw [conUnrefAll_setObj] at e1
        obtain ⟨t1, a1, rfl⟩ := andThen_ok e1
        rw [conUnref_setObj] at e2
        simp only [a1, andThen]
        exact ⟨s2, e2, i2⟩
      · exact ⟨_, rfl, h.setParcel ho (Nat.succ_pos _) fun d => rfl⟩
    · exact .inl rfl
  | append p r =>
    simp only [step]
    split
    · rename_i n c l _ b ho hr
      obtain ⟨c, hc, hcd⟩ := h.contents hr
      rw [hc]
      right
      obtain ⟨s1, e1, i1, _⟩ := h.appendContents ho (c := c) fun d hd => by
        obtain ⟨i, _, hi⟩ := hcd d hd
        exact h.con_of hi (by simp [Obj.cons])
      exact ⟨s1, e1, i1⟩
    · exact .inl rfl
  | setContents p r =>
    simp only [step]
    split
    · rename_i n c l _ b ho hr
      obtain ⟨c, hc, hcd⟩ := h.contents hr
      rw [hc]
      right
      obtain ⟨s1, e1, i1, _⟩ := h.setContents ho (c := c) fun d hd => by
        obtain ⟨i, _, hi⟩ := hcd d hd
        refine ⟨i, _, hi, ?_, by simp [Obj.cons]⟩
        intro e; subst e; rw [ho] at hi; cases hi
      exact ⟨s1, e1, i1⟩
    · exact .inl rfl
  | send i p =>
    simp only [step]
    split
    · rename_i n c l ho
      exact h.listAdd fun d hd => h.con_of ho (by simp [Obj.cons, hd])
    · exact .inl rfl

theorem reach_inv {s : State} (h : Reach step {} s) : Inv [] [] s := by
  refine Reach.invariant (P := Inv [] []) Inv.init (fun s l s' hi hs => ?_) h
  rcases step_inv hi l with h1 | ⟨s1, h1, h2⟩
  · rw [h1] at hs; cases hs
  · rw [h1] at hs; cases hs; exact h2

end Gb.Buffers
