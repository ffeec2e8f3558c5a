import Verif.Spec.Proxy
import Verif.Lemmas.Buffers
/-
Reference counts of proxies, their remote objects, and requests.
-/
set_option autoImplicit false

namespace Gb.Proxy
open Gb.Buffers (total total_congr total_upd le_total total_pos)

/-- Does the proxy have a reference to `rm`? -/
def pts (rm : Nat) (o : Option Obj) : Nat := match o with | none => 0 | some o => if o.remote = rm then 1 else 0

/-- Does the transaction have a reference to request `r`? -/
def has (r : Nat) (x : Option Tx) : Nat := match x with | none => 0 | some x => if x.req = r then 1 else 0

/-- `dr`, `dp` and `dq` are references to remote objects, proxies and requests which are about to be dropped. -/
structure Inv (dr dp dq : List Nat) (s : State) : Prop where
  objN : ∀ p, s.obj p = none → p ∉ dp
  obj : ∀ p o, s.obj p = some o → p < s.no ∧ o.refs = o.held + o.queue.length + dp.count p ∧ 0 < o.refs ∧
    o.queue.Nodup ∧ (∀ t ∈ o.queue, ∃ x, s.tx t = some x ∧ x.proxy = some p)
  remoteN : ∀ rm, s.remote rm = none → total (fun p => pts rm (s.obj p)) s.no + dr.count rm = 0
  remote : ∀ rm x, s.remote rm = some x → rm < s.remotes ∧ 0 < x.refs ∧
    x.refs = x.held + total (fun p => pts rm (s.obj p)) s.no + dr.count rm
  reqN : ∀ r, s.req r = none → total (fun t => has r (s.tx t)) s.txs + dq.count r = 0
  req : ∀ r x, s.req r = some x → r < s.reqs ∧ 0 < x.refs ∧
    x.refs = x.held + total (fun t => has r (s.tx t)) s.txs + dq.count r
  tx : ∀ t x, s.tx t = some x → t < s.txs ∧ x.req < s.reqs ∧
    ∀ p, x.proxy = some p → ∃ o, s.obj p = some o ∧ t ∈ o.queue

theorem Inv.init : Inv [] [] [] {} where
  objN _ _ := by simp
  obj _ _ h := by cases h
  remoteN _ _ := rfl
  remote _ _ h := by cases h
  reqN _ _ := rfl
  req _ _ h := by cases h
  tx _ _ h := by cases h

theorem total_upd_of {α : Type} (g : Option α → Nat) (f : Nat → Option α) {n i : Nat} (v : Option α) (h : i < n) :
    total (fun j => g (upd f i v j)) n + g (f i) = total (fun j => g (f j)) n + g v := by
  have : (fun j => g (upd f i v j)) = upd (fun j => g (f j)) i (g v) := by
    funext j; by_cases hj : j = i
    · subst hj; simp [upd_same]
    · simp [upd_ne _ _ hj]
  rw [this]
  exact total_upd (f := fun j => g (f j)) (g v) h

theorem total_new {α : Type} (g : Option α → Nat) (f : Nat → Option α) (n : Nat) (v : Option α) :
    total (fun j => g (upd f n v j)) (n + 1) = total (fun j => g (f j)) n + g v := by
  simp only [total, upd_same]
  congr 1
  exact total_congr fun i hi => by rw [upd_ne _ _ (by omega)]

/-- The remote object of a proxy exists. -/
theorem Inv.alive {dr dp dq : List Nat} {s : State} (h : Inv dr dp dq s) {p : Nat} {o : Obj} (ho : s.obj p = some o) :
    ∃ x, s.remote o.remote = some x := by
  cases hr : s.remote o.remote with
  | some x => exact ⟨x, rfl⟩
  | none =>
    have h1 := h.remoteN _ hr
    have h2 := le_total (f := fun p => pts o.remote (s.obj p)) (h.obj p o ho).1
    have h3 : pts o.remote (s.obj p) = 1 := by rw [ho]; simp [pts]
    simp only [h3] at h2
    omega

/-- The request of a transaction exists. -/
theorem Inv.there {dr dp dq : List Nat} {s : State} (h : Inv dr dp dq s) {t : Nat} {x : Tx} (hx : s.tx t = some x) :
    ∃ q, s.req x.req = some q := by
  cases hr : s.req x.req with
  | some x => exact ⟨x, rfl⟩
  | none =>
    have h1 := h.reqN _ hr
    have h2 := le_total (f := fun t => has x.req (s.tx t)) (h.tx t x hx).1
    have h3 : has x.req (s.tx t) = 1 := by rw [hx]; simp [has]
    simp only [h3] at h2
    omega

/-- The log and the main thread don't matter. -/
theorem Inv.ext {dr dp dq : List Nat} {s s' : State} (h : Inv dr dp dq s) (h1 : s'.no = s.no) (h2 : s'.obj = s.obj)
    (h3 : s'.remotes = s.remotes) (h4 : s'.remote = s.remote) (h5 : s'.reqs = s.reqs) (h6 : s'.req = s.req)
    (h7 : s'.txs = s.txs) (h8 : s'.tx = s.tx) : Inv dr dp dq s' := by
  obtain ⟨a, b, c, d, e, f, g⟩ := h
  constructor <;> simp only [h1, h2, h3, h4, h5, h6, h7, h8] <;> assumption

theorem Inv.see {dr dp dq : List Nat} {s : State} (h : Inv dr dp dq s) (l : List Ev) : Inv dr dp dq (s.see l) :=
  h.ext rfl rfl rfl rfl rfl rfl rfl rfl

/-! ### References to remote objects -/

/-- Fields of a remote object, and its references. -/
theorem Inv.setRemote {dr dr' dp dq : List Nat} {s : State} (h : Inv dr dp dq s) {rm : Nat} {x y : Remote}
    (hx : s.remote rm = some x) (hy : 0 < y.refs) (he : y.refs + x.held + dr.count rm = x.refs + y.held + dr'.count rm)
    (hd : ∀ rm', rm' ≠ rm → dr'.count rm' = dr.count rm') : Inv dr' dp dq (s.setRemote rm (some y)) := by
  obtain ⟨a, b, c, d, e, f, g⟩ := h
  refine ⟨a, b, fun rm' hn => ?_, fun rm' x' hx' => ?_, e, f, g⟩
  · simp only [State.setRemote] at hn ⊢
    by_cases hr : rm' = rm
    · subst hr; rw [upd_same] at hn; cases hn
    · rw [upd_ne _ _ hr] at hn; rw [hd _ hr]; exact c _ hn
  · simp only [State.setRemote] at hx' ⊢
    by_cases hr : rm' = rm
    · subst hr; rw [upd_same] at hx'; cases hx'
      have := d _ _ hx
      exact ⟨this.1, hy, by omega⟩
    · rw [upd_ne _ _ hr] at hx'; rw [hd _ hr]; exact d _ _ hx'

theorem Inv.remoteUnref {dr dp dq : List Nat} {s : State} {rm : Nat} (h : Inv (rm :: dr) dp dq s) :
    ∃ s', s.remoteUnref rm true = .ok s' ∧ Inv dr dp dq s' := by
  obtain ⟨a, b, c, d, e, f, g⟩ := id h
  cases hx : s.remote rm with
  | none => have := c _ hx; simp at this
  | some x =>
    obtain ⟨d1, d2, d3⟩ := d _ _ hx
    rw [List.count_cons_self] at d3
    simp only [State.remoteUnref, hx]
    by_cases hr : x.refs ≤ 1
    · rw [if_pos hr]
      refine ⟨_, rfl, a, b, fun rm' hn => ?_, fun rm' x' hx' => ?_, e, f, g⟩
      · simp only [State.setRemote] at hn ⊢
        by_cases hr' : rm' = rm
        · subst hr'; omega
        · rw [upd_ne _ _ hr'] at hn
          have := c _ hn
          rwa [List.count_cons_of_ne (Ne.symm hr')] at this
      · simp only [State.setRemote] at hx' ⊢
        by_cases hr' : rm' = rm
        · subst hr'; rw [upd_same] at hx'; cases hx'
        · rw [upd_ne _ _ hr'] at hx'
          have := d _ _ hx'
          rwa [List.count_cons_of_ne (Ne.symm hr')] at this
    · rw [if_neg hr]
      refine ⟨_, rfl, h.setRemote hx (by simp only []; omega) ?_ fun rm' hr' => ?_⟩
      · simp only [if_true, List.count_cons_self]; omega
      · rw [List.count_cons_of_ne (Ne.symm hr')]

theorem Inv.remoteUnref' {dr dp dq : List Nat} {s : State} {rm : Nat} {x : Remote} (h : Inv dr dp dq s)
    (hx : s.remote rm = some x) (hh : 0 < x.held) :
    ∃ s', s.remoteUnref rm false = .ok s' ∧ Inv dr dp dq s' := by
  obtain ⟨a, b, c, d, e, f, g⟩ := id h
  obtain ⟨d1, d2, d3⟩ := d _ _ hx
  simp only [State.remoteUnref, hx]
  by_cases hr : x.refs ≤ 1
  · rw [if_pos hr]
    refine ⟨_, rfl, a, b, fun rm' hn => ?_, fun rm' x' hx' => ?_, e, f, g⟩
    · simp only [State.setRemote] at hn ⊢
      by_cases hr' : rm' = rm
      · subst hr'; omega
      · rw [upd_ne _ _ hr'] at hn
        exact c _ hn
    · simp only [State.setRemote] at hx' ⊢
      by_cases hr' : rm' = rm
      · subst hr'; rw [upd_same] at hx'; cases hx'
      · rw [upd_ne _ _ hr'] at hx'
        exact d _ _ hx'
  · rw [if_neg hr]
    exact ⟨_, rfl, h.setRemote hx (by simp only []; omega) (by simp; omega) fun _ _ => rfl⟩

/-! ### References to requests -/

theorem Inv.setReq {dr dp dq dq' : List Nat} {s : State} (h : Inv dr dp dq s) {r : Nat} {x y : Req}
    (hx : s.req r = some x) (hy : 0 < y.refs) (he : y.refs + x.held + dq.count r = x.refs + y.held + dq'.count r)
    (hd : ∀ r', r' ≠ r → dq'.count r' = dq.count r') : Inv dr dp dq' (s.setReq r (some y)) := by
  obtain ⟨a, b, c, d, e, f, g⟩ := h
  refine ⟨a, b, c, d, fun r' hn => ?_, fun r' x' hx' => ?_, g⟩
  · simp only [State.setReq] at hn ⊢
    by_cases hr : r' = r
    · subst hr; rw [upd_same] at hn; cases hn
    · rw [upd_ne _ _ hr] at hn; rw [hd _ hr]; exact e _ hn
  · simp only [State.setReq] at hx' ⊢
    by_cases hr : r' = r
    · subst hr; rw [upd_same] at hx'; cases hx'
      have := f _ _ hx
      exact ⟨this.1, hy, by omega⟩
    · rw [upd_ne _ _ hr] at hx'; rw [hd _ hr]; exact f _ _ hx'

/-- The last reference is dropped. -/
theorem Inv.freeReq {dr dp dq dq' : List Nat} {s : State} (h : Inv dr dp dq s) {r : Nat}
    (he : total (fun t => has r (s.tx t)) s.txs + dq'.count r = 0)
    (hd : ∀ r', r' ≠ r → dq'.count r' = dq.count r') : Inv dr dp dq' (s.setReq r none) := by
  obtain ⟨a, b, c, d, e, f, g⟩ := h
  refine ⟨a, b, c, d, fun r' hn => ?_, fun r' x' hx' => ?_, g⟩
  · simp only [State.setReq] at hn ⊢
    by_cases hr : r' = r
    · subst hr; exact he
    · rw [upd_ne _ _ hr] at hn; rw [hd _ hr]; exact e _ hn
  · simp only [State.setReq] at hx' ⊢
    by_cases hr : r' = r
    · subst hr; rw [upd_same] at hx'; cases hx'
    · rw [upd_ne _ _ hr] at hx'; rw [hd _ hr]; exact f _ _ hx'

theorem Inv.reqUnref {dr dp dq : List Nat} {s : State} {r : Nat} (h : Inv dr dp (r :: dq) s) :
    ∃ s', s.reqUnref r true = .ok s' ∧ Inv dr dp dq s' := by
  cases hx : s.req r with
  | none => have := h.reqN _ hx; simp at this
  | some x =>
    obtain ⟨d1, d2, d3⟩ := h.req _ _ hx
    rw [List.count_cons_self] at d3
    simp only [State.reqUnref, hx]
    by_cases hr : x.refs ≤ 1
    · rw [if_pos hr]
      refine ⟨_, rfl, ?_⟩
      have h1 : Inv dr dp dq (s.setReq r none) :=
        h.freeReq (by omega) fun r' hr' => by rw [List.count_cons_of_ne (Ne.symm hr')]
      split <;> exact h1.ext rfl rfl rfl rfl rfl rfl rfl rfl
    · rw [if_neg hr]
      refine ⟨_, rfl, h.setReq hx (by simp only []; omega) ?_ fun r' hr' => ?_⟩
      · simp only [if_true, List.count_cons_self]; omega
      · rw [List.count_cons_of_ne (Ne.symm hr')]

theorem Inv.reqUnref' {dr dp dq : List Nat} {s : State} {r : Nat} {x : Req} (h : Inv dr dp dq s)
    (hx : s.req r = some x) (hh : 0 < x.held) :
    ∃ s', s.reqUnref r false = .ok s' ∧ Inv dr dp dq s' := by
  obtain ⟨d1, d2, d3⟩ := h.req _ _ hx
  simp only [State.reqUnref, hx]
  by_cases hr : x.refs ≤ 1
  · rw [if_pos hr]
    refine ⟨_, rfl, ?_⟩
    have h1 : Inv dr dp dq (s.setReq r none) := h.freeReq (by omega) fun _ _ => rfl
    split <;> exact h1.ext rfl rfl rfl rfl rfl rfl rfl rfl
  · rw [if_neg hr]
    exact ⟨_, rfl, h.setReq hx (by simp only []; omega) (by simp; omega) fun _ _ => rfl⟩

theorem Inv.complete {dr dp dq : List Nat} {s : State} {r : Nat} {x : Req} (h : Inv dr dp dq s)
    (hx : s.req r = some x) (rep : Option Nat) (st : Int) :
    ∃ s', s.complete r rep st = .ok s' ∧ Inv dr dp dq s' := by
  simp only [State.complete, hx]
  refine ⟨_, rfl, ?_⟩
  split
  · exact (h.setReq (y := { x with tx := false }) hx (h.req _ _ hx).2.1 (by simp) fun _ _ => rfl).ext rfl rfl rfl rfl rfl rfl rfl rfl
  · exact h

/-! ### References to proxies -/

theorem pts_set {s : State} {p rm : Nat} {x y : Obj} (hx : s.obj p = some x) (hr : y.remote = x.remote) :
    (fun p' => pts rm (upd s.obj p (some y) p')) = fun p' => pts rm (s.obj p') := by
  funext p'
  by_cases hp : p' = p
  · subst hp; rw [upd_same, hx]; simp [pts, hr]
  · rw [upd_ne _ _ hp]

theorem Inv.setObj {dr dp dp' dq : List Nat} {s : State} (h : Inv dr dp dq s) {p : Nat} {x y : Obj}
    (hx : s.obj p = some x) (hr : y.remote = x.remote) (hq : y.queue = x.queue) (hy : 0 < y.refs)
    (he : y.refs + x.held + dp.count p = x.refs + y.held + dp'.count p)
    (hd : ∀ p', p' ≠ p → dp'.count p' = dp.count p') : Inv dr dp' dq (s.setObj p (some y)) := by
  obtain ⟨a, b, c, d, e, f, g⟩ := h
  have ht : ∀ rm, (fun p' => pts rm (upd s.obj p (some y) p')) = fun p' => pts rm (s.obj p') := fun rm =>
    pts_set hx hr
  refine ⟨fun p' hn => ?_, fun p' o' ho' => ?_, fun rm hn => ?_, fun rm x' hx' => ?_, e, f, fun t x' hx' => ?_⟩
  · simp only [State.setObj] at hn
    by_cases hp : p' = p
    · subst hp; rw [upd_same] at hn; cases hn
    · rw [upd_ne _ _ hp] at hn
      rw [← List.count_eq_zero, hd _ hp, List.count_eq_zero]; exact a _ hn
  · simp only [State.setObj] at ho' ⊢
    by_cases hp : p' = p
    · subst hp; rw [upd_same] at ho'; cases ho'
      obtain ⟨b1, b2, b3, b4, b5⟩ := b _ _ hx
      exact ⟨b1, by rw [hq]; omega, hy, by rw [hq]; exact b4, by rw [hq]; exact b5⟩
    · rw [upd_ne _ _ hp] at ho'; rw [hd _ hp]; exact b _ _ ho'
  · simp only [State.setObj, ht]; exact c _ hn
  · simp only [State.setObj, ht]; exact d _ _ hx'
  · obtain ⟨g1, g2, g3⟩ := g _ _ hx'
    refine ⟨g1, g2, fun p' hp' => ?_⟩
    obtain ⟨o, ho, hto⟩ := g3 _ hp'
    simp only [State.setObj]
    by_cases hp : p' = p
    · subst hp; rw [upd_same]
      rw [hx] at ho; cases ho
      exact ⟨y, rfl, by rw [hq]; exact hto⟩
    · rw [upd_ne _ _ hp]; exact ⟨o, ho, hto⟩

/-- gbinder_proxy_object_finalize -/
theorem Inv.freeObj {dr dp dp' dq : List Nat} {s : State} (h : Inv dr dp dq s) {p : Nat} {x : Obj}
    (hx : s.obj p = some x) (hq : x.queue = []) (hp : p ∉ dp')
    (hd : ∀ p', p' ≠ p → dp'.count p' = dp.count p') : Inv (x.remote :: dr) dp' dq (s.setObj p none) := by
  obtain ⟨a, b, c, d, e, f, g⟩ := h
  have ht : ∀ rm, total (fun p' => pts rm (upd s.obj p none p')) s.no + pts rm (some x) =
      total (fun p' => pts rm (s.obj p')) s.no := fun rm => by
    have h1 := total_upd_of (pts rm) s.obj none (b _ _ hx).1
    rw [hx] at h1
    have h2 : pts rm none = 0 := rfl
    omega
  have hc : ∀ rm, (x.remote :: dr).count rm = dr.count rm + pts rm (some x) := fun rm => by
    rw [List.count_cons]; simp only [pts, beq_iff_eq]
  refine ⟨fun p' hn => ?_, fun p' o' ho' => ?_, fun rm hn => ?_, fun rm x' hx' => ?_, e, f, fun t x' hx' => ?_⟩
  · simp only [State.setObj] at hn
    by_cases hpp : p' = p
    · subst hpp; exact hp
    · rw [upd_ne _ _ hpp] at hn
      rw [← List.count_eq_zero, hd _ hpp, List.count_eq_zero]; exact a _ hn
  · simp only [State.setObj] at ho' ⊢
    by_cases hpp : p' = p
    · subst hpp; rw [upd_same] at ho'; cases ho'
    · rw [upd_ne _ _ hpp] at ho'; rw [hd _ hpp]; exact b _ _ ho'
  · simp only [State.setObj] at hn ⊢
    have h1 := ht rm; have h2 := hc rm; have h3 := c _ hn
    omega
  · simp only [State.setObj] at hx' ⊢
    have h1 := ht rm; have h2 := hc rm; have h3 := d _ _ hx'
    exact ⟨h3.1, h3.2.1, by omega⟩
  · obtain ⟨g1, g2, g3⟩ := g _ _ hx'
    refine ⟨g1, g2, fun p' hp' => ?_⟩
    obtain ⟨o, ho, hto⟩ := g3 _ hp'
    simp only [State.setObj]
    by_cases hpp : p' = p
    · subst hpp; rw [hx] at ho; cases ho
      rw [hq] at hto; cases hto
    · rw [upd_ne _ _ hpp]; exact ⟨o, ho, hto⟩

theorem Inv.objUnref {dr dp dq : List Nat} {s : State} {p : Nat} (h : Inv dr (p :: dp) dq s) :
    ∃ s', s.objUnref p true = .ok s' ∧ Inv dr dp dq s' := by
  cases hx : s.obj p with
  | none => exact absurd (h.objN _ hx) (by simp)
  | some x =>
    obtain ⟨b1, b2, b3, b4, b5⟩ := h.obj _ _ hx
    rw [List.count_cons_self] at b2
    obtain ⟨y, hy⟩ := h.alive hx
    simp only [State.objUnref, hx, hy]
    by_cases hr : x.refs ≤ 1
    · rw [if_pos hr]
      have hq : x.queue = [] := List.eq_nil_of_length_eq_zero (by omega)
      have h1 := h.freeObj (dp' := dp) hx hq (by rw [← List.count_eq_zero]; omega)
        fun p' hp' => by rw [List.count_cons_of_ne (Ne.symm hp')]
      exact (h1.ext (s' := (s.see _).setObj p none) rfl rfl rfl rfl rfl rfl rfl rfl).remoteUnref
    · rw [if_neg hr]
      refine ⟨_, rfl, h.setObj hx rfl rfl (by simp only []; omega) ?_ fun r' hr' => ?_⟩
      · simp only [if_true, List.count_cons_self]; omega
      · rw [List.count_cons_of_ne (Ne.symm hr')]

theorem Inv.objUnref' {dr dp dq : List Nat} {s : State} {p : Nat} {x : Obj} (h : Inv dr dp dq s)
    (hx : s.obj p = some x) (hh : 0 < x.held) :
    ∃ s', s.objUnref p false = .ok s' ∧ Inv dr dp dq s' := by
  obtain ⟨b1, b2, b3, b4, b5⟩ := h.obj _ _ hx
  obtain ⟨y, hy⟩ := h.alive hx
  simp only [State.objUnref, hx, hy]
  by_cases hr : x.refs ≤ 1
  · rw [if_pos hr]
    have hq : x.queue = [] := List.eq_nil_of_length_eq_zero (by omega)
    have h1 := h.freeObj (dp' := dp) hx hq (by rw [← List.count_eq_zero]; omega) fun _ _ => rfl
    exact (h1.ext (s' := (s.see _).setObj p none) rfl rfl rfl rfl rfl rfl rfl rfl).remoteUnref
  · rw [if_neg hr]
    exact ⟨_, rfl, h.setObj hx rfl rfl (by simp only []; omega) (by simp; omega) fun _ _ => rfl⟩

theorem has_set {s : State} {t r : Nat} {x y : Tx} (hx : s.tx t = some x) (hr : y.req = x.req) :
    (fun t' => has r (upd s.tx t (some y) t')) = fun t' => has r (s.tx t') := by
  funext p'
  by_cases hp : p' = t
  · subst hp; rw [upd_same, hx]; simp [has, hr]
  · rw [upd_ne _ _ hp]

/-- Fields of a transaction. -/
theorem Inv.setTx {dr dp dq : List Nat} {s : State} (h : Inv dr dp dq s) {t : Nat} {x y : Tx}
    (hx : s.tx t = some x) (hr : y.req = x.req) (hp : y.proxy = x.proxy) : Inv dr dp dq (s.setTx t (some y)) := by
  obtain ⟨a, b, c, d, e, f, g⟩ := h
  have ht : ∀ r, (fun p' => has r (upd s.tx t (some y) p')) = fun p' => has r (s.tx p') := fun rm => has_set hx hr
  refine ⟨a, fun p o ho => ?_, c, d, fun r hn => ?_, fun r x' hx' => ?_, fun t' x' hx' => ?_⟩
  · obtain ⟨b1, b2, b3, b4, b5⟩ := b _ _ ho
    refine ⟨b1, b2, b3, b4, fun t' ht' => ?_⟩
    obtain ⟨z, hz, hzp⟩ := b5 _ ht'
    simp only [State.setTx]
    by_cases hh : t' = t
    · subst hh; rw [upd_same]; rw [hx] at hz; cases hz; exact ⟨y, rfl, by rw [hp]; exact hzp⟩
    · rw [upd_ne _ _ hh]; exact ⟨z, hz, hzp⟩
  · simp only [State.setTx, ht]; exact e _ hn
  · simp only [State.setTx, ht]; exact f _ _ hx'
  · simp only [State.setTx] at hx' ⊢
    by_cases hh : t' = t
    · subst hh; rw [upd_same] at hx'; cases hx'
      rw [hr, hp]; exact g _ _ hx
    · rw [upd_ne _ _ hh] at hx'; exact g _ _ hx'

/-- The transaction is removed from the list. -/
theorem Inv.remove {dr dp dq : List Nat} {s : State} (h : Inv dr dp dq s) {t p : Nat} {x : Tx} {o : Obj}
    (hx : s.tx t = some x) (hp : x.proxy = some p) (ho : s.obj p = some o) :
    Inv dr (p :: dp) dq ((s.setObj p (some { o with queue := o.queue.erase t })).setTx t
      (some { x with proxy := none })) := by
  obtain ⟨a, b, c, d, e, f, g⟩ := h
  have ht : ∀ r, (fun p' => has r (upd s.tx t (some { x with proxy := none }) p')) = fun p' => has r (s.tx p') :=
    fun rm => has_set hx rfl
  have ht' : ∀ rm, (fun p' => pts rm (upd s.obj p (some { o with queue := o.queue.erase t }) p')) =
      fun p' => pts rm (s.obj p') := fun rm => pts_set ho rfl
  obtain ⟨o', ho', hto⟩ := (g _ _ hx).2.2 _ hp
  rw [ho] at ho'; cases ho'
  refine ⟨fun p' hn => ?_, fun p' o' ho' => ?_, fun rm hn => ?_, fun rm x' hx' => ?_, fun r hn => ?_,
    fun r x' hx' => ?_, fun t' x' hx' => ?_⟩
  · simp only [State.setObj, State.setTx] at hn
    by_cases hh : p' = p
    · subst hh; rw [upd_same] at hn; cases hn
    · rw [upd_ne _ _ hh] at hn
      simp [hh, a _ hn]
  · simp only [State.setObj, State.setTx] at ho' ⊢
    by_cases hh : p' = p
    · subst hh; rw [upd_same] at ho'; cases ho'
      obtain ⟨b1, b2, b3, b4, b5⟩ := b _ _ ho
      refine ⟨b1, ?_, b3, b4.erase t, fun t' ht' => ?_⟩
      · simp only [List.count_cons_self, List.length_erase_of_mem hto]
        have := List.length_pos_of_mem hto
        omega
      · have hn : t' ≠ t := fun he => by subst he; exact (List.Nodup.not_mem_erase b4) ht'
        rw [upd_ne _ _ hn]
        exact b5 _ (List.mem_of_mem_erase ht')
    · rw [upd_ne _ _ hh] at ho'
      obtain ⟨b1, b2, b3, b4, b5⟩ := b _ _ ho'
      refine ⟨b1, by rw [List.count_cons_of_ne (Ne.symm hh)]; exact b2, b3, b4, fun t' ht' => ?_⟩
      obtain ⟨z, hz, hzp⟩ := b5 _ ht'
      have hn : t' ≠ t := fun he => by subst he; rw [hx] at hz; cases hz; rw [hp] at hzp; cases hzp; exact hh rfl
      rw [upd_ne _ _ hn]
      exact ⟨z, hz, hzp⟩
  · simp only [State.setObj, State.setTx, ht']; exact c _ hn
  · simp only [State.setObj, State.setTx, ht']; exact d _ _ hx'
  · simp only [State.setObj, State.setTx, ht]; exact e _ hn
  · simp only [State.setObj, State.setTx, ht]; exact f _ _ hx'
  · simp only [State.setObj, State.setTx] at hx' ⊢
    by_cases hh : t' = t
    · subst hh; rw [upd_same] at hx'; cases hx'
      refine ⟨(g _ _ hx).1, (g _ _ hx).2.1, fun p' hp' => by cases hp'⟩
    · rw [upd_ne _ _ hh] at hx'
      obtain ⟨g1, g2, g3⟩ := g _ _ hx'
      refine ⟨g1, g2, fun p' hp' => ?_⟩
      obtain ⟨o', ho', hto'⟩ := g3 _ hp'
      by_cases hpp : p' = p
      · subst hpp; rw [ho] at ho'; cases ho'
        rw [upd_same]; exact ⟨_, rfl, (List.mem_erase_of_ne hh).2 hto'⟩
      · rw [upd_ne _ _ hpp]; exact ⟨o', ho', hto'⟩

theorem Inv.dequeue {dr dp dq : List Nat} {s : State} (h : Inv dr dp dq s) {t : Nat} {x : Tx}
    (hx : s.tx t = some x) : ∃ s', s.dequeue t = .ok s' ∧ Inv dr dp dq s' := by
  simp only [State.dequeue, hx]
  cases hp : x.proxy with
  | none => exact ⟨s, rfl, h⟩
  | some p =>
    obtain ⟨o, ho, hto⟩ := (h.tx _ _ hx).2.2 _ hp
    simp only [ho]
    rw [if_pos]
    · exact (h.remove hx hp ho).objUnref
    · rw [List.all_eq_true]
      intro q hq
      obtain ⟨z, hz, _⟩ := (h.obj _ _ ho).2.2.2.2 _ hq
      simp [hz]

/-- gbinder_proxy_tx_destroy: there are no pointers to the transaction. -/
theorem Inv.freeTx {dr dp dq : List Nat} {s : State} (h : Inv dr dp dq s) {t : Nat} {x : Tx}
    (hx : s.tx t = some x) (hp : x.proxy = none) : Inv dr dp (x.req :: dq) (s.setTx t none) := by
  obtain ⟨a, b, c, d, e, f, g⟩ := h
  have ht : ∀ r, total (fun p' => has r (upd s.tx t none p')) s.txs + has r (some x) =
      total (fun p' => has r (s.tx p')) s.txs := fun r => by
    have h1 := total_upd_of (has r) s.tx none (g _ _ hx).1
    rw [hx] at h1
    have h2 : has r none = 0 := rfl
    omega
  have hc : ∀ r, (x.req :: dq).count r = dq.count r + has r (some x) := fun r => by
    rw [List.count_cons]; simp only [has, beq_iff_eq]
  refine ⟨a, fun p o ho => ?_, c, d, fun r hn => ?_, fun r x' hx' => ?_, fun t' x' hx' => ?_⟩
  · obtain ⟨b1, b2, b3, b4, b5⟩ := b _ _ ho
    refine ⟨b1, b2, b3, b4, fun t' ht' => ?_⟩
    obtain ⟨z, hz, hzp⟩ := b5 _ ht'
    have hn : t' ≠ t := fun he => by subst he; rw [hx] at hz; cases hz; rw [hp] at hzp; cases hzp
    simp only [State.setTx]
    rw [upd_ne _ _ hn]; exact ⟨z, hz, hzp⟩
  · simp only [State.setTx] at hn ⊢
    have h1 := ht r; have h2 := hc r; have h3 := e _ hn
    omega
  · simp only [State.setTx] at hx' ⊢
    have h1 := ht r; have h2 := hc r; have h3 := f _ _ hx'
    exact ⟨h3.1, h3.2.1, by omega⟩
  · simp only [State.setTx] at hx' ⊢
    by_cases hh : t' = t
    · subst hh; rw [upd_same] at hx'; cases hx'
    · rw [upd_ne _ _ hh] at hx'; exact g _ _ hx'

/-! ### What doesn't change -/

/-- The objects of others. -/
structure Frame (s s' : State) : Prop where
  no : s'.no = s.no
  remotes : s'.remotes = s.remotes
  reqs : s'.reqs = s.reqs
  txs : s'.txs = s.txs
  tx : s'.tx = s.tx
  req : s'.req = s.req
  main : s'.main = s.main

/-- What is done to the handle of the remote object in the end. -/
def last (p : Nat) (o : Obj) : List Ev := if o.acquired then [.release p o.remote, .freed p] else [.freed p]

theorem remoteUnref_spec {s s' : State} {rm : Nat} {m : Bool} (h : s.remoteUnref rm m = .ok s') :
    Frame s s' ∧ s'.obj = s.obj ∧ s'.log = s.log ∧ ∀ rm' y, s'.remote rm' = some y →
      ∃ x, s.remote rm' = some x ∧ y.dead = x.dead ∧ y.ipc = x.ipc ∧ y.handle = x.handle := by
  simp only [State.remoteUnref] at h
  split at h
  · cases h
  · rename_i x hx
    split at h <;> cases h
    · refine ⟨⟨rfl, rfl, rfl, rfl, rfl, rfl, rfl⟩, rfl, rfl, fun rm' y hy => ?_⟩
      simp only [State.setRemote] at hy
      by_cases hr : rm' = rm
      · subst hr; rw [upd_same] at hy; cases hy
      · rw [upd_ne _ _ hr] at hy; exact ⟨y, hy, rfl, rfl, rfl⟩
    · refine ⟨⟨rfl, rfl, rfl, rfl, rfl, rfl, rfl⟩, rfl, rfl, fun rm' y hy => ?_⟩
      simp only [State.setRemote] at hy
      by_cases hr : rm' = rm
      · subst hr; rw [upd_same] at hy; cases hy; exact ⟨x, hx, rfl, rfl, rfl⟩
      · rw [upd_ne _ _ hr] at hy; exact ⟨y, hy, rfl, rfl, rfl⟩

theorem objUnref_spec {s s' : State} {p : Nat} {m : Bool} (h : s.objUnref p m = .ok s') :
    ∃ o, s.obj p = some o ∧ Frame s s' ∧
      (∀ rm' y, s'.remote rm' = some y →
        ∃ x, s.remote rm' = some x ∧ y.dead = x.dead ∧ y.ipc = x.ipc ∧ y.handle = x.handle) ∧
      ((o.refs ≤ 1 ∧ s'.obj = upd s.obj p none ∧ s'.log = s.log ++ last p o) ∨
       (1 < o.refs ∧ s'.log = s.log ∧ s'.obj = upd s.obj p
          (some { o with refs := o.refs - 1, held := if m then o.held else o.held - 1 }))) := by
  simp only [State.objUnref] at h
  split at h
  · cases h
  · rename_i o ho
    refine ⟨o, ho, ?_⟩
    split at h
    · rename_i hr
      split at h
      · cases h
      · obtain ⟨⟨f1, f2, f3, f4, f5, f6, f7⟩, h2, h3, h4⟩ := remoteUnref_spec h
        exact ⟨⟨f1, f2, f3, f4, f5, f6, f7⟩, h4, .inl ⟨hr, h2, h3⟩⟩
    · rename_i hr
      cases h
      exact ⟨⟨rfl, rfl, rfl, rfl, rfl, rfl, rfl⟩, fun _ y hy => ⟨y, hy, rfl, rfl, rfl⟩, .inr ⟨by omega, rfl, rfl⟩⟩

/-- Transactions which aren't finished are in the list. -/
def Ready (s : State) : Prop := ∀ t x, s.tx t = some x → x.replied = false → x.proxy.isSome = true

/-- Where tx->proxy and so on are after gbinder_proxy_tx_dequeue. -/
theorem dequeue_tx {s s' : State} {t : Nat} {x : Tx} (hx : s.tx t = some x) (h : s.dequeue t = .ok s') :
    s'.tx = upd s.tx t (some { x with proxy := none }) ∧ s'.txs = s.txs ∧ s'.main = s.main ∧ s'.req = s.req ∧
      s'.reqs = s.reqs := by
  simp only [State.dequeue, hx] at h
  split at h
  · rename_i hp
    cases h
    refine ⟨?_, rfl, rfl, rfl, rfl⟩
    funext t'
    by_cases ht : t' = t
    · subst ht; rw [upd_same, hx]; cases x; cases hp; rfl
    · rw [upd_ne _ _ ht]
  · split at h
    · cases h
    · split at h
      · obtain ⟨o, _, hf, _⟩ := objUnref_spec h
        exact ⟨hf.tx, hf.txs, hf.main, hf.req, hf.reqs⟩
      · cases h

theorem complete_tx {s s' : State} {r : Nat} {rep : Option Nat} {st : Int} (h : s.complete r rep st = .ok s') :
    s'.tx = s.tx ∧ s'.main = s.main ∧ s'.obj = s.obj := by
  simp only [State.complete] at h
  split at h
  · cases h
  · cases h; split <;> exact ⟨rfl, rfl, rfl⟩

theorem reqUnref_tx {s s' : State} {r : Nat} {m : Bool} (h : s.reqUnref r m = .ok s') :
    s'.tx = s.tx ∧ s'.main = s.main ∧ s'.obj = s.obj := by
  simp only [State.reqUnref] at h
  split at h
  · cases h
  · split at h <;> cases h
    · split <;> exact ⟨rfl, rfl, rfl⟩
    · exact ⟨rfl, rfl, rfl⟩

theorem Ready.of_tx {s s' : State} (h : Ready s) (he : s'.tx = s.tx) : Ready s' := by
  intro t x hx; rw [he] at hx; exact h t x hx

theorem Ready.upd {s s' : State} (h : Ready s) {t : Nat} {y : Tx} (he : s'.tx = upd s.tx t (some y))
    (hy : y.replied = true ∨ y.proxy.isSome = true) : Ready s' := by
  intro t' x hx hr
  rw [he] at hx
  by_cases ht : t' = t
  · subst ht; rw [upd_same] at hx; cases hx
    rcases hy with hy | hy
    · rw [hy] at hr; cases hr
    · exact hy
  · rw [upd_ne _ _ ht] at hx; exact h t' x hx hr

theorem some_of_any {α : Type} {o : Option α} {f : α → Bool} (h : o.any f = true) : ∃ x, o = some x ∧ f x = true := by
  cases o with
  | none => cases h
  | some x => exact ⟨x, rfl, h⟩

theorem Inv.create {s : State} (h : Inv [] [] [] s) {ipc rm : Nat} {x : Remote} (hx : s.remote rm = some x) :
    ∃ s', s.create ipc rm = .ok s' ∧ Inv [] [] [] s' ∧ s'.tx = s.tx := by
  simp only [State.create, hx]
  refine ⟨_, rfl, ?_, rfl⟩
  obtain ⟨a, b, c, d, e, f, g⟩ := h
  have hn : s.obj s.no = none := by
    cases ho : s.obj s.no with
    | none => rfl
    | some o => have := (b _ _ ho).1; omega
  refine ⟨fun _ _ => by simp, fun p o ho => ?_, fun rm' hr => ?_, fun rm' y hy => ?_, e, f, fun t y hy => ?_⟩
  · simp only [State.setObj, State.setRemote, State.see] at ho ⊢
    by_cases hp : p = s.no
    · subst hp; rw [upd_same] at ho; cases ho
      exact ⟨by omega, rfl, Nat.one_pos, List.nodup_nil, fun t ht => by cases ht⟩
    · rw [upd_ne _ _ hp] at ho
      obtain ⟨b1, b2⟩ := b _ _ ho
      exact ⟨by omega, b2⟩
  · simp only [State.setObj, State.setRemote, State.see] at hr ⊢
    by_cases hp : rm' = rm
    · subst hp; rw [upd_same] at hr; cases hr
    · rw [upd_ne _ _ hp] at hr
      rw [total_new]
      have := c _ hr
      simp only [pts, List.count_nil]
      rw [if_neg (Ne.symm hp)]
      exact this
  · simp only [State.setObj, State.setRemote, State.see] at hy ⊢
    rw [total_new]
    by_cases hp : rm' = rm
    · subst hp; rw [upd_same] at hy; cases hy
      obtain ⟨d1, d2, d3⟩ := d _ _ hx
      refine ⟨d1, by simp, ?_⟩
      have h1 : pts rm' (some { refs := 1, held := 1, ipc := ipc, remote := rm' }) = 1 := by simp [pts]
      simp only []
      rw [h1]
      omega
    · rw [upd_ne _ _ hp] at hy
      obtain ⟨d1, d2, d3⟩ := d _ _ hy
      have h1 : pts rm' (some { refs := 1, held := 1, ipc := ipc, remote := rm }) = 0 := by simp [pts, Ne.symm hp]
      rw [h1]
      exact ⟨d1, d2, by omega⟩
  · obtain ⟨g1, g2, g3⟩ := g _ _ hy
    refine ⟨g1, g2, fun p hp => ?_⟩
    obtain ⟨o, ho, hto⟩ := g3 _ hp
    have hne : p ≠ s.no := fun he => by subst he; rw [hn] at ho; cases ho
    simp only [State.setObj, State.setRemote, State.see]
    rw [upd_ne _ _ hne]
    exact ⟨o, ho, hto⟩

/-- A new request, which is forwarded. -/
theorem Inv.forward {s s' : State} (h : Inv [] [] [] s) {p : Nat} {o : Obj} {b : Bool} (ho : s.obj p = some o)
    (h1 : s'.no = s.no)
    (h2 : s'.obj = upd s.obj p (some { o with refs := o.refs + 1, queue := s.txs :: o.queue }))
    (h3 : s'.remotes = s.remotes) (h4 : s'.remote = s.remote) (h5 : s'.reqs = s.reqs + 1)
    (h6 : s'.req = upd s.req s.reqs (some { refs := 2, held := 1, tx := b }))
    (h7 : s'.txs = s.txs + 1) (h8 : s'.tx = upd s.tx s.txs (some { req := s.reqs, proxy := some p })) :
    Inv [] [] [] s' := by
  obtain ⟨a, b, c, d, e, f, g⟩ := h
  have ht' : ∀ rm, (fun p' => pts rm (upd s.obj p (some { o with refs := o.refs + 1, queue := s.txs :: o.queue }) p')) =
      fun p' => pts rm (s.obj p') := fun rm => pts_set ho rfl
  have hq : s.req s.reqs = none := by
    cases hr : s.req s.reqs with
    | none => rfl
    | some q => have := (f _ _ hr).1; omega
  have hnew : s.tx s.txs = none := by
    cases hr : s.tx s.txs with
    | none => rfl
    | some q => have := (g _ _ hr).1; omega
  have hni : ∀ p' o', s.obj p' = some o' → s.txs ∉ o'.queue := fun p' o' ho' hi => by
    obtain ⟨x, hx, _⟩ := (b _ _ ho').2.2.2.2 _ hi
    rw [hnew] at hx; cases hx
  refine ⟨fun _ _ => by simp, fun p' o' ho' => ?_, fun rm hr => ?_, fun rm y hy => ?_, fun r hr => ?_,
    fun r y hy => ?_, fun t y hy => ?_⟩
  · rw [h2] at ho'; rw [h1, h8]
    have hkeep : ∀ t ∈ o'.queue, t ≠ s.txs → ∀ p'', (∃ x, s.tx t = some x ∧ x.proxy = some p'') →
        ∃ x, upd s.tx s.txs (some { req := s.reqs, proxy := some p }) t = some x ∧ x.proxy = some p'' :=
      fun t _ ht p'' hx => by rw [upd_ne _ _ ht]; exact hx
    by_cases hp : p' = p
    · subst hp; rw [upd_same] at ho'; cases ho'
      obtain ⟨b1, b2, b3, b4, b5⟩ := b _ _ ho
      refine ⟨b1, ?_, by simp, List.nodup_cons.2 ⟨hni _ _ ho, b4⟩, fun t ht => ?_⟩
      · simp only [List.length_cons]; omega
      · by_cases htt : t = s.txs
        · subst htt; rw [upd_same]; exact ⟨_, rfl, rfl⟩
        · rw [upd_ne _ _ htt]
          rcases List.mem_cons.1 ht with h | h
          · exact absurd h htt
          · exact b5 _ h
    · rw [upd_ne _ _ hp] at ho'
      obtain ⟨b1, b2, b3, b4, b5⟩ := b _ _ ho'
      refine ⟨b1, b2, b3, b4, fun t ht => ?_⟩
      have htt : t ≠ s.txs := fun he => by subst he; exact hni _ _ ho' ht
      rw [upd_ne _ _ htt]
      exact b5 _ ht
  · rw [h4] at hr; rw [h1, h2, ht']; exact c _ hr
  · rw [h4] at hy; rw [h1, h2, h3, ht']; exact d _ _ hy
  · rw [h6] at hr; rw [h7, h8, total_new]
    by_cases hrr : r = s.reqs
    · subst hrr; rw [upd_same] at hr; cases hr
    · rw [upd_ne _ _ hrr] at hr
      have := e _ hr
      simp only [has]
      rw [if_neg (Ne.symm hrr)]
      exact this
  · rw [h6] at hy; rw [h5, h7, h8, total_new]
    by_cases hrr : r = s.reqs
    · subst hrr; rw [upd_same] at hy; cases hy
      have := e _ hq
      have h1 : has s.reqs (some { req := s.reqs, proxy := some p }) = 1 := by simp [has]
      rw [h1]
      exact ⟨by omega, by simp, by simp only []; omega⟩
    · rw [upd_ne _ _ hrr] at hy
      obtain ⟨f1, f2, f3⟩ := f _ _ hy
      have h1 : has r (some { req := s.reqs, proxy := some p }) = 0 := by simp [has, Ne.symm hrr]
      rw [h1]
      exact ⟨by omega, f2, by omega⟩
  · rw [h8] at hy; rw [h2, h5, h7]
    by_cases htt : t = s.txs
    · subst htt; rw [upd_same] at hy; cases hy
      refine ⟨by omega, by simp, fun p' hp' => ?_⟩
      cases hp'
      rw [upd_same]
      exact ⟨_, rfl, by simp⟩
    · rw [upd_ne _ _ htt] at hy
      obtain ⟨g1, g2, g3⟩ := g _ _ hy
      refine ⟨by omega, by omega, fun p' hp' => ?_⟩
      obtain ⟨o', ho', hto⟩ := g3 _ hp'
      by_cases hp : p' = p
      · subst hp; rw [ho] at ho'; cases ho'
        rw [upd_same]; exact ⟨_, rfl, by simp [hto]⟩
      · rw [upd_ne _ _ hp]; exact ⟨o', ho', hto⟩

/-- A new request, which isn't. -/
theorem Inv.refuse {s s' : State} (h : Inv [] [] [] s) {b : Bool}
    (h1 : s'.no = s.no) (h2 : s'.obj = s.obj) (h3 : s'.remotes = s.remotes) (h4 : s'.remote = s.remote)
    (h5 : s'.reqs = s.reqs + 1) (h6 : s'.req = upd s.req s.reqs (some { refs := 1, held := 1, tx := b }))
    (h7 : s'.txs = s.txs) (h8 : s'.tx = s.tx) : Inv [] [] [] s' := by
  obtain ⟨a, b, c, d, e, f, g⟩ := h
  have hq : s.req s.reqs = none := by
    cases hr : s.req s.reqs with
    | none => rfl
    | some q => have := (f _ _ hr).1; omega
  refine ⟨fun _ _ => by simp, by rw [h1, h2, h8]; exact b, by rw [h1, h2, h4]; exact c,
    by rw [h1, h2, h3, h4]; exact d, fun r hr => ?_, fun r y hy => ?_, fun t y hy => ?_⟩
  · rw [h6] at hr; rw [h7, h8]
    by_cases hrr : r = s.reqs
    · subst hrr; rw [upd_same] at hr; cases hr
    · rw [upd_ne _ _ hrr] at hr; exact e _ hr
  · rw [h6] at hy; rw [h5, h7, h8]
    by_cases hrr : r = s.reqs
    · subst hrr; rw [upd_same] at hy; cases hy
      have := e _ hq
      exact ⟨by omega, by simp, by simp only []; omega⟩
    · rw [upd_ne _ _ hrr] at hy
      obtain ⟨f1, f2, f3⟩ := f _ _ hy
      exact ⟨by omega, f2, f3⟩
  · rw [h8] at hy; rw [h2, h5, h7]
    obtain ⟨g1, g2, g3⟩ := g _ _ hy
    exact ⟨g1, by omega, g3⟩

theorem Inv.newRemote {s s' : State} (h : Inv [] [] [] s) {ipc handle : Nat}
    (h1 : s'.no = s.no) (h2 : s'.obj = s.obj) (h3 : s'.remotes = s.remotes + 1)
    (h4 : s'.remote = upd s.remote s.remotes (some { refs := 1, held := 1, ipc, handle }))
    (h5 : s'.reqs = s.reqs) (h6 : s'.req = s.req) (h7 : s'.txs = s.txs) (h8 : s'.tx = s.tx) : Inv [] [] [] s' := by
  obtain ⟨a, b, c, d, e, f, g⟩ := h
  have hq : s.remote s.remotes = none := by
    cases hr : s.remote s.remotes with
    | none => rfl
    | some q => have := (d _ _ hr).1; omega
  refine ⟨fun _ _ => by simp, by rw [h1, h2, h8]; exact b, fun r hr => ?_, fun r y hy => ?_,
    by rw [h6, h7, h8]; exact e, by rw [h5, h6, h7, h8]; exact f, by rw [h2, h5, h7, h8]; exact g⟩
  · rw [h4] at hr; rw [h1, h2]
    by_cases hrr : r = s.remotes
    · subst hrr; rw [upd_same] at hr; cases hr
    · rw [upd_ne _ _ hrr] at hr; exact c _ hr
  · rw [h4] at hy; rw [h1, h2, h3]
    by_cases hrr : r = s.remotes
    · subst hrr; rw [upd_same] at hy; cases hy
      have := c _ hq
      exact ⟨by omega, by simp, by simp only []; omega⟩
    · rw [upd_ne _ _ hrr] at hy
      obtain ⟨f1, f2, f3⟩ := d _ _ hy
      exact ⟨by omega, f2, f3⟩

/-- A step which is allowed either happens, or can't happen, or it's gbinder_proxy_object.c:214 for a proxy which is
gone. -/
theorem Inv.step {s : State} (h : Inv [] [] [] s) (hr : Ready s) {l : Label} (hok : Ok s l) :
    (∃ s', step s l = .ok s' ∧ Inv [] [] [] s' ∧ Ready s') ∨ step s l = .no ∨
      (l = .suicide ∧ ∃ p, s.main = some p ∧ s.obj p = none) := by
  unfold Ok at hok
  cases l with
  | newRemote ipc handle =>
    exact .inl ⟨_, rfl, h.newRemote rfl rfl rfl rfl rfl rfl rfl rfl, hr.of_tx rfl⟩
  | refRemote rm =>
    obtain ⟨x, hx, hh⟩ := some_of_any hok
    simp only [Proxy.step, hx]
    refine .inl ⟨_, rfl, h.setRemote hx (by simp) (by simp; omega) fun _ _ => rfl,
      hr.of_tx rfl⟩
  | unrefRemote rm =>
    obtain ⟨x, hx, hh⟩ := some_of_any hok
    obtain ⟨s', hs, hi⟩ := h.remoteUnref' hx (of_decide_eq_true hh)
    exact .inl ⟨s', hs, hi, hr.of_tx (remoteUnref_spec hs).1.tx⟩
  | die rm =>
    cases hx : s.remote rm with
    | none => exact .inr (.inl (by simp only [Proxy.step, hx]))
    | some x =>
      simp only [Proxy.step, hx]
      exact .inl ⟨_, rfl,
        (h.setRemote (y := { x with dead := true }) hx (h.remote _ _ hx).2.1 (by simp) fun _ _ => rfl).see _, hr.of_tx rfl⟩
  | new ipc rm =>
    obtain ⟨x, hx, hh⟩ := some_of_any hok
    obtain ⟨s', hs, hi, ht⟩ := h.create (ipc := ipc) hx
    exact .inl ⟨s', hs, hi, hr.of_tx ht⟩
  | find ipc rm p =>
    obtain ⟨x, hx, hh⟩ := some_of_any hok
    simp only [Proxy.step, hx]
    cases p with
    | some p =>
      simp only []
      cases ho : s.obj p with
      | none => exact .inr (.inl rfl)
      | some o =>
        simp only []
        split
        · exact .inl ⟨_, rfl, h.setObj (dp' := []) ho rfl rfl (by simp) (by simp; omega) fun _ _ => rfl, hr.of_tx rfl⟩
        · exact .inr (.inl rfl)
    | none =>
      simp only []
      split
      · exact .inr (.inl rfl)
      · split
        · exact .inl ⟨_, rfl, h, hr⟩
        · obtain ⟨s', hs, hi, ht⟩ := h.create (ipc := ipc) hx
          exact .inl ⟨s', hs, hi, hr.of_tx ht⟩
  | ref p =>
    obtain ⟨o, ho, hh⟩ := some_of_any hok
    simp only [Proxy.step, ho]
    exact .inl ⟨_, rfl,
      h.setObj (dp' := []) ho rfl rfl (by simp) (by simp; omega) fun _ _ => rfl, hr.of_tx rfl⟩
  | unref p =>
    obtain ⟨o, ho, hh⟩ := some_of_any hok
    obtain ⟨s', hs, hi⟩ := h.objUnref' ho (of_decide_eq_true hh)
    obtain ⟨_, _, hf, _⟩ := objUnref_spec hs
    exact .inl ⟨s', hs, hi, hr.of_tx hf.tx⟩
  | acquire p =>
    obtain ⟨o, ho, hh⟩ := some_of_any hok
    obtain ⟨x, hx⟩ := h.alive ho
    simp only [Proxy.step, ho, hx]
    split
    · exact .inl ⟨_, rfl,
        (h.setObj (dp' := []) (y := { o with acquired := true }) ho rfl rfl (h.obj _ _ ho).2.2.1 (by simp) fun _ _ => rfl).see _,
        hr.of_tx rfl⟩
    · exact .inl ⟨_, rfl, h, hr⟩
  | drop p =>
    obtain ⟨o, ho, hh⟩ := some_of_any hok
    have h1 := (h.setObj (dp' := []) (y := { o with dropped := true }) ho rfl rfl (h.obj _ _ ho).2.2.1 (by simp)
      fun _ _ => rfl).see [.dropped p]
    obtain ⟨s', hs, hi⟩ := h1.objUnref' (x := { o with dropped := true }) (upd_same _ _ _) (of_decide_eq_true hh)
    obtain ⟨_, _, hf, _⟩ := objUnref_spec hs
    exact .inl ⟨s', by simp only [Proxy.step, ho]; exact hs, hi, hr.of_tx hf.tx⟩
  | handle p looper code flags =>
    obtain ⟨o, ho, hh⟩ := some_of_any hok
    obtain ⟨x, hx⟩ := h.alive ho
    simp only [Proxy.step, ho, hx]
    split
    · exact .inr (.inl rfl)
    · split
      · exact .inl ⟨_, rfl, h.forward ho rfl rfl rfl rfl rfl rfl rfl rfl, hr.upd rfl (.inr rfl)⟩
      · exact .inl ⟨_, rfl, h.refuse rfl rfl rfl rfl rfl rfl rfl rfl, hr.of_tx rfl⟩
  | refReq r =>
    obtain ⟨x, hx, hh⟩ := some_of_any hok
    simp only [Proxy.step, hx]
    exact .inl ⟨_, rfl, h.setReq hx (by simp) (by simp; omega) fun _ _ => rfl, hr.of_tx rfl⟩
  | unrefReq r =>
    obtain ⟨x, hx, hh⟩ := some_of_any hok
    obtain ⟨s', hs, hi⟩ := h.reqUnref' hx (of_decide_eq_true hh)
    exact .inl ⟨s', hs, hi, hr.of_tx (reqUnref_tx hs).1⟩
  | reply t rep st =>
    obtain ⟨x, hx, hh⟩ := some_of_any hok
    have hrep : x.replied = false := by simpa using hh
    simp only [Proxy.step, hx]
    split
    · exact .inr (.inl rfl)
    · left
      obtain ⟨p, hp⟩ := Option.isSome_iff_exists.1 (hr t x hx hrep)
      obtain ⟨o, ho, hto⟩ := (h.tx _ _ hx).2.2 _ hp
      simp only [hp, ho]
      have h1 := (h.setTx (y := { x with replied := true }) hx rfl rfl).see [.replied t rep st]
      have hx1 : ((s.setTx t (some { x with replied := true })).see [.replied t rep st]).tx t =
        some { x with replied := true } := upd_same _ _ _
      obtain ⟨s1, hs1, hi1⟩ := h1.dequeue hx1
      obtain ⟨ht1, _, _, hq1, _⟩ := dequeue_tx hx1 hs1
      rw [hp] at hs1
      rw [hs1]
      simp only [Out.andThen]
      obtain ⟨q, hq⟩ := h.there hx
      obtain ⟨s2, hs2, hi2⟩ := hi1.complete (r := x.req) (x := q) (by rw [hq1]; exact hq) rep
        (if st > 0 then efault else st)
      rw [hs2]
      refine ⟨_, rfl, ?_, ?_⟩
      · split
        · exact hi2.ext rfl rfl rfl rfl rfl rfl rfl rfl
        · exact hi2
      · have hr2 : Ready s2 := by
          refine hr.upd (t := t) (y := { x with replied := true, proxy := none }) ?_ (.inl rfl)
          rw [(complete_tx hs2).1, ht1]
          funext t'
          simp only [State.see, State.setTx, Gb.upd]
          split <;> simp_all
        split
        · exact hr2.of_tx rfl
        · exact hr2
  | suicide =>
    simp only [Proxy.step]
    cases hm : s.main with
    | none => exact .inr (.inl rfl)
    | some p =>
      simp only []
      cases ho : s.obj p with
      | none => exact .inr (.inr ⟨trivial, p, rfl, ho⟩)
      | some o =>
        obtain ⟨x, hx⟩ := h.alive ho
        simp only [hx]
        exact .inl ⟨_, rfl, (h.setRemote (y := { x with dead := true }) hx (h.remote _ _ hx).2.1 (by simp)
          fun _ _ => rfl).ext rfl rfl rfl rfl rfl rfl rfl rfl, hr.of_tx rfl⟩
  | destroy t =>
    obtain ⟨x, hx⟩ := Option.isSome_iff_exists.1 hok
    simp only [Proxy.step, hx]
    split
    · exact .inr (.inl rfl)
    · left
      obtain ⟨s1, hs1, hi1⟩ := h.dequeue hx
      obtain ⟨ht1, _⟩ := dequeue_tx hx hs1
      rw [hs1]
      simp only [Out.andThen]
      have hx1 : s1.tx t = some { x with proxy := none } := by rw [ht1, upd_same]
      obtain ⟨s2, hs2, hi2⟩ := (hi1.freeTx hx1 rfl).reqUnref
      refine ⟨s2, hs2, hi2, ?_⟩
      intro t' y hy
      rw [(reqUnref_tx hs2).1] at hy
      simp only [State.setTx] at hy
      by_cases htt : t' = t
      · subst htt; rw [upd_same] at hy; cases hy
      · rw [upd_ne _ _ htt, ht1, upd_ne _ _ htt] at hy
        exact hr t' y hy

end Gb.Proxy
