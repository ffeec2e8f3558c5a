import Verif.Spec.Bridge
import Verif.Lemmas.Counted
/-
Invariants of Model/Bridge.
-/
set_option autoImplicit false

namespace Gb.Bridge

def State.objOf (s : State) (i : Nat) : Option Nat := (s.iface i).bind (·.obj)
def State.proxyOf (s : State) (i : Nat) : Option Nat := (s.iface i).bind (·.proxy)
def State.serviceOf (s : State) (i : Nat) : Option Nat := (s.iface i).bind (·.service)
def State.targetOf (s : State) (p : Nat) : Option Nat := (s.proxy p).map (·.remote)

/-- Who has references to the remote objects. -/
def hOwner (obj target : Nat → Option Nat) : Holder → Option (Option Nat)
  | .iface i => some (obj i)
  | .proxy p => some (target p)
  | .other => none

/-- Who has references to the proxies. -/
def uOwner (proxy service : Nat → Option Nat) : User → Option (Option Nat)
  | .iface i => some (proxy i)
  | .service n => some (service n)
  | .other => none

def rRefs (R : Nat → Option Remote) (rm : Nat) : Option (List Holder) := (R rm).map (·.refs)
def pRefs (P : Nat → Option Proxy) (p : Nat) : Option (List User) := (P p).map (·.refs)

theorem rRefs_upd (R : Nat → Option Remote) (rm : Nat) (x : Option Remote) :
    rRefs (upd R rm x) = upd (rRefs R) rm (x.map (·.refs)) := by
  funext j
  simp only [rRefs, upd]
  split <;> rfl

theorem pRefs_upd (R : Nat → Option Proxy) (rm : Nat) (x : Option Proxy) :
    pRefs (upd R rm x) = upd (pRefs R) rm (x.map (·.refs)) := by
  funext j
  simp only [pRefs, upd]
  split <;> rfl

/-- What the log says about an interface. -/
def viewOf (s : State) (i : Nat) : View :=
  match s.iface i with
  | none => if i < s.ifaces then { stage := .after } else {}
  | some x =>
    { stage := .on, obj := x.obj, service := x.service
      proxy := x.proxy.bind fun p => (s.targetOf p).map fun rm => (p, rm) }

structure Inv (s : State) : Prop where
  r : Counted (rRefs s.remote) (hOwner s.objOf s.targetOf)
  p : Counted (pRefs s.proxy) (uOwner s.proxyOf s.service)
  nE : ∀ i n, s.serviceOf i = some n → s.service n ≠ none
  nU : ∀ i j n, s.serviceOf i = some n → s.serviceOf j = some n → i = j
  fR : ∀ rm, s.remote rm ≠ none → rm < s.remotes
  fP : ∀ p, s.proxy p ≠ none → p < s.proxies
  fS : ∀ n, s.service n ≠ none → n < s.services
  fI : ∀ i, s.iface i ≠ none → i < s.ifaces
  death : ∀ rm i, .death rm i ∈ s.calls → s.objOf i = some rm
  reg : ∀ i n, .registration i n ∈ s.calls → s.iface i ≠ none
  life : ∀ i, life i s.log = some (viewOf s i)
  dead : ∀ rm x, s.remote rm = some x → (x.dead = true ↔ .died rm ∈ s.log)
  past : ∀ rm, .died rm ∈ s.log → rm < s.remotes

/-- What an interface says about itself. -/
def About (i : Nat) (x : Iface) : Ev → Prop
  | .found j n _ => j = i ∧ n = x.fqname
  | .left j _ | .made j _ _ | .dropped j _ | .withdrawn j _ => j = i
  | .published j _ _ n => j = i ∧ n = x.srcName
  | _ => False

/-- Something has happened to one of the interfaces. -/
structure Rel (i : Nat) (s s' : State) : Prop where
  others : ∀ j, j ≠ i → s'.iface j = s.iface j
  same : ∀ x, s.iface i = some x → ∃ x', s'.iface i = some x' ∧ x'.fqname = x.fqname ∧ x'.srcName = x.srcName
  ifaces : s'.ifaces = s.ifaces
  bridges : s'.bridges = s.bridges
  bridge : s'.bridge = s.bridge
  log : ∀ x, s.iface i = some x → ∃ es, s'.log = s.log ++ es ∧ ∀ e ∈ es, About i x e

theorem Rel.refl (i : Nat) (s : State) : Rel i s s :=
  ⟨fun _ _ => rfl, fun x h => ⟨x, h, rfl, rfl⟩, rfl, rfl, rfl, fun _ _ => ⟨[], by simp, by simp⟩⟩

theorem About.congr {i : Nat} {x y : Iface} {e : Ev} (h1 : y.fqname = x.fqname) (h2 : y.srcName = x.srcName)
    (h : About i y e) : About i x e := by
  cases e <;> simp only [About, h1, h2] at h ⊢ <;> exact h

theorem Rel.trans {i : Nat} {a b c : State} (h : Rel i a b) (k : Rel i b c) : Rel i a c := by
  refine ⟨fun j hj => (k.others j hj).trans (h.others j hj), ?_, k.ifaces.trans h.ifaces, k.bridges.trans h.bridges,
    k.bridge.trans h.bridge, ?_⟩
  · intro x hx
    obtain ⟨y, hy, h1, h2⟩ := h.same x hx
    obtain ⟨z, hz, h3, h4⟩ := k.same y hy
    exact ⟨z, hz, h3.trans h1, h4.trans h2⟩
  · intro x hx
    obtain ⟨y, hy, h1, h2⟩ := h.same x hx
    obtain ⟨es, he, ha⟩ := h.log x hx
    obtain ⟨fs, hf, hb⟩ := k.log y hy
    refine ⟨es ++ fs, by rw [hf, he, List.append_assoc], fun e he => ?_⟩
    rcases List.mem_append.1 he with he | he
    · exact ha e he
    · exact (hb e he).congr h1 h2

/-- Not undefined, and if it has happened then this is so. -/
def Good {S : Type} (o : Out S) (P : S → Prop) : Prop := o ≠ .ub ∧ ∀ s', o = .ok s' → P s'

theorem Good.ok {S : Type} {s : S} {P : S → Prop} (h : P s) : Good (.ok s) P :=
  ⟨by simp, fun _ e => by cases e; exact h⟩

theorem Good.no {S : Type} {P : S → Prop} : Good (Out.no : Out S) P := ⟨by simp, by simp⟩

theorem Good.andThen {S : Type} {o : Out S} {f : S → Out S} {P Q : S → Prop} (h : Good o P)
    (k : ∀ s, P s → Good (f s) Q) : Good (o.andThen f) Q := by
  cases o with
  | no => exact Good.no
  | ub => exact absurd rfl h.1
  | ok s => exact k s (h.2 s rfl)

theorem Good.mono {S : Type} {o : Out S} {P Q : S → Prop} (h : Good o P) (k : ∀ s, P s → Q s) : Good o Q :=
  ⟨h.1, fun s hs => k s (h.2 s hs)⟩

theorem life_append (i : Nat) (a b : List Ev) :
    life i (a ++ b) = b.foldl (fun v e => v.bind fun v => next i v e) (life i a) := by
  simp [life, List.foldl_append]

theorem life_snoc (i : Nat) (a : List Ev) (e : Ev) : life i (a ++ [e]) = (life i a).bind fun v => next i v e := by
  simp [life, List.foldl_append]

/-- Events of other interfaces. -/
theorem next_other {i j : Nat} {x : Iface} {e : Ev} (h : About j x e) (hij : j ≠ i) (v : View) : next i v e = some v := by
  cases e <;> simp only [About] at h
  all_goals simp only [next]
  · rw [if_neg]; rw [h.1]; exact hij
  · rw [if_neg]; rw [h]; exact hij
  · rw [if_neg]; rw [h]; exact hij
  · rw [if_neg]; rw [h]; exact hij
  · rw [if_neg]; rw [h.1]; exact hij
  · rw [if_neg]; rw [h]; exact hij

theorem upd_noop {α : Type} {f : Nat → α} {k : Nat} {v : α} (h : f k = v) : upd f k v = f := by
  funext j
  simp only [upd]
  split
  · rename_i hj; rw [hj, h]
  · rfl

/-! ### References -/

theorem remoteUnref_ok {s : State} {rm : Nat} {h : Holder} {ow : Holder → Option (Option Nat)} {x : Remote}
    (c : Counted (rRefs s.remote) ow) (hx : s.remote rm = some x) (hm : h ∈ x.refs)
    (ho : ow h = none ∨ ow h = some (some rm)) :
    ∃ r', s.remoteUnref rm h = .ok (s.setRemote rm r') ∧
      Counted (rRefs (upd s.remote rm r')) (fun a => if a = h then (ow a).map fun _ => none else ow a) ∧
      ∀ z, r' = some z → z.dead = x.dead := by
  simp only [State.remoteUnref, hx, if_pos hm]
  refine ⟨_, rfl, ?_, ?_⟩
  · have := c.unref (h := h) (k := rm) (l := x.refs) (by simp [rRefs, hx]) hm ho
    rw [rRefs_upd]
    split at this <;> rename_i hl <;> simpa [hl] using this
  · intro z hz
    split at hz
    · cases hz
    · cases hz; rfl

theorem remote_mem {s : State} {rm : Nat} {h : Holder} {ow : Holder → Option (Option Nat)}
    (c : Counted (rRefs s.remote) ow) (ho : ow h = some (some rm)) : ∃ x, s.remote rm = some x ∧ h ∈ x.refs := by
  obtain ⟨l, hl, hm⟩ := c.mem ho
  obtain ⟨x, hx, rfl⟩ := Option.map_eq_some_iff.1 hl
  exact ⟨x, hx, hm⟩

theorem proxy_mem {s : State} {p : Nat} {u : User} {ow : User → Option (Option Nat)}
    (c : Counted (pRefs s.proxy) ow) (ho : ow u = some (some p)) : ∃ x, s.proxy p = some x ∧ u ∈ x.refs := by
  obtain ⟨l, hl, hm⟩ := c.mem ho
  obtain ⟨x, hx, rfl⟩ := Option.map_eq_some_iff.1 hl
  exact ⟨x, hx, hm⟩

/-- A reference to a proxy is dropped, the proxy may be gone, and then it has no reference to the remote object. -/
theorem proxyUnref_ok {s : State} {p : Nat} {u : User} {obj : Nat → Option Nat} {ow : User → Option (Option Nat)}
    {x : Proxy} (cp : Counted (pRefs s.proxy) ow) (cr : Counted (rRefs s.remote) (hOwner obj s.targetOf))
    (hx : s.proxy p = some x) (hm : u ∈ x.refs) (ho : ow u = none ∨ ow u = some (some p)) :
    ∃ P R, s.proxyUnref p u = .ok { s with proxy := P, remote := R } ∧
      Counted (pRefs P) (fun a => if a = u then (ow a).map fun _ => none else ow a) ∧
      Counted (rRefs R) (hOwner obj fun q => (P q).map (·.remote)) ∧
      (∀ q y, P q = some y → ∃ y0, s.proxy q = some y0 ∧ y.remote = y0.remote) ∧
      ∀ rm y, R rm = some y → ∃ y0, s.remote rm = some y0 ∧ y.dead = y0.dead := by
  simp only [State.proxyUnref, hx, if_pos hm]
  have hc := cp.unref (h := u) (k := p) (l := x.refs) (by simp [pRefs, hx]) hm ho
  by_cases hl : x.refs.erase u = []
  · rw [if_pos hl] at hc ⊢
    have hw : hOwner obj s.targetOf (.proxy p) = some (some x.remote) := by simp [hOwner, State.targetOf, hx]
    obtain ⟨z, hz, hzm⟩ := remote_mem cr hw
    obtain ⟨r', h1, h2, h3⟩ := remoteUnref_ok (s := s.setProxy p none) (rm := x.remote) (h := .proxy p) cr hz hzm (.inr hw)
    refine ⟨upd s.proxy p none, upd s.remote x.remote r', h1, ?_, ?_, ?_, ?_⟩
    · rw [pRefs_upd]; exact hc
    · have : (fun a => if a = Holder.proxy p then (hOwner obj s.targetOf a).map fun _ => none else hOwner obj s.targetOf a) =
          hOwner obj fun q => (upd s.proxy p none q).map (·.remote) := by
        funext a
        cases a with
        | iface j => simp [hOwner]
        | other => simp [hOwner]
        | proxy q =>
          simp only [hOwner, upd, State.targetOf]
          by_cases hq : q = p
          · subst hq; simp
          · simp [hq]
      rw [← this]
      exact h2
    · intro q y hq
      simp only [upd] at hq
      split at hq
      · cases hq
      · exact ⟨y, hq, rfl⟩
    · intro rm y hy
      by_cases hrm : rm = x.remote
      · subst hrm
        rw [upd_same] at hy
        exact ⟨z, hz, h3 y hy⟩
      · rw [upd_ne _ _ hrm] at hy
        exact ⟨y, hy, rfl⟩
  · rw [if_neg hl] at hc ⊢
    refine ⟨upd s.proxy p (some { x with refs := x.refs.erase u }), s.remote, rfl, ?_, ?_, ?_, ?_⟩
    · rw [pRefs_upd]; exact hc
    · have : s.targetOf = fun q => (upd s.proxy p (some { x with refs := x.refs.erase u }) q).map (·.remote) := by
        funext q
        simp only [State.targetOf, upd]
        split
        · rename_i hq; rw [hq, hx]; rfl
        · rfl
      rw [← this]
      exact cr
    · intro q y hq
      simp only [upd] at hq
      split at hq
      · rename_i hqp; cases hq; exact ⟨x, hqp ▸ hx, rfl⟩
      · exact ⟨y, hq, rfl⟩
    · intro rm y hy; exact ⟨y, hy, rfl⟩

/-! ### Interfaces -/

/-- The log after an interface has said something about itself. -/
theorem life_about {s s' : State} {i : Nat} {x : Iface} {e : Ev} (h : Inv s) (ha : About i x e)
    (hl : s'.log = s.log ++ [e]) (ho : ∀ j, j ≠ i → viewOf s' j = viewOf s j)
    (hn : next i (viewOf s i) e = some (viewOf s' i)) : ∀ j, life j s'.log = some (viewOf s' j) := by
  intro j
  rw [hl, life_snoc, h.life j]
  by_cases hj : j = i
  · subst hj; exact hn
  · rw [ho j hj]
    exact next_other ha (Ne.symm hj) _

theorem dead_about {s s' : State} {i : Nat} {x : Iface} {e : Ev} (h : Inv s) (ha : About i x e)
    (hl : s'.log = s.log ++ [e])
    (hr : ∀ rm y, s'.remote rm = some y → ∃ y0, s.remote rm = some y0 ∧ y.dead = y0.dead) :
    ∀ rm x, s'.remote rm = some x → (x.dead = true ↔ .died rm ∈ s'.log) := by
  intro rm y hy
  obtain ⟨y0, h1, h2⟩ := hr rm y hy
  rw [hl, h2, h.dead rm y0 h1]
  have : Ev.died rm ≠ e := by rintro rfl; exact ha
  simp [this]

theorem past_about {s s' : State} {i : Nat} {x : Iface} {e : Ev} (h : Inv s) (ha : About i x e)
    (hl : s'.log = s.log ++ [e]) (hr : s'.remotes = s.remotes) : ∀ rm, .died rm ∈ s'.log → rm < s'.remotes := by
  intro rm hm
  have : Ev.died rm ≠ e := by rintro rfl; exact ha
  rw [hl] at hm
  simp only [List.mem_append, List.mem_singleton, this, or_false] at hm
  rw [hr]; exact h.past rm hm

theorem viewOf_congr {s s' : State} {j : Nat} (h1 : s'.iface j = s.iface j) (h2 : s'.ifaces = s.ifaces)
    (h3 : ∀ p, s.proxyOf j = some p → s'.targetOf p = s.targetOf p) : viewOf s' j = viewOf s j := by
  unfold viewOf
  rw [h1, h2]
  cases hx : s.iface j with
  | none => rfl
  | some x =>
    simp only [View.mk.injEq, true_and, and_true]
    cases hp : x.proxy with
    | none => rfl
    | some p =>
      simp only [Option.bind_some]
      rw [h3 p (by simp [State.proxyOf, hx, hp])]

/-- Something happens to an interface. -/
theorem Inv.change {s s' : State} (h : Inv s) {i : Nat} {x x' : Iface} {e : Ev} (hx : s.iface i = some x)
    (ha : About i x e) (hif : s'.iface = upd s.iface i (some x')) (hn1 : x'.fqname = x.fqname)
    (hn2 : x'.srcName = x.srcName) (hifs : s'.ifaces = s.ifaces) (hb1 : s'.bridges = s.bridges)
    (hb2 : s'.bridge = s.bridge) (hlog : s'.log = s.log ++ [e]) (hrs : s'.remotes = s.remotes)
    (hr : Counted (rRefs s'.remote) (hOwner (fun j => if j = i then x'.obj else s.objOf j) s'.targetOf))
    (hp : Counted (pRefs s'.proxy) (uOwner (fun j => if j = i then x'.proxy else s.proxyOf j) s'.service))
    (hsv : ∀ n, x'.service = some n → s'.service n ≠ none ∧ ∀ j, j ≠ i → s.serviceOf j ≠ some n)
    (hsk : ∀ n, s.service n ≠ none → s'.service n = none → s.serviceOf i = some n)
    (fR : ∀ rm, s'.remote rm ≠ none → s.remote rm ≠ none)
    (fP : ∀ p, s'.proxy p ≠ none → p < s'.proxies)
    (fS : ∀ n, s'.service n ≠ none → n < s'.services)
    (hc : ∀ c, c ∈ s'.calls → c ∈ s.calls)
    (hd : ∀ rm, .death rm i ∈ s'.calls → x'.obj = some rm)
    (ht : ∀ j p, j ≠ i → s.proxyOf j = some p → s'.targetOf p = s.targetOf p)
    (hn : next i (viewOf s i) e = some (viewOf s' i))
    (hdead : ∀ rm y, s'.remote rm = some y → ∃ y0, s.remote rm = some y0 ∧ y.dead = y0.dead) :
    Inv s' ∧ Rel i s s' := by
  have hbind : ∀ {α : Type} (f : Iface → Option α) j, (s'.iface j).bind f = if j = i then f x' else (s.iface j).bind f := by
    intro α f j; rw [hif]; simp only [upd]; split <;> rfl
  have ho : s'.objOf = fun j => if j = i then x'.obj else s.objOf j := by funext j; exact hbind _ j
  have hpr : s'.proxyOf = fun j => if j = i then x'.proxy else s.proxyOf j := by funext j; exact hbind _ j
  have hse : s'.serviceOf = fun j => if j = i then x'.service else s.serviceOf j := by funext j; exact hbind _ j
  constructor
  · constructor
    · rw [ho]; exact hr
    · rw [hpr]; exact hp
    · intro j n hj
      rw [hse] at hj
      by_cases hji : j = i
      · simp only [hji, if_true] at hj; exact (hsv n hj).1
      · simp only [hji, if_false] at hj
        intro hne
        exact hji (h.nU j i n hj (hsk n (h.nE j n hj) hne))
    · intro j k n hj hk
      rw [hse] at hj hk
      by_cases hji : j = i <;> by_cases hki : k = i
      · rw [hji, hki]
      · simp only [hji, hki, if_true, if_false] at hj hk
        exact absurd hk ((hsv n hj).2 k hki)
      · simp only [hji, hki, if_true, if_false] at hj hk
        exact absurd hj ((hsv n hk).2 j hji)
      · simp only [hji, hki, if_false] at hj hk
        exact h.nU j k n hj hk
    · intro rm hrm; rw [hrs]; exact h.fR rm (fR rm hrm)
    · exact fP
    · exact fS
    · intro j hj
      rw [hifs]
      by_cases hji : j = i
      · subst hji; exact h.fI j (by rw [hx]; simp)
      · rw [hif, upd_ne _ _ hji] at hj; exact h.fI j hj
    · intro rm j hj
      rw [ho]
      by_cases hji : j = i
      · subst hji; simp only [if_true]; exact hd rm hj
      · simp only [hji, if_false]; exact h.death rm j (hc _ hj)
    · intro j n hj
      have := h.reg j n (hc _ hj)
      rw [hif]; simp only [upd]; split
      · simp
      · exact this
    · refine life_about h ha hlog ?_ hn
      intro j hj
      exact viewOf_congr (by rw [hif, upd_ne _ _ hj]) hifs (fun p hp => ht j p hj hp)
    · exact dead_about h ha hlog hdead
    · exact past_about h ha hlog hrs
  · refine ⟨fun j hj => by rw [hif, upd_ne _ _ hj], fun y hy => ?_, hifs, hb1, hb2, fun y hy => ⟨[e], hlog, ?_⟩⟩
    · rw [hx] at hy; cases hy
      exact ⟨x', by rw [hif, upd_same], hn1, hn2⟩
    · rw [hx] at hy; cases hy
      simpa using ha

/-- What a function does to the interface `i`. -/
def Does (i : Nat) (s : State) (obj proxy service : Option Nat) (s' : State) : Prop :=
  Inv s' ∧ Rel i s s' ∧ s'.objOf i = obj ∧ s'.proxyOf i = proxy ∧ s'.serviceOf i = service ∧
    (∀ rm j, .death rm j ∈ s.calls → s.objOf j = s'.objOf j → .death rm j ∈ s'.calls) ∧
    (∀ j p, s'.proxyOf j = some p → s.proxyOf j = some p → s'.targetOf p = s.targetOf p)

theorem Inv.dropRemote {s : State} (h : Inv s) {i : Nat} (hi : s.iface i ≠ none) :
    Good (s.dropRemote i) (Does i s none (s.proxyOf i) (s.serviceOf i)) := by
  obtain ⟨x, hx⟩ := Option.ne_none_iff_exists'.1 hi
  simp only [State.dropRemote, hx]
  cases ho : x.obj with
  | none =>
    exact Good.ok ⟨h, Rel.refl _ _, by simp [State.objOf, hx, ho], rfl, rfl, fun _ _ h _ => h, fun _ _ _ _ => rfl⟩
  | some rm =>
    have hobj : s.objOf i = some rm := by simp [State.objOf, hx, ho]
    have hw : hOwner s.objOf s.targetOf (.iface i) = some (some rm) := by simp [hOwner, hobj]
    obtain ⟨z, hz, hzm⟩ := remote_mem h.r hw
    obtain ⟨r', h1, h2, h3⟩ := remoteUnref_ok h.r hz hzm (.inr hw)
    simp only [h1, Out.andThen]
    have hch := Inv.change (s' := (({ (s.setRemote rm r') with calls := s.calls.filter fun c => c ≠ .death rm i } : State).setIface i
          (some { x with obj := none })).see [.left i rm]) h (x' := { x with obj := none }) (e := .left i rm) hx rfl rfl rfl
          rfl rfl rfl rfl rfl rfl ?_ ?_ ?_ ?_ ?_ h.fP h.fS ?_ ?_ ?_ ?_ ?_
    refine Good.ok ⟨hch.1, hch.2, ?_, ?_, ?_, ?_, fun _ _ _ _ => rfl⟩
    · simp [State.objOf, State.see, State.setIface, upd]
    · simp [State.proxyOf, State.see, State.setIface, upd, hx]
    · simp [State.serviceOf, State.see, State.setIface, upd, hx]
    · intro k j hj hji
      simp only [State.see, State.setIface, State.setRemote, List.mem_filter]
      refine ⟨hj, ?_⟩
      rw [decide_eq_true_iff]
      intro he; cases he
      rw [hobj] at hji
      simp [State.objOf, State.see, State.setIface, upd] at hji
    · have : (fun a => if a = Holder.iface i then (hOwner s.objOf s.targetOf a).map fun _ => none
          else hOwner s.objOf s.targetOf a) = hOwner (fun j => if j = i then none else s.objOf j) s.targetOf := by
        funext a
        cases a with
        | iface j => simp only [hOwner, Holder.iface.injEq]; split <;> rfl
        | proxy q => simp [hOwner]
        | other => simp [hOwner]
      rw [this] at h2
      exact h2
    · have : (fun j => if j = i then x.proxy else s.proxyOf j) = s.proxyOf := by
        funext j; split
        · rename_i hj; rw [hj]; simp [State.proxyOf, hx]
        · rfl
      show Counted (pRefs s.proxy) (uOwner (fun j => if j = i then x.proxy else s.proxyOf j) s.service)
      rw [this]; exact h.p
    · intro n hn
      have hn' : s.serviceOf i = some n := by simpa [State.serviceOf, hx] using hn
      exact ⟨h.nE i n hn', fun j hj he => hj (h.nU j i n he hn')⟩
    · intro n hn he; exact absurd he hn
    · intro k hk
      by_cases hkr : k = rm
      · rw [hkr, hz]; simp
      · simpa [State.see, State.setIface, State.setRemote, upd, hkr] using hk
    · intro c hc
      simp only [State.see, State.setIface, List.mem_filter] at hc
      exact hc.1
    · intro k hk
      simp only [State.see, State.setIface, List.mem_filter, decide_eq_true_iff] at hk
      have := h.death _ _ hk.1
      rw [hobj] at this; cases this
      exact absurd rfl hk.2
    · intro j p _ _; rfl
    · simp [next, viewOf, hx, ho, State.see, State.setIface, State.setRemote, upd, State.targetOf]
    · intro k y hy
      by_cases hkr : k = rm
      · subst hkr
        simp only [State.see, State.setIface, State.setRemote, upd_same] at hy
        exact ⟨z, hz, h3 y hy⟩
      · exact ⟨y, by simpa [State.see, State.setIface, State.setRemote, upd, hkr] using hy, rfl⟩

theorem Inv.dropProxy {s : State} (h : Inv s) {i : Nat} (hi : s.iface i ≠ none) :
    Good (s.dropProxy i) (Does i s (s.objOf i) none (s.serviceOf i)) := by
  obtain ⟨x, hx⟩ := Option.ne_none_iff_exists'.1 hi
  simp only [State.dropProxy, hx]
  cases hp : x.proxy with
  | none =>
    exact Good.ok ⟨h, Rel.refl _ _, rfl, by simp [State.proxyOf, hx, hp], rfl, fun _ _ h _ => h, fun _ _ _ _ => rfl⟩
  | some p =>
    have hobj : s.objOf i = x.obj := by simp [State.objOf, hx]
    have hpr : s.proxyOf i = some p := by simp [State.proxyOf, hx, hp]
    have hw : uOwner s.proxyOf s.service (.iface i) = some (some p) := by simp [uOwner, hpr]
    obtain ⟨z, hz, hzm⟩ := proxy_mem h.p hw
    obtain ⟨P, R, h1, h2, h3, h4, h5⟩ := proxyUnref_ok h.p h.r hz hzm (.inr hw)
    simp only [h1, Out.andThen]
    have hown : (fun a => if a = User.iface i then (uOwner s.proxyOf s.service a).map fun _ => none
          else uOwner s.proxyOf s.service a) = uOwner (fun j => if j = i then none else s.proxyOf j) s.service := by
        funext a
        cases a with
        | iface j => simp only [uOwner, User.iface.injEq]; split <;> rfl
        | service q => simp [uOwner]
        | other => simp [uOwner]
    rw [hown] at h2
    have htgt : ∀ j q, j ≠ i → s.proxyOf j = some q → (P q).map (·.remote) = s.targetOf q := by
      intro j q hj hq
      have := h2.live (.iface j) q (by simp [uOwner, hj, hq])
      obtain ⟨l, hl⟩ := Option.ne_none_iff_exists'.1 this
      obtain ⟨y, hy, _⟩ := Option.map_eq_some_iff.1 hl
      obtain ⟨y0, hy0, he⟩ := h4 q y hy
      simp [State.targetOf, hy, hy0, he]
    have hch := Inv.change (s' := (({ s with proxy := P, remote := R } : State).setIface i
          (some { x with proxy := none })).see [.dropped i p]) h (x' := { x with proxy := none }) (e := .dropped i p) hx rfl rfl rfl
          rfl rfl rfl rfl rfl rfl ?_ h2 ?_ ?_ ?_ ?_ h.fS (fun _ h => h) ?_ ?_ ?_ h5
    refine Good.ok ⟨hch.1, hch.2, ?_, ?_, ?_, fun _ _ h _ => h, ?_⟩
    · simp [State.objOf, State.see, State.setIface, upd, hx]
    · simp [State.proxyOf, State.see, State.setIface, upd]
    · simp [State.serviceOf, State.see, State.setIface, upd, hx]
    · intro j q hj hq
      by_cases hji : j = i
      · subst hji; simp [State.proxyOf, State.see, State.setIface, upd] at hj
      · exact htgt j q hji hq
    · have : (fun j => if j = i then x.obj else s.objOf j) = s.objOf := by
        funext j; split
        · rename_i hj; rw [hj, hobj]
        · rfl
      show Counted (rRefs R) (hOwner (fun j => if j = i then x.obj else s.objOf j) _)
      rw [this]; exact h3
    · intro n hn
      have hn' : s.serviceOf i = some n := by simpa [State.serviceOf, hx] using hn
      exact ⟨h.nE i n hn', fun j hj he => hj (h.nU j i n he hn')⟩
    · intro n hn he; exact absurd he hn
    · intro k hk
      obtain ⟨y, hy⟩ := Option.ne_none_iff_exists'.1 hk
      obtain ⟨y0, hy0, _⟩ := h5 k y hy
      rw [hy0]; simp
    · intro k hk
      obtain ⟨y, hy⟩ := Option.ne_none_iff_exists'.1 hk
      obtain ⟨y0, hy0, _⟩ := h4 k y hy
      exact h.fP k (by rw [hy0]; simp)
    · intro k hk
      have := h.death k i hk
      rw [hobj] at this; exact this
    · exact htgt
    · simp [next, viewOf, hx, hp, State.see, State.setIface, upd, State.targetOf, hz]

theorem Inv.dropService {s : State} (h : Inv s) {i : Nat} (hi : s.iface i ≠ none) :
    Good (s.dropService i) (Does i s (s.objOf i) (s.proxyOf i) none) := by
  obtain ⟨x, hx⟩ := Option.ne_none_iff_exists'.1 hi
  simp only [State.dropService, hx]
  cases hsv : x.service with
  | none =>
    exact Good.ok ⟨h, Rel.refl _ _, rfl, rfl, by simp [State.serviceOf, hx, hsv], fun _ _ h _ => h, fun _ _ _ _ => rfl⟩
  | some n =>
    have hobj : s.objOf i = x.obj := by simp [State.objOf, hx]
    have hpr : s.proxyOf i = x.proxy := by simp [State.proxyOf, hx]
    have hse : s.serviceOf i = some n := by simp [State.serviceOf, hx, hsv]
    obtain ⟨p, hp⟩ := Option.ne_none_iff_exists'.1 (h.nE i n hse)
    have hw : uOwner s.proxyOf s.service (.service n) = some (some p) := by simp [uOwner, hp]
    obtain ⟨z, hz, hzm⟩ := proxy_mem h.p hw
    obtain ⟨P, R, h1, h2, h3, h4, h5⟩ := proxyUnref_ok (s := { s with service := upd s.service n none }) h.p h.r hz hzm (.inr hw)
    simp only [hp, h1, Out.andThen]
    have hown : (fun a => if a = User.service n then (uOwner s.proxyOf s.service a).map fun _ => none
          else uOwner s.proxyOf s.service a) = uOwner s.proxyOf (upd s.service n none) := by
        funext a
        cases a with
        | iface j => simp [uOwner]
        | service q => simp only [uOwner, User.service.injEq, upd]; split <;> rfl
        | other => simp [uOwner]
    rw [hown] at h2
    have htgt : ∀ j q, s.proxyOf j = some q → (P q).map (·.remote) = s.targetOf q := by
      intro j q hq
      have := h2.live (.iface j) q (by simp [uOwner, hq])
      obtain ⟨l, hl⟩ := Option.ne_none_iff_exists'.1 this
      obtain ⟨y, hy, _⟩ := Option.map_eq_some_iff.1 hl
      obtain ⟨y0, hy0, he⟩ := h4 q y hy
      simp only at hy0
      simp [State.targetOf, hy, hy0, he]
    have hch := Inv.change (s' := (({ s with service := upd s.service n none, proxy := P, remote := R } : State).setIface i
          (some { x with service := none })).see [.withdrawn i n]) h (x' := { x with service := none }) (e := .withdrawn i n) hx rfl
          rfl rfl rfl rfl rfl rfl rfl rfl ?_ ?_ ?_ ?_ ?_ ?_ ?_ (fun _ h => h) ?_ (fun j q _ hq => htgt j q hq) ?_ h5
    refine Good.ok ⟨hch.1, hch.2, ?_, ?_, ?_, fun _ _ h _ => h, fun j q _ hq => htgt j q hq⟩
    · simp [State.objOf, State.see, State.setIface, upd, hx]
    · simp [State.proxyOf, State.see, State.setIface, upd, hx]
    · simp [State.serviceOf, State.see, State.setIface, upd]
    · have : (fun j => if j = i then x.obj else s.objOf j) = s.objOf := by
        funext j; split
        · rename_i hj; rw [hj, hobj]
        · rfl
      show Counted (rRefs R) (hOwner (fun j => if j = i then x.obj else s.objOf j) _)
      rw [this]; exact h3
    · have : (fun j => if j = i then x.proxy else s.proxyOf j) = s.proxyOf := by
        funext j; split
        · rename_i hj; rw [hj, hpr]
        · rfl
      show Counted (pRefs P) (uOwner (fun j => if j = i then x.proxy else s.proxyOf j) (upd s.service n none))
      rw [this]; exact h2
    · intro n hn; cases hn
    · intro m hm he
      simp only [State.see, State.setIface, upd] at he
      split at he
      · rename_i hmn; rw [hmn]; exact hse
      · exact absurd he hm
    · intro k hk
      obtain ⟨y, hy⟩ := Option.ne_none_iff_exists'.1 hk
      obtain ⟨y0, hy0, _⟩ := h5 k y hy
      simp only at hy0
      rw [hy0]; simp
    · intro k hk
      obtain ⟨y, hy⟩ := Option.ne_none_iff_exists'.1 hk
      obtain ⟨y0, hy0, _⟩ := h4 k y hy
      simp only at hy0
      exact h.fP k (by rw [hy0]; simp)
    · intro m hm
      simp only [State.see, State.setIface, upd] at hm
      split at hm
      · exact absurd rfl hm
      · exact h.fS m hm
    · intro k hk
      have := h.death k i hk
      rw [hobj] at this; exact this
    · simp only [next, viewOf, hx, hsv, State.see, State.setIface, upd, if_true, Option.some.injEq, View.mk.injEq, true_and,
        and_true]
      cases hxp : x.proxy with
      | none => rfl
      | some q =>
        simp only [Option.bind_some]
        have := htgt i q (by rw [hpr, hxp])
        simp only [State.targetOf] at this ⊢
        rw [this]

theorem objOf_if {s : State} {i : Nat} {x : Iface} (hx : s.iface i = some x) :
    (fun j => if j = i then x.obj else s.objOf j) = s.objOf := by
  funext j; split
  · rename_i hj; rw [hj]; simp [State.objOf, hx]
  · rfl

theorem proxyOf_if {s : State} {i : Nat} {x : Iface} (hx : s.iface i = some x) :
    (fun j => if j = i then x.proxy else s.proxyOf j) = s.proxyOf := by
  funext j; split
  · rename_i hj; rw [hj]; simp [State.proxyOf, hx]
  · rfl

theorem Inv.attach {s : State} (h : Inv s) {i : Nat} (hi : s.iface i ≠ none) (found : Option Nat) :
    Good (s.attach i found) (Does i s ((s.objOf i).or found) (s.proxyOf i) (s.serviceOf i)) := by
  obtain ⟨x, hx⟩ := Option.ne_none_iff_exists'.1 hi
  have hobj : s.objOf i = x.obj := by simp [State.objOf, hx]
  have hsv : ∀ n, x.service = some n → s.service n ≠ none ∧ ∀ j, j ≠ i → s.serviceOf j ≠ some n := by
    intro n hn
    have hn' : s.serviceOf i = some n := by simpa [State.serviceOf, hx] using hn
    exact ⟨h.nE i n hn', fun j hj he => hj (h.nU j i n he hn')⟩
  simp only [State.attach, hx]
  cases ho : x.obj with
  | some rm =>
    simp only []
    exact Good.ok ⟨h, Rel.refl _ _, by simp [hobj, ho], rfl, rfl, fun _ _ h _ => h, fun _ _ _ _ => rfl⟩
  | none =>
    have hno : s.objOf i = none := by rw [hobj, ho]
    have hnd : ∀ rm, .death rm i ∈ s.calls → False := by
      intro rm hrm
      have := h.death rm i hrm
      rw [hno] at this; cases this
    cases found with
    | none =>
      simp only []
      have hch := Inv.change (s' := s.see [.found i x.fqname none]) h (x' := x) (e := .found i x.fqname none) hx ⟨rfl, rfl⟩
        (upd_noop hx).symm rfl rfl rfl rfl rfl rfl rfl (by rw [objOf_if hx]; exact h.r) (by rw [proxyOf_if hx]; exact h.p) hsv
        (fun n hn he => absurd he hn) (fun _ h => h) h.fP h.fS (fun _ h => h) (fun rm hrm => (hnd rm hrm).elim)
        (fun _ _ _ _ => rfl) ?_ (fun rm y hy => ⟨y, hy, rfl⟩)
      · exact Good.ok ⟨hch.1, hch.2, by simpa [State.see, State.objOf, hx] using ho, rfl, rfl, fun _ _ h _ => h, fun _ _ _ _ => rfl⟩
      · simp [next, viewOf, hx, ho, State.see, State.targetOf]
    | some rm =>
      simp only []
      cases hz : s.remote rm with
      | none => exact Good.no
      | some z =>
        simp only [State.remoteRef, hz, Out.andThen]
        have hw : hOwner s.objOf s.targetOf (.iface i) = some none := by simp [hOwner, hno]
        have h2 := h.r.ref (h := .iface i) (k := rm) (l := z.refs) (by simp [rRefs, hz]) (.inr hw)
        have hown : (fun a => if a = Holder.iface i then (hOwner s.objOf s.targetOf a).map fun _ => some rm
            else hOwner s.objOf s.targetOf a) = hOwner (fun j => if j = i then some rm else s.objOf j) s.targetOf := by
          funext a
          cases a with
          | iface j => simp only [hOwner, Holder.iface.injEq]; split <;> rfl
          | proxy q => simp [hOwner]
          | other => simp [hOwner]
        rw [hown] at h2
        have hch := Inv.change (s' := (((s.setRemote rm (some { z with refs := .iface i :: z.refs }))).setIface i
            (some { x with obj := some rm })).see [.found i x.fqname (some rm)]) h (x' := { x with obj := some rm })
            (e := .found i x.fqname (some rm)) hx ⟨rfl, rfl⟩ rfl rfl rfl rfl rfl rfl rfl rfl ?_
            (by show Counted _ (uOwner (fun j => if j = i then x.proxy else s.proxyOf j) s.service)
                rw [proxyOf_if hx]; exact h.p) hsv
            (fun n hn he => absurd he hn) ?_ h.fP h.fS (fun _ h => h) (fun rm hrm => (hnd rm hrm).elim)
            (fun _ _ _ _ => rfl) ?_ ?_
        refine Good.ok ⟨hch.1, hch.2, ?_, ?_, ?_, fun _ _ h _ => h, fun _ _ _ _ => rfl⟩
        · simp [State.objOf, State.see, State.setIface, upd, hx, ho]
        · simp [State.proxyOf, State.see, State.setIface, upd, hx]
        · simp [State.serviceOf, State.see, State.setIface, upd, hx]
        · show Counted (rRefs (upd s.remote rm _)) _
          rw [rRefs_upd]; exact h2
        · intro k hk
          by_cases hkr : k = rm
          · rw [hkr, hz]; simp
          · simpa [State.see, State.setIface, State.setRemote, upd, hkr] using hk
        · simp [next, viewOf, hx, ho, State.see, State.setIface, State.setRemote, upd, State.targetOf]
        · intro k y hy
          by_cases hkr : k = rm
          · subst hkr
            simp only [State.see, State.setIface, State.setRemote, upd_same] at hy
            cases hy
            exact ⟨z, hz, rfl⟩
          · exact ⟨y, by simpa [State.see, State.setIface, State.setRemote, upd, hkr] using hy, rfl⟩

/-- A proxy for the object, unless there's one. -/
def State.proxyNext (s : State) (i : Nat) : Option Nat :=
  match s.objOf i, s.proxyOf i with
  | some _, none => some s.proxies
  | _, p => p

theorem Inv.makeProxy {s : State} (h : Inv s) {i : Nat} (hi : s.iface i ≠ none) :
    Good (s.makeProxy i) fun s' => Does i s (s.objOf i) (s.proxyNext i) (s.serviceOf i) s' ∧
      (s.proxyOf i = none → ∀ p, s'.proxyOf i = some p → s'.targetOf p = s.objOf i) := by
  obtain ⟨x, hx⟩ := Option.ne_none_iff_exists'.1 hi
  have hobj : s.objOf i = x.obj := by simp [State.objOf, hx]
  have hpr : s.proxyOf i = x.proxy := by simp [State.proxyOf, hx]
  have hsv : ∀ n, x.service = some n → s.service n ≠ none ∧ ∀ j, j ≠ i → s.serviceOf j ≠ some n := by
    intro n hn
    have hn' : s.serviceOf i = some n := by simpa [State.serviceOf, hx] using hn
    exact ⟨h.nE i n hn', fun j hj he => hj (h.nU j i n he hn')⟩
  simp only [State.makeProxy, hx]
  cases ho : x.obj with
  | none =>
    simp only []
    exact Good.ok ⟨⟨h, Rel.refl _ _, rfl, by simp [State.proxyNext, hobj, ho], rfl, fun _ _ h _ => h, fun _ _ _ _ => rfl⟩,
      fun h1 p h2 => by rw [h1] at h2; cases h2⟩
  | some rm =>
    cases hp : x.proxy with
    | some q =>
      simp only []
      exact Good.ok ⟨⟨h, Rel.refl _ _, rfl, by simp [State.proxyNext, hobj, ho, hpr, hp], rfl, fun _ _ h _ => h,
        fun _ _ _ _ => rfl⟩, fun h1 p h2 => by rw [h1] at h2; cases h2⟩
    | none =>
      simp only []
      have hfresh : s.proxy s.proxies = none := by
        cases hq : s.proxy s.proxies with
        | none => rfl
        | some y => exact absurd (h.fP s.proxies (by rw [hq]; simp)) (Nat.lt_irrefl _)
      have hw0 : hOwner s.objOf s.targetOf (.iface i) = some (some rm) := by simp [hOwner, hobj, ho]
      obtain ⟨z, hz, -⟩ := remote_mem h.r hw0
      simp only [State.remoteRef, hz, Out.andThen]
      have hw : hOwner s.objOf s.targetOf (.proxy s.proxies) = some none := by simp [hOwner, State.targetOf, hfresh]
      have h2 := h.r.ref (h := .proxy s.proxies) (k := rm) (l := z.refs) (by simp [rRefs, hz]) (.inr hw)
      have hw3 : uOwner s.proxyOf s.service (.iface i) = some none := by simp [uOwner, hpr, hp]
      have h3 := h.p.new (h := .iface i) (k := s.proxies) (by simp [pRefs, hfresh]) (.inr hw3)
      have hown : (fun a => if a = Holder.proxy s.proxies then (hOwner s.objOf s.targetOf a).map fun _ => some rm
            else hOwner s.objOf s.targetOf a) = hOwner s.objOf (fun q => if q = s.proxies then some rm else s.targetOf q) := by
          funext a
          cases a with
          | iface j => simp [hOwner]
          | proxy q => simp only [hOwner, Holder.proxy.injEq]; split <;> rfl
          | other => simp [hOwner]
      rw [hown] at h2
      have hown3 : (fun a => if a = User.iface i then (uOwner s.proxyOf s.service a).map fun _ => some s.proxies
            else uOwner s.proxyOf s.service a) = uOwner (fun j => if j = i then some s.proxies else s.proxyOf j) s.service := by
          funext a
          cases a with
          | iface j => simp only [uOwner, User.iface.injEq]; split <;> rfl
          | service q => simp [uOwner]
          | other => simp [uOwner]
      rw [hown3] at h3
      have htgt : ∀ j q, s.proxyOf j = some q → q ≠ s.proxies := by
        intro j q hq he
        subst he
        have := h.p.live (.iface j) s.proxies (by simp [uOwner, hq])
        simp [pRefs, hfresh] at this
      have hch := Inv.change (s' := (((({ (s.setRemote rm (some { z with refs := .proxy s.proxies :: z.refs })) with
            proxies := s.proxies + 1 } : State).setProxy s.proxies
            (some { refs := [.iface i], remote := rm })).setIface i (some { x with proxy := some s.proxies })).see
            [.made i s.proxies rm])) h (x' := { x with proxy := some s.proxies })
          (e := .made i s.proxies rm) hx rfl rfl rfl rfl rfl rfl rfl rfl rfl ?_ ?_ hsv
          (fun n hn he => absurd he hn) ?_ ?_ h.fS (fun _ h => h) ?_ ?_ ?_ ?_
      rw [ho] at hch
      refine Good.ok ⟨⟨hch.1, hch.2, ?_, ?_, ?_, fun _ _ h _ => h, ?_⟩, ?_⟩
      · simp [State.objOf, State.see, State.setIface, upd, hx, ho]
      · simp [State.proxyNext, State.proxyOf, State.objOf, State.see, State.setIface, State.setProxy, State.setRemote, upd, hx, ho, hp]
      · simp [State.serviceOf, State.see, State.setIface, upd, hx]
      · intro j q _ hq
        simp [State.targetOf, State.see, State.setIface, State.setProxy, State.setRemote, upd, htgt j q hq]
      · intro _ q hq
        simp [State.proxyOf, State.see, State.setIface, State.setProxy, State.setRemote, upd] at hq
        subst hq
        simp [State.targetOf, State.see, State.setIface, State.setProxy, State.setRemote, upd, hobj, ho]
      · show Counted (rRefs (upd s.remote rm _)) (hOwner (fun j => if j = i then x.obj else s.objOf j)
          fun q => ((upd s.proxy s.proxies _) q).map (·.remote))
        rw [rRefs_upd, objOf_if hx]
        have : (fun q => ((upd s.proxy s.proxies (some { refs := [User.iface i], remote := rm })) q).map (·.remote)) =
            fun q => if q = s.proxies then some rm else s.targetOf q := by
          funext q; simp only [upd]; split <;> rfl
        rw [this]; exact h2
      · show Counted (pRefs (upd s.proxy s.proxies _)) _
        rw [pRefs_upd]; exact h3
      · intro k hk
        by_cases hkr : k = rm
        · rw [hkr, hz]; simp
        · simpa [State.see, State.setIface, State.setRemote, State.setProxy, upd, hkr] using hk
      · intro q hq
        show q < s.proxies + 1
        by_cases hqp : q = s.proxies
        · omega
        · have := h.fP q (by simpa [State.see, State.setIface, State.setRemote, State.setProxy, upd, hqp] using hq)
          omega
      · intro k hk
        have := h.death k i hk
        rw [hobj] at this; exact this
      · intro j q _ hq
        simp [State.targetOf, State.see, State.setIface, State.setProxy, State.setRemote, upd, htgt j q hq]
      · simp [next, viewOf, hx, ho, hp, State.see, State.setIface, State.setProxy, State.setRemote, upd, State.targetOf]
      · intro k y hy
        by_cases hkr : k = rm
        · subst hkr
          simp only [State.see, State.setIface, State.setRemote, State.setProxy, upd_same] at hy
          cases hy
          exact ⟨z, hz, rfl⟩
        · exact ⟨y, by simpa [State.see, State.setIface, State.setRemote, State.setProxy, upd, hkr] using hy, rfl⟩

/-- A service, unless there's one. -/
def State.serviceNext (s : State) (i : Nat) : Option Nat :=
  match s.proxyOf i, s.serviceOf i with
  | some _, none => some s.services
  | _, n => n

theorem Inv.publish {s : State} (h : Inv s) {i : Nat} (hi : s.iface i ≠ none) :
    Good (s.publish i) (Does i s (s.objOf i) (s.proxyOf i) (s.serviceNext i)) := by
  obtain ⟨x, hx⟩ := Option.ne_none_iff_exists'.1 hi
  have hobj : s.objOf i = x.obj := by simp [State.objOf, hx]
  have hpr : s.proxyOf i = x.proxy := by simp [State.proxyOf, hx]
  have hse : s.serviceOf i = x.service := by simp [State.serviceOf, hx]
  simp only [State.publish, hx]
  cases hp : x.proxy with
  | none =>
    simp only []
    exact Good.ok ⟨h, Rel.refl _ _, rfl, rfl, by simp [State.serviceNext, hpr, hp], fun _ _ h _ => h, fun _ _ _ _ => rfl⟩
  | some p =>
    cases hn : x.service with
    | some q =>
      simp only []
      exact Good.ok ⟨h, Rel.refl _ _, rfl, rfl, by simp [State.serviceNext, hpr, hp, hse, hn], fun _ _ h _ => h,
        fun _ _ _ _ => rfl⟩
    | none =>
      simp only []
      have hfresh : s.service s.services = none := by
        cases hq : s.service s.services with
        | none => rfl
        | some y => exact absurd (h.fS s.services (by rw [hq]; simp)) (Nat.lt_irrefl _)
      have hw0 : uOwner s.proxyOf s.service (.iface i) = some (some p) := by simp [uOwner, hpr, hp]
      obtain ⟨z, hz, -⟩ := proxy_mem h.p hw0
      simp only [hz]
      have hw : uOwner s.proxyOf s.service (.service s.services) = some none := by simp [uOwner, hfresh]
      have h2 := h.p.ref (h := .service s.services) (k := p) (l := z.refs) (by simp [pRefs, hz]) (.inr hw)
      have hown : (fun a => if a = User.service s.services then (uOwner s.proxyOf s.service a).map fun _ => some p
            else uOwner s.proxyOf s.service a) = uOwner s.proxyOf (upd s.service s.services (some p)) := by
          funext a
          cases a with
          | iface j => simp [uOwner]
          | service q => simp only [uOwner, User.service.injEq, upd]; split <;> rfl
          | other => simp [uOwner]
      rw [hown] at h2
      have htgt : ∀ q, ((upd s.proxy p (some { z with refs := .service s.services :: z.refs })) q).map (·.remote) =
          s.targetOf q := by
        intro q
        simp only [upd]
        split
        · rename_i hq; subst hq; simp [State.targetOf, hz]
        · rfl
      have hch := Inv.change (s' := (((({ s with services := s.services + 1, service := upd s.service s.services (some p) } :
            State).setProxy p (some { z with refs := .service s.services :: z.refs })).setIface i
            (some { x with service := some s.services })).see [.published i s.services p x.srcName]))
            h (x' := { x with service := some s.services })
          (e := .published i s.services p x.srcName) hx ⟨rfl, rfl⟩ rfl rfl rfl rfl rfl rfl rfl rfl ?_ ?_ ?_
          ?_ (fun _ h => h) ?_ ?_ (fun _ h => h) ?_ (fun _ q _ _ => htgt q) ?_ (fun k y hy => ⟨y, hy, rfl⟩)
      rw [hp] at hch
      refine Good.ok ⟨hch.1, hch.2, ?_, ?_, ?_, fun _ _ h _ => h, fun _ q _ _ => htgt q⟩
      · simp [State.objOf, State.see, State.setIface, upd, hx]
      · simp [State.proxyOf, State.see, State.setIface, upd, hx, hp]
      · simp [State.serviceOf, State.serviceNext, State.proxyOf, State.see, State.setIface, State.setProxy, upd, hx, hp, hn]
      · show Counted (rRefs s.remote) (hOwner (fun j => if j = i then x.obj else s.objOf j)
          fun q => ((upd s.proxy p _) q).map (·.remote))
        rw [objOf_if hx, funext htgt]; exact h.r
      · show Counted (pRefs (upd s.proxy p _)) (uOwner (fun j => if j = i then x.proxy else s.proxyOf j) _)
        rw [pRefs_upd, proxyOf_if hx]; exact h2
      · intro n hn
        cases hn
        refine ⟨by simp [State.see, State.setIface, State.setProxy, upd], fun j _ hj => h.nE j _ hj hfresh⟩
      · intro n hn he
        simp only [State.see, State.setIface, State.setProxy, upd] at he
        split at he
        · cases he
        · exact absurd he hn
      · intro q hq
        by_cases hqp : q = p
        · exact h.fP q (by rw [hqp, hz]; simp)
        · exact h.fP q (by simpa [State.see, State.setIface, State.setProxy, upd, hqp] using hq)
      · intro q hq
        show q < s.services + 1
        by_cases hqp : q = s.services
        · omega
        · have := h.fS q (by simpa [State.see, State.setIface, State.setProxy, upd, hqp] using hq)
          omega
      · intro k hk
        have := h.death k i hk
        rw [hobj] at this; exact this
      · simp [next, viewOf, hx, hn, hp, State.see, State.setIface, State.setProxy, upd, State.targetOf, hz]

theorem Inv.checkDead {s : State} (h : Inv s) {i : Nat} (hi : s.iface i ≠ none) :
    Good (s.checkDead i) fun s' => s' = s ∨ Does i s none (s.proxyOf i) (s.serviceOf i) s' ∧
      ∃ rm, s.objOf i = some rm ∧ .died rm ∈ s.log := by
  obtain ⟨x, hx⟩ := Option.ne_none_iff_exists'.1 hi
  have hobj : s.objOf i = x.obj := by simp [State.objOf, hx]
  simp only [State.checkDead, hx]
  cases ho : x.obj with
  | none => exact Good.ok (.inl rfl)
  | some rm =>
    have hw : hOwner s.objOf s.targetOf (.iface i) = some (some rm) := by simp [hOwner, hobj, ho]
    obtain ⟨z, hz, -⟩ := remote_mem h.r hw
    simp only [hz]
    split
    · rename_i hd
      exact (h.dropRemote hi).mono fun s' hs => .inr ⟨hs, rm, by rw [hobj, ho], (h.dead _ _ hz).1 hd⟩
    · exact Good.ok (.inl rfl)

end Gb.Bridge
