import Verif.Spec.ClientCalls
import Verif.Lemmas.AsyncFacts
import Verif.Lemmas.Proxy
/-
References to clients, requests, replies and remote objects.
-/
set_option autoImplicit false

namespace Gb.ClientCalls

open Async (Before After Facts)
open Buffers (total total_congr le_total)
open Proxy (total_upd_of total_new)

theorem set_same (f : Obj → Nat) (o : Obj) (v : Nat) : set f o v o = v := by simp [set]
theorem set_ne (f : Obj → Nat) {o x : Obj} (v : Nat) (h : x ≠ o) : set f o v x = f x := by simp [set, h]

/-! ### References -/

def callRefs (o : Obj) : Option Call → Nat
  | none => 0
  | some c => c.holds.count o

def clientRefs (o : Obj) : Option Client → Nat
  | none => 0
  | some c => c.holds.count o

/-- What the log says about an object. -/
structure Mark (s : State) (o : Obj) : Prop where
  live : 0 < s.refs o → s.log.count (.made o) = 1 ∧ s.log.count (.freed o) = 0
  dead : s.refs o = 0 → s.log.count (.freed o) = s.log.count (.made o) ∧ s.log.count (.made o) ≤ 1
  fresh : s.next ≤ o.no → s.refs o = 0 ∧ s.log.count (.made o) = 0
  app : s.app o + s.log.count (.unref o) = s.log.count (.ref o)

/-- All references have owners; `x` are those of the function which is running. -/
structure Refs (s : State) (x : List Obj) : Prop where
  count : ∀ o, s.refs o = s.app o + total (fun p => callRefs o (s.calls p)) s.tx.calls + total (fun i => clientRefs o (s.clients i)) s.next + x.count o
  alive : ∀ i, s.clients i = none ↔ s.refs (.client i) = 0
  lt : ∀ p c, s.calls p = some c → p < s.tx.calls
  mark : ∀ o, Mark s o

theorem Refs.init : Refs {} [] := by
  constructor
  · intro o; simp [total]
  · simp
  · simp
  · intro o; constructor <;> simp

theorem Refs.clientLt {s : State} {x : List Obj} (h : Refs s x) {i : Nat} {c : Client} (hc : s.clients i = some c) : i < s.next := by
  refine Nat.lt_of_not_le fun hn => ?_
  have := ((h.mark (.client i)).fresh hn).1
  rw [← h.alive, hc] at this
  cases this

theorem Refs.client {s : State} {x : List Obj} (h : Refs s x) {i : Nat} (hr : s.refs (.client i) ≠ 0) : ∃ c, s.clients i = some c := by
  cases hc : s.clients i with
  | some c => exact ⟨c, rfl⟩
  | none => exact absurd ((h.alive i).1 hc) hr

theorem Refs.call {s : State} {x : List Obj} (h : Refs s x) {p : Nat} {c : Call} (hc : s.calls p = some c) (o : Obj) :
    c.holds.count o ≤ s.refs o := by
  rw [h.count]
  have := le_total (f := fun p => callRefs o (s.calls p)) (h.lt p c hc)
  simp only [hc, callRefs] at this
  have h0 : callRefs o (some c) = c.holds.count o := rfl
  have := le_total (f := fun p => callRefs o (s.calls p)) (h.lt p c hc)
  rw [hc, h0] at this
  omega

theorem Refs.ofClient {s : State} {x : List Obj} (h : Refs s x) {i : Nat} {c : Client} (hc : s.clients i = some c) (o : Obj) :
    c.holds.count o ≤ s.refs o := by
  rw [h.count]
  have h0 : clientRefs o (some c) = c.holds.count o := rfl
  have := le_total (f := fun p => clientRefs o (s.clients p)) (h.clientLt hc)
  rw [hc, h0] at this
  omega

/-- Something that doesn't have anything to do with references. -/
def Ev.plain : Ev → Bool
  | .made _ | .freed _ | .ref _ | .unref _ => false
  | _ => true

theorem Mark.plain {s s' : State} {o : Obj} (h : Mark s o) {evs : List Ev} (hl : s'.log = s.log ++ evs) (he : ∀ e ∈ evs, e.plain = true)
    (hr : s'.refs = s.refs) (hn : s'.next = s.next) (ha : s'.app = s.app) : Mark s' o := by
  have hc : ∀ e, e.plain = false → s'.log.count e = s.log.count e := by
    intro e hp
    have h0 : evs.count e = 0 := List.count_eq_zero.2 fun hm => by rw [he e hm] at hp; cases hp
    rw [hl, List.count_append, h0]; rfl
  constructor
  · rw [hr, hc _ rfl, hc _ rfl]; exact h.live
  · rw [hr, hc _ rfl, hc _ rfl]; exact h.dead
  · rw [hr, hn, hc _ rfl]; exact h.fresh
  · rw [ha, hc _ rfl, hc _ rfl]; exact h.app

/-- Nothing happens to the references. -/
theorem Refs.plain {s s' : State} {x : List Obj} (h : Refs s x) {evs : List Ev} (hl : s'.log = s.log ++ evs) (he : ∀ e ∈ evs, e.plain = true)
    (hr : s'.refs = s.refs) (hn : s'.next = s.next) (ha : s'.app = s.app) (hc : s'.calls = s.calls) (ht : s'.tx.calls = s.tx.calls)
    (hk : s'.clients = s.clients) : Refs s' x := by
  constructor
  · rw [hr, hn, ha, hc, ht, hk]; exact h.count
  · rw [hr, hk]; exact h.alive
  · rw [hc, ht]; exact h.lt
  · exact fun o => (h.mark o).plain hl he hr hn ha

theorem Refs.take {s : State} {x : List Obj} (h : Refs s x) {o : Obj} (ho : 0 < s.refs o) :
    ∃ s', s.take o = .ok s' ∧ Refs s' (o :: x) ∧ s' = { s with refs := set s.refs o (s.refs o + 1) } := by
  refine ⟨_, by simp only [State.take]; rw [if_neg (by omega)], ?_, rfl⟩
  constructor
  · intro y
    have := h.count y
    simp only [set, List.count_cons, beq_iff_eq]
    grind
  · intro i
    simp only [set]
    rw [h.alive i]
    split
    · rename_i e; subst e; omega
    · rfl
  · exact h.lt
  · intro y
    have hm := h.mark y
    refine ⟨?_, ?_, ?_, hm.app⟩
    · intro hy
      refine hm.live ?_
      simp only [set] at hy
      split at hy
      · rename_i e; subst e; exact ho
      · exact hy
    · intro hy
      refine hm.dead ?_
      simp only [set] at hy
      split at hy
      · omega
      · exact hy
    · intro hy
      have := hm.fresh hy
      simp only [set]
      split
      · rename_i e; subst e; omega
      · exact this

theorem Refs.make {s : State} {x : List Obj} (h : Refs s x) {o : Obj} (ho : o.no = s.next) (hc : ∀ i, o ≠ .client i) : Refs (s.make o) (o :: x) := by
  have hf := (h.mark o).fresh (by omega)
  have hnc : s.clients s.next = none := (h.alive s.next).2 ((h.mark (.client s.next)).fresh (Nat.le_refl _)).1
  constructor
  · intro y
    have := h.count y
    have h0 : total (fun i => clientRefs y (s.clients i)) (s.next + 1) = total (fun i => clientRefs y (s.clients i)) s.next := by
      simp [total, hnc, clientRefs]
    simp only [State.make, State.see, set, List.count_cons, beq_iff_eq, h0]
    grind
  · intro i
    simp only [State.make, State.see, set]
    rw [h.alive i]
    split
    · rename_i e; exact absurd e.symm (hc i)
    · rfl
  · exact h.lt
  · intro y
    have hm := h.mark y
    have h1 := hm.live
    have h2 := hm.dead
    have h3 := hm.fresh
    have h4 := hm.app
    refine ⟨?_, ?_, ?_, ?_⟩ <;> simp only [State.make, State.see, set, List.count_append, List.count_singleton] <;> grind

theorem Refs.makeClient {s : State} {x : List Obj} {c : Client} (h : Refs s (c.holds ++ x)) :
    Refs { s.make (.client s.next) with clients := upd s.clients s.next (some c) } (.client s.next :: x) := by
  have hf := (h.mark (.client s.next)).fresh (Nat.le_refl _)
  constructor
  · intro y
    have h1 := h.count y
    have h0 := total_new (clientRefs y) s.clients s.next (some c)
    rw [show clientRefs y (some c) = c.holds.count y from rfl] at h0
    simp only [State.make, State.see, set, List.count_cons, beq_iff_eq, h0]
    rw [List.count_append] at h1
    grind
  · intro i
    simp only [State.make, State.see, set, upd]
    have := h.alive i
    grind
  · exact h.lt
  · intro y
    have hm := h.mark y
    have h1 := hm.live
    have h2 := hm.dead
    have h3 := hm.fresh
    have h4 := hm.app
    have h5 : (Obj.client s.next).no = s.next := rfl
    refine ⟨?_, ?_, ?_, ?_⟩ <;> simp only [State.make, State.see, set, List.count_append, List.count_singleton] <;> grind

theorem Refs.give {s : State} {x : List Obj} {o : Obj} (h : Refs s (o :: x)) : Refs (s.give o) x := by
  constructor
  · intro y
    have := h.count y
    simp only [State.give, State.see, set]
    rw [List.count_cons] at this
    grind
  · exact h.alive
  · exact h.lt
  · intro y
    have hm := h.mark y
    have h1 := hm.live
    have h2 := hm.dead
    have h3 := hm.fresh
    have h4 := hm.app
    refine ⟨?_, ?_, ?_, ?_⟩ <;> simp only [State.give, State.see, set, List.count_append, List.count_singleton] <;> grind

theorem Refs.ungive {s : State} {x : List Obj} (h : Refs s x) {o : Obj} (ho : 0 < s.app o) :
    Refs (State.see { s with app := set s.app o (s.app o - 1) } [.unref o]) (o :: x) := by
  constructor
  · intro y
    have := h.count y
    simp only [State.see, set, List.count_cons, beq_iff_eq]
    grind
  · exact h.alive
  · exact h.lt
  · intro y
    have hm := h.mark y
    have h1 := hm.live
    have h2 := hm.dead
    have h3 := hm.fresh
    have h4 := hm.app
    refine ⟨?_, ?_, ?_, ?_⟩ <;> simp only [State.see, set, List.count_append, List.count_singleton] <;> grind

/-- Only what matters for the references has changed. -/
structure Quiet (s s' : State) : Prop where
  calls : s'.calls = s.calls
  tx : s'.tx = s.tx
  handle : s'.handle = s.handle
  log : ∃ evs, s'.log = s.log ++ evs ∧ ∀ e ∈ evs, e.plain = false

theorem Quiet.refl (s : State) : Quiet s s := ⟨rfl, rfl, rfl, [], by simp, by simp⟩
theorem Quiet.trans {s t u : State} (h : Quiet s t) (g : Quiet t u) : Quiet s u := by
  obtain ⟨e, h1, h2⟩ := h.log
  obtain ⟨f, g1, g2⟩ := g.log
  refine ⟨g.calls.trans h.calls, g.tx.trans h.tx, g.handle.trans h.handle, e ++ f, by rw [g1, h1, List.append_assoc], ?_⟩
  intro x hx
  rcases List.mem_append.1 hx with hx | hx
  · exact h2 x hx
  · exact g2 x hx

/-- A reference is dropped, and the object isn't a client. -/
theorem Refs.drop {s : State} {x : List Obj} {o : Obj} (h : Refs s (o :: x)) (ho : ∀ i, o ≠ .client i) :
    ∃ s', s.drop o = .ok s' ∧ Refs s' x ∧ Quiet s s' := by
  have hpos : 0 < s.refs o := by
    have := h.count o
    rw [List.count_cons] at this
    simp at this
    omega
  simp only [State.drop]
  rw [if_neg (by omega)]
  split
  · rename_i h1
    refine ⟨_, rfl, ?_, ⟨rfl, rfl, rfl, [.freed o], rfl, by simp [Ev.plain]⟩⟩
    constructor
    · intro y
      have := h.count y
      simp only [State.see, set]
      rw [List.count_cons] at this
      grind
    · intro i
      have := h.alive i
      have := ho i
      simp only [State.see, set]
      grind
    · exact h.lt
    · intro y
      have hm := h.mark y
      have h1 := hm.live
      have h2 := hm.dead
      have h3 := hm.fresh
      have h4 := hm.app
      refine ⟨?_, ?_, ?_, ?_⟩ <;> simp only [State.see, set, List.count_append, List.count_singleton] <;> grind
  · rename_i h1
    refine ⟨_, rfl, ?_, ⟨rfl, rfl, rfl, [], by simp, by simp⟩⟩
    constructor
    · intro y
      have := h.count y
      simp only [set]
      rw [List.count_cons] at this
      grind
    · intro i
      have := h.alive i
      have := ho i
      simp only [set]
      grind
    · exact h.lt
    · intro y
      have hm := h.mark y
      have h1 := hm.live
      have h2 := hm.dead
      have h3 := hm.fresh
      have h4 := hm.app
      refine ⟨?_, ?_, ?_, ?_⟩ <;> simp only [set] <;> grind

theorem Refs.dropAll {s : State} {x l : List Obj} (h : Refs s (l ++ x)) (hl : ∀ o ∈ l, ∀ i, o ≠ .client i) :
    ∃ s', s.dropAll l = .ok s' ∧ Refs s' x ∧ Quiet s s' := by
  induction l generalizing s with
  | nil => exact ⟨s, rfl, h, Quiet.refl s⟩
  | cons o l ih =>
    obtain ⟨s1, h1, h2, h3⟩ := Refs.drop (o := o) (x := l ++ x) h (hl o (by simp))
    obtain ⟨s2, g1, g2, g3⟩ := ih h2 (fun o ho => hl o (by simp [ho]))
    refine ⟨s2, ?_, g2, h3.trans g3⟩
    simp only [State.dropAll, h1]
    exact g1

theorem Refs.dropClient {s : State} {x : List Obj} {i : Nat} (h : Refs s (.client i :: x)) :
    ∃ s', s.dropClient i = .ok s' ∧ Refs s' x ∧ Quiet s s' := by
  have hpos : 0 < s.refs (.client i) := by
    have := h.count (.client i)
    rw [List.count_cons] at this
    simp at this
    omega
  simp only [State.dropClient]
  split
  · rename_i h1
    obtain ⟨c, hc⟩ := h.client (i := i) (by omega)
    have hlt := h.clientLt hc
    simp only [hc]
    simp only [State.drop, h1, Nat.succ_ne_zero, if_false, if_true, Out.andThen]
    have hr : Refs { State.see { s with refs := set s.refs (.client i) 0 } [.freed (.client i)] with clients := upd s.clients i none } (c.holds ++ x) := by
      constructor
      · intro y
        have h2 := h.count y
        have h3 := total_upd_of (clientRefs y) s.clients none hlt
        rw [hc, show clientRefs y none = 0 from rfl, show clientRefs y (some c) = c.holds.count y from rfl] at h3
        rw [List.count_cons] at h2
        simp only [State.see, set, List.count_append]
        grind
      · intro j
        have := h.alive j
        simp only [State.see, set, upd]
        grind
      · exact h.lt
      · intro y
        have hm := h.mark y
        have h1 := hm.live
        have h2 := hm.dead
        have h3 := hm.fresh
        have h4 := hm.app
        refine ⟨?_, ?_, ?_, ?_⟩ <;> simp only [State.see, set, List.count_append, List.count_singleton] <;> grind
    obtain ⟨s', g1, g2, g3⟩ := Refs.dropAll hr (by
      intro o ho j e
      subst e
      simp [Client.holds] at ho)
    have h0 : Quiet s { State.see { s with refs := set s.refs (.client i) 0 } [.freed (.client i)] with clients := upd s.clients i none } :=
      ⟨rfl, rfl, rfl, [.freed (.client i)], rfl, by simp [Ev.plain]⟩
    exact ⟨s', g1, g2, h0.trans g3⟩
  · rename_i h1
    simp only [State.drop]
    rw [if_neg (by omega), if_neg h1]
    refine ⟨_, rfl, ?_, ⟨rfl, rfl, rfl, [], by simp, by simp⟩⟩
    constructor
    · intro y
      have := h.count y
      simp only [set]
      rw [List.count_cons] at this
      grind
    · intro j
      have := h.alive j
      simp only [set]
      grind
    · exact h.lt
    · intro y
      have hm := h.mark y
      have h1 := hm.live
      have h2 := hm.dead
      have h3 := hm.fresh
      have h4 := hm.app
      refine ⟨?_, ?_, ?_, ?_⟩ <;> simp only [set] <;> grind

theorem Refs.dropAny {s : State} {x : List Obj} {o : Obj} (h : Refs s (o :: x)) : ∃ s', s.dropAny o = .ok s' ∧ Refs s' x ∧ Quiet s s' := by
  cases o with
  | client i => exact h.dropClient
  | remote i => exact h.drop (by simp)
  | request i => exact h.drop (by simp)
  | reply i => exact h.drop (by simp)

/-! ### References of calls -/

/-- The references of a call have changed. -/
theorem Refs.setCall {s s' : State} {x y : List Obj} (h : Refs s x) {p : Nat} {v : Option Call} (hp : p < s.tx.calls)
    (hs : s'.calls = upd s.calls p v) (hr : s'.refs = s.refs) (hn : s'.next = s.next) (ha : s'.app = s.app) (ht : s'.tx.calls = s.tx.calls)
    (hk : s'.clients = s.clients) {evs : List Ev} (hl : s'.log = s.log ++ evs) (he : ∀ e ∈ evs, e.plain = true)
    (hv : ∀ o, callRefs o (s.calls p) + x.count o = callRefs o v + y.count o) : Refs s' y := by
  constructor
  · intro o
    rw [hr, hn, ha, ht, hk, hs]
    have h1 := h.count o
    have h2 := total_upd_of (callRefs o) s.calls v hp
    have h3 := hv o
    omega
  · rw [hr, hk]; exact h.alive
  · intro q c hq
    rw [ht]
    rw [hs] at hq
    by_cases e : q = p
    · rw [e]; exact hp
    · rw [upd_ne _ _ e] at hq
      exact h.lt q c hq
  · exact fun o => (h.mark o).plain hl he hr hn ha

theorem Refs.newCall {s s' : State} {x : List Obj} {c : Call} (h : Refs s (c.holds ++ x))
    (hs : s'.calls = upd s.calls s.tx.calls (some c)) (hr : s'.refs = s.refs) (hn : s'.next = s.next) (ha : s'.app = s.app)
    (ht : s'.tx.calls = s.tx.calls + 1) (hk : s'.clients = s.clients) {evs : List Ev} (hl : s'.log = s.log ++ evs) (he : ∀ e ∈ evs, e.plain = true) :
    Refs s' x := by
  constructor
  · intro o
    rw [hr, hn, ha, ht, hk, hs]
    have h1 := h.count o
    have h2 := total_new (callRefs o) s.calls s.tx.calls (some c)
    rw [show callRefs o (some c) = c.holds.count o from rfl] at h2
    rw [List.count_append] at h1
    omega
  · rw [hr, hk]; exact h.alive
  · intro q d hq
    rw [ht]
    rw [hs] at hq
    by_cases e : q = s.tx.calls
    · omega
    · rw [upd_ne _ _ e] at hq
      have := h.lt q d hq
      omega
  · exact fun o => (h.mark o).plain hl he hr hn ha

/-! ### Calls -/

theorem life_append (p : Nat) (log evs : List Ev) :
    life p (log ++ evs) = evs.foldl (fun o e => o.bind (·.next p e)) (life p log) := by
  simp [life, List.foldl_append]

/-- The events which have something to do with calls. -/
def Ev.who : Ev → Option Nat
  | .called p _ _ _ _ | .performed p _ _ _ _ _ _ | .cancelled p | .told p _ _ _ _ | .destroyed p _ | .over p => some p
  | _ => none

theorem life_other {p : Nat} {evs : List Ev} (h : ∀ e ∈ evs, e.who ≠ some p) (log : List Ev) : life p (log ++ evs) = life p log := by
  rw [life_append]
  generalize life p log = o
  induction evs generalizing o with
  | nil => rfl
  | cons e evs ih =>
    rw [List.foldl_cons, ih (fun e' he => h e' (by simp [he]))]
    have := h e (by simp)
    cases o with
    | none => rfl
    | some c => cases e <;> simp [Ev.who] at this <;> simp [Life.next, this]

/-- What is known about a call which isn't over. -/
structure Going (s : State) (p : Nat) (c : Call) (t : Async.Tx) (res : Option (Option Nat × Int)) (told : Bool) : Prop where
  life : life p s.log = some (.live c.client c.handle c.req c.args res told t.cancelled)
  before : Before s.tx p → res = none
  after : After s.tx p → told = false ∧ (t.cancelled = false → res ≠ none)
  empty : res = none → c.reply = none ∧ told = false
  full : ∀ r st, res = some (r, st) → c.reply = r ∧ c.status = st

structure CallOk (s : State) (p : Nat) : Prop where
  new : s.tx.calls ≤ p → life p s.log = some .new
  gone : p < s.tx.calls → s.calls p = none → life p s.log = some .gone
  over : ∀ c, s.calls p = some c → c.over = true → s.tx.txs p = none ∧ life p s.log = some (.leaving c.client)
  live : ∀ c, s.calls p = some c → c.over = false → ∃ t res told, s.tx.txs p = some t ∧ Going s p c t res told
  tx : ∀ t, s.tx.txs p = some t → ∃ c, s.calls p = some c ∧ c.over = false

theorem CallOk.other {s s' : State} {q : Nat} (h : CallOk s q) (hd : s'.calls q = s.calls q) (ht : s'.tx.txs q = s.tx.txs q)
    (hn : s'.tx.calls ≤ q → s.tx.calls ≤ q) (hc : q < s'.tx.calls → s'.calls q = none → q < s.tx.calls)
    (hb : Before s'.tx q → Before s.tx q) (ha : After s'.tx q → After s.tx q) {evs : List Ev}
    (hl : s'.log = s.log ++ evs) (he : ∀ e ∈ evs, e.who ≠ some q) : CallOk s' q := by
  have hlife : Gb.ClientCalls.life q s'.log = Gb.ClientCalls.life q s.log := by rw [hl]; exact life_other he _
  constructor
  · intro x; rw [hlife]; exact h.new (hn x)
  · intro x y; rw [hlife]; exact h.gone (hc x y) (by rw [← hd]; exact y)
  · intro c x y; rw [hlife, ht]; exact h.over c (by rw [← hd]; exact x) y
  · intro c x y
    obtain ⟨t, res, told, a, b⟩ := h.live c (by rw [← hd]; exact x) y
    exact ⟨t, res, told, by rw [ht]; exact a, ⟨by rw [hlife]; exact b.life, fun z => b.before (hb z), fun z => b.after (ha z), b.empty, b.full⟩⟩
  · intro t x; rw [hd]; exact h.tx t (by rw [← ht]; exact x)

theorem plain_who {evs : List Ev} (h : ∀ e ∈ evs, e.plain = false) (q : Nat) : ∀ e ∈ evs, e.who ≠ some q := by
  intro e he
  have := h e he
  cases e <;> simp [Ev.plain] at this <;> simp [Ev.who]

theorem CallOk.quiet {s s' : State} {q : Nat} (h : CallOk s q) (hq : Quiet s s') : CallOk s' q := by
  obtain ⟨evs, h1, h2⟩ := hq.log
  exact h.other (by rw [hq.calls]) (by rw [hq.tx]) (by rw [hq.tx]; exact id) (by rw [hq.tx]; exact fun x _ => x) (by rw [hq.tx]; exact id) (by rw [hq.tx]; exact id)
    h1 (plain_who h2 q)

structure Inv (s : State) : Prop where
  facts : Facts s.tx
  calls : ∀ p, CallOk s p
  refs : Refs s []

theorem Inv.init : Inv {} := by
  refine ⟨Facts.of_reach Reach.init, ?_, Refs.init⟩
  intro p
  constructor <;> simp [Gb.ClientCalls.life]

/-- References have been taken, dropped and so on. -/
theorem Inv.quiet {s s' : State} (h : Inv s) (hq : Quiet s s') (hr : Refs s' []) : Inv s' :=
  ⟨by rw [hq.tx]; exact h.facts, fun p => (h.calls p).quiet hq, hr⟩

theorem Inv.plain {s : State} (h : Inv s) {e : Ev} (h1 : e.plain = true) (h2 : e.who = none) : Inv (s.see [e]) :=
  ⟨h.facts, fun _ => (h.calls _).other (evs := [e]) rfl rfl id (fun x _ => x) id id rfl (by simp [h2]),
    h.refs.plain (evs := [e]) rfl (by simp [h1]) rfl rfl rfl rfl rfl rfl⟩

/-- Only the transactions move. -/
theorem Inv.moves {s : State} (h : Inv s) {l : Async.Label} {tx : Async.State} (hs : Async.step s.tx l = .ok tx)
    (ht : tx.txs = s.tx.txs) (hc : tx.calls = s.tx.calls) (hb : ∀ q, Before tx q → Before s.tx q)
    (ha : ∀ q, After tx q → After s.tx q ∨ (Before s.tx q ∧ ∃ t, s.tx.txs q = some t ∧ t.cancelled = true)) :
    Inv { s with tx := tx } := by
  refine ⟨h.facts.step hs, fun q => ?_, h.refs.plain (evs := []) (by simp) (by simp) rfl rfl rfl rfl hc rfl⟩
  have hq := h.calls q
  constructor
  · show tx.calls ≤ q → _
    rw [hc]; exact hq.new
  · show q < tx.calls → _
    rw [hc]; exact hq.gone
  · intro c x y
    show tx.txs q = none ∧ _
    rw [ht]; exact hq.over c x y
  · intro c x y
    obtain ⟨t, res, told, a, b⟩ := hq.live c x y
    refine ⟨t, res, told, by show tx.txs q = some t; rw [ht]; exact a, ⟨b.life, fun z => b.before (hb q z), fun z => ?_, b.empty, b.full⟩⟩
    rcases ha q z with z | ⟨z, t', u, v⟩
    · exact b.after z
    · rw [a] at u
      cases u
      exact ⟨(b.empty (b.before z)).2, fun e => by rw [v] at e; cases e⟩
  · intro t (x : tx.txs q = some t)
    rw [ht] at x
    exact hq.tx t x

theorem Inv.cancel {s : State} (h : Inv s) {id p : Nat} {tx : Async.State} {t : Async.Tx} (hs : Async.step s.tx (.cancel id) = .ok tx)
    (hc : tx.calls = s.tx.calls) (hb : ∀ q, Before tx q ↔ Before s.tx q) (ha : ∀ q, After tx q ↔ After s.tx q)
    (ht : s.tx.txs p = some t) (htx : tx.txs = upd s.tx.txs p (some { t with cancelled := true })) :
    Inv (State.see { s with tx := tx } [.cancelled p]) := by
  refine ⟨h.facts.step hs, fun q => ?_, h.refs.plain (evs := [.cancelled p]) rfl (by simp [Ev.plain]) rfl rfl rfl rfl hc rfl⟩
  by_cases hq : q = p
  · subst hq
    have hp := h.calls q
    obtain ⟨c, h1, h2⟩ := hp.tx t ht
    obtain ⟨t', res, told, h3, g⟩ := hp.live c h1 h2
    rw [ht] at h3
    cases h3
    have hlt := h.refs.lt q c h1
    constructor
    · intro (x : tx.calls ≤ q)
      omega
    · intro _ (y : s.calls q = none)
      rw [h1] at y; cases y
    · intro c' (x : s.calls q = some c') y
      rw [h1] at x; cases x
      rw [h2] at y; cases y
    · intro c' (x : s.calls q = some c') y
      rw [h1] at x; cases x
      refine ⟨{ t with cancelled := true }, res, told, ?_, ?_, fun z => g.before ((hb q).1 z), fun z => ⟨(g.after ((ha q).1 z)).1, by simp⟩, g.empty, g.full⟩
      · show tx.txs q = _
        rw [htx, upd_same]
      · show Gb.ClientCalls.life q (s.log ++ [.cancelled q]) = _
        rw [life_append, g.life]
        simp [Life.next]
    · intro t' _
      exact ⟨c, h1, h2⟩
  · refine (h.calls q).other rfl ?_ ?_ ?_ (hb q).1 (ha q).1 (evs := [.cancelled p]) rfl ?_
    · show tx.txs q = _
      rw [htx, upd_ne _ _ hq]
    · show tx.calls ≤ q → _
      rw [hc]; exact fun x => x
    · show q < tx.calls → _
      rw [hc]; exact fun x _ => x
    · simp [Ev.who]
      exact fun e => hq e.symm

end Gb.ClientCalls
