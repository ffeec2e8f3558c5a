import Verif.Lemmas.BridgeAll
/-
C61: a bridge publishes a service as long as there's one at the other side.
-/
set_option autoImplicit false

namespace Gb.C61

open Bridge

theorem all {s : State} (h : Reach step {} s) : All s :=
  h.invariant All.init fun s l _ hs hl => ((hs.step l).2 _ hl).1

/-- C61: nothing is accessed after it's been freed, and nobody's reference is dropped by somebody else. -/
theorem C61_safe {s : State} (h : Reach step {} s) (l : Label) : step s l ≠ .ub :=
  ((all h).step l).1

/-- C61: at any moment, there's at most one object, one proxy and one published service for each interface of a bridge, what's
published is the proxy, the proxy is made for the object which has been found, and everything is released before the
name stops being watched. -/
theorem C61_life {s : State} (h : Reach step {} s) (i : Nat) : (life i s.log).isSome = true := by
  rw [(all h).1.life i]; rfl

/-- C61: the names are the right ones. -/
theorem C61_names {s : State} (h : Reach step {} s) : Named s.log := (all h).2.named

/-- C61: the names are being watched until the bridge is freed. -/
theorem C61_open {s : State} (h : Reach step {} s) {b : Nat} {src dest : Bytes} {l : List (Nat × Bytes)}
    (ho : .opened b src dest l ∈ s.log) (hf : .freed b ∉ s.log) {i : Nat} {f : Bytes} (hi : (i, f) ∈ l)  :
    ∃ v, life i s.log = some v ∧ v.stage = .on := by
  obtain ⟨hI, hB⟩ := all h
  refine ⟨_, hI.life i, ?_⟩
  rcases (hB.opened b src dest l ho).2 with k | ⟨k, -⟩
  · rcases hB.there b _ k i (List.mem_map.2 ⟨_, hi, rfl⟩) with k | k
    · obtain ⟨x, hx⟩ := Option.ne_none_iff_exists'.1 k
      simp [viewOf, hx]
    · simp only [List.length_nil] at k; omega
  · exact absurd k hf

/-- C61: once the bridge has been freed, it has nothing. -/
theorem C61_freed {s : State} (h : Reach step {} s) {b : Nat} {src dest : Bytes} {l : List (Nat × Bytes)}
    (ho : .opened b src dest l ∈ s.log) (hf : .freed b ∈ s.log) {i : Nat} {f : Bytes} (hi : (i, f) ∈ l) :
    life i s.log = some { stage := .after } := by
  obtain ⟨hI, hB⟩ := all h
  rw [hI.life i]
  have hm : i ∈ l.map (·.1) := List.mem_map.2 ⟨_, hi, rfl⟩
  rcases (hB.opened b src dest l ho).2 with k | ⟨-, k⟩
  · rw [(hB.freed b hf).2] at k; cases k
  · obtain ⟨k1, k2⟩ := k i hm
    simp [viewOf, k1, k2]

/-- C61: it has no references to anything either. -/
theorem C61_released {s : State} (h : Reach step {} s) {b : Nat} {src dest : Bytes} {l : List (Nat × Bytes)}
    (ho : .opened b src dest l ∈ s.log) (hf : .freed b ∈ s.log) {i : Nat} {f : Bytes} (hi : (i, f) ∈ l) :
    (∀ rm x, s.remote rm = some x → .iface i ∉ x.refs) ∧ (∀ p x, s.proxy p = some x → .iface i ∉ x.refs) := by
  obtain ⟨hI, hB⟩ := all h
  have hm : i ∈ l.map (·.1) := List.mem_map.2 ⟨_, hi, rfl⟩
  have hno : s.iface i = none := by
    rcases (hB.opened b src dest l ho).2 with k | ⟨-, k⟩
    · rw [(hB.freed b hf).2] at k; cases k
    · exact (k i hm).1
  constructor
  · intro rm x hx
    have := hI.r.count rm x.refs (.iface i) none (by simp [rRefs, hx]) (by simp [hOwner, State.objOf, hno])
    exact List.count_eq_zero.1 (by simpa using this)
  · intro p x hx
    have := hI.p.count p x.refs (.iface i) none (by simp [pRefs, hx]) (by simp [uOwner, State.proxyOf, hno])
    exact List.count_eq_zero.1 (by simpa using this)

/-- A proxy which forwards requests to an object has a reference to it. -/
theorem C61_held {s : State} (h : Reach step {} s) {p : Nat} {x : Proxy} (hp : s.proxy p = some x) :
    ∃ y, s.remote x.remote = some y ∧ .proxy p ∈ y.refs :=
  remote_mem (all h).1.r (by simp [hOwner, State.targetOf, hp])

theorem serving_iff {s : State} (h : Inv s) {i rm : Nat} :
    serving i s.log = some rm ↔ (s.serviceOf i).isSome ∧ ∃ p, s.proxyOf i = some p ∧ s.targetOf p = some rm := by
  unfold serving
  rw [h.life i, Option.bind_some]
  unfold viewOf
  cases hx : s.iface i with
  | none => simp only [State.serviceOf, hx]; split <;> simp
  | some x =>
    simp only [State.serviceOf, State.proxyOf, hx, Option.bind_some]
    cases hs : x.service <;> cases hp : x.proxy <;> simp

theorem serving_up {s : State} (h : Inv s) {i : Nat} (hu : Up s i) (hp : (s.proxyOf i).isSome) :
    (serving i s.log).isSome := by
  obtain ⟨p, hp⟩ := Option.isSome_iff_exists.1 hp
  have := h.p.live (.iface i) p (by simp [uOwner, hp])
  obtain ⟨l, hl⟩ := Option.ne_none_iff_exists'.1 this
  obtain ⟨y, hy, _⟩ := Option.map_eq_some_iff.1 hl
  rw [Option.isSome_iff_exists]
  exact ⟨y.remote, (serving_iff h).2 ⟨hu, p, hp, by simp [State.targetOf, hy]⟩⟩

/-- C61: once a bridge has been told that the service is there, and has found it, it's published. -/
theorem C61_registered {s s' : State} (h : Reach step {} s) {b : Nat} {src dest : Bytes} {l : List (Nat × Bytes)}
    (ho : .opened b src dest l ∈ s.log) {i : Nat} {f : Bytes} (hi : (i, f) ∈ l) {rest : List Call}
    (hc : s.calls = .registration i (f ++ [0x2f] ++ dest) :: rest) {look : Nat → Option Nat} (hl : (look i).isSome)
    (hs : step s (.call look) = .ok s') : (serving i s'.log).isSome := by
  obtain ⟨hI, hB⟩ := all h
  have hi0 : s.iface i ≠ none := hI.reg i _ (by rw [hc]; exact List.mem_cons_self)
  obtain ⟨x, hx⟩ := Option.ne_none_iff_exists'.1 hi0
  have hn : f ++ [0x2f] ++ dest = x.fqname := by
    rcases hB.name b src dest l ho i f hi with ⟨-, k⟩ | ⟨-, -, -, k⟩
    · exact (k x hx).1.symm
    · simp at k
  simp only [step, hc, hx] at hs
  rw [if_pos hn] at hs
  have h0 : Inv { s with calls := rest } := by
    have := hI.noted (es := []) (calls := rest) (fun rm i k => hI.death rm i (by rw [hc]; exact List.mem_cons_of_mem _ k))
      (fun i n k => hI.reg i n (by rw [hc]; exact List.mem_cons_of_mem _ k))
      (by simp) (by simp) (bridges := s.bridges) (bridge := s.bridge)
    rw [List.append_nil] at this
    exact this
  obtain ⟨k1, -, k3, k4, -⟩ := (h0.activate hi0 (look i)).2 s' hs
  have := k4 hl
  rcases k3 with k3 | k3
  · rw [k3] at this; cases this
  · exact serving_up k1 k3.2 k3.1

/-- C61: those services which are there when the bridge is created are published immediately. -/
theorem C61_new {s s' : State} (h : Reach step {} s) {src? dest? : Option Bytes} {fs : List Bytes} {look : Nat → Option Nat}
    (hs : step s (.new src? dest? fs look) = .ok s') {b : Nat} {src dest : Bytes} {l : List (Nat × Bytes)}
    (ho : .opened b src dest l ∈ s'.log) (hn : .opened b src dest l ∉ s.log) {i : Nat} {f : Bytes} (hi : (i, f) ∈ l)
    (hl : (look i).isSome) : ∃ v, life i s'.log = some v ∧ v.service.isSome := by
  obtain ⟨hI, hB⟩ := all h
  have hI' := (((all h).step (.new src? dest? fs look)).2 _ hs).1.1
  refine ⟨_, hI'.life i, ?_⟩
  have href : s' = s.see [.refused] → False := by
    rintro rfl
    exact hn (by simpa [State.see] using ho)
  have key : Up s' i := by
    simp only [step] at hs
    cases hnm : names src? dest? with
    | none => rw [hnm] at hs; cases hs; exact (href rfl).elim
    | some sd =>
      obtain ⟨n, d⟩ := sd
      rw [hnm] at hs
      simp only [] at hs
      split at hs
      · cases hs; exact (href rfl).elim
      · have h0 : Inv (({ s with bridges := s.bridges + 1
                                 bridge := upd s.bridge s.bridges (some (List.range' s.ifaces fs.length)) } : State).see
            [.opened s.bridges n d ((List.range' s.ifaces fs.length).zip fs)]) :=
          hI.noted (es := [.opened s.bridges n d ((List.range' s.ifaces fs.length).zip fs)]) hI.death hI.reg
            (by simp [next]) (by simp)
        have hb0 := hB.open hI.fI (src := n) (dest := d) (fs := fs)
        obtain ⟨h1, h2, -⟩ := (h0.newIfaces hb0).2 _ hs
        obtain ⟨-, h5, h6⟩ := (h0.newIfaces_up hb0).2 _ hs
        have hge : s.ifaces ≤ i ∧ i < s.ifaces + fs.length := by
          have hids : l.map (·.1) = List.range' s.ifaces fs.length := by
            have := h6 _ _ _ _ ho
            rcases List.mem_append.1 this with k | k
            · exact absurd k hn
            · cases List.mem_singleton.1 k
              rw [List.map_fst_zip]; simp
          have hm : i ∈ l.map (·.1) := List.mem_map.2 ⟨_, hi, rfl⟩
          rw [hids, List.mem_range'_1] at hm
          exact hm
        exact h5 i hge.1 hge.2 hl
  unfold Up State.serviceOf at key
  unfold viewOf
  cases hx : s'.iface i with
  | none => rw [hx] at key; cases key
  | some x => rw [hx] at key; exact key

/-- C61: a bridge is for the interfaces and the names which were asked for; if there's only one name then it's the same for both
sides, and there's no bridge without names or interfaces. -/
theorem C61_args {s s' : State} (h : Reach step {} s) {src? dest? : Option Bytes} {fs : List Bytes} {look : Nat → Option Nat}
    (hs : step s (.new src? dest? fs look) = .ok s') {b : Nat} {src dest : Bytes} {l : List (Nat × Bytes)}
    (ho : .opened b src dest l ∈ s'.log) (hn : .opened b src dest l ∉ s.log) :
    l.map (·.2) = fs ∧ fs ≠ [] ∧ (src? = some src ∨ src? = none ∧ dest? = some src) ∧
      (dest? = some dest ∨ dest? = none ∧ src? = some dest) := by
  obtain ⟨hI, hB⟩ := all h
  have href : s' = s.see [.refused] → False := by
    rintro rfl
    exact hn (by simpa [State.see] using ho)
  simp only [step] at hs
  cases hnm : names src? dest? with
  | none => rw [hnm] at hs; cases hs; exact (href rfl).elim
  | some sd =>
    obtain ⟨n, d⟩ := sd
    rw [hnm] at hs
    simp only [] at hs
    split at hs
    · cases hs; exact (href rfl).elim
    · rename_i hne
      have h0 : Inv (({ s with bridges := s.bridges + 1
                               bridge := upd s.bridge s.bridges (some (List.range' s.ifaces fs.length)) } : State).see
          [.opened s.bridges n d ((List.range' s.ifaces fs.length).zip fs)]) :=
        hI.noted (es := [.opened s.bridges n d ((List.range' s.ifaces fs.length).zip fs)]) hI.death hI.reg
          (by simp [next]) (by simp)
      have hb0 := hB.open hI.fI (src := n) (dest := d) (fs := fs)
      obtain ⟨-, -, h6⟩ := (h0.newIfaces_up hb0).2 _ hs
      rcases List.mem_append.1 (h6 _ _ _ _ ho) with k | k
      · exact absurd k hn
      · cases List.mem_singleton.1 k
        refine ⟨by rw [List.map_snd_zip]; simp, hne, ?_⟩
        cases src? <;> cases dest? <;> simp only [names] at hnm <;> cases hnm <;> simp

/-- C61: when the object dies, nothing is published anymore, and everything is released. -/
theorem C61_withdrawn {s s' : State} (h : Reach step {} s) {rm i : Nat} {rest : List Call}
    (hc : s.calls = .death rm i :: rest) {look : Nat → Option Nat} (hs : step s (.call look) = .ok s') :
    life i s'.log = some { stage := .on } := by
  obtain ⟨hI, hB⟩ := all h
  have hI' := (((all h).step (.call look)).2 _ hs).1.1
  have hi0 : s.iface i ≠ none := by
    have := hI.death rm i (by rw [hc]; exact List.mem_cons_self)
    intro hn; simp [State.objOf, hn] at this
  simp only [step, hc] at hs
  have h0 : Inv { s with calls := rest } := by
    have := hI.noted (es := []) (calls := rest) (fun rm i k => hI.death rm i (by rw [hc]; exact List.mem_cons_of_mem _ k))
      (fun i n k => hI.reg i n (by rw [hc]; exact List.mem_cons_of_mem _ k))
      (by simp) (by simp) (bridges := s.bridges) (bridge := s.bridge)
    rw [List.append_nil] at this
    exact this
  obtain ⟨-, k2, k3, k4, k5, -⟩ := (h0.deactivate hi0).2 s' hs
  rw [hI'.life i]
  obtain ⟨x, hx⟩ := Option.ne_none_iff_exists'.1 (k2.exists hi0)
  simp only [State.objOf, State.proxyOf, State.serviceOf, hx, Option.bind_some] at k3 k4 k5
  simp [viewOf, hx, k3, k4, k5]

/-- C61: everybody who has to be told about the death of the object is going to be. -/
theorem C61_told {s s' : State} (h : Reach step {} s) {rm : Nat} {is : List Nat} (hs : step s (.die rm is) = .ok s')
    {i : Nat} {v : View} (hv : life i s.log = some v) (ho : v.obj = some rm) : .death rm i ∈ s'.calls := by
  obtain ⟨hI, -⟩ := all h
  rw [hI.life i] at hv
  cases hv
  have hobj : s.objOf i = some rm := by
    unfold viewOf at ho
    cases hx : s.iface i with
    | none => rw [hx] at ho; simp only [] at ho; split at ho <;> cases ho
    | some x => rw [hx] at ho; simp [State.objOf, hx]; exact ho
  simp only [step] at hs
  cases hx : s.remote rm with
  | none => rw [hx] at hs; cases hs
  | some x =>
    rw [hx] at hs
    simp only [] at hs
    split at hs
    · cases hs
    · rename_i hc
      have hperm : is.isPerm (s.listeners rm) = true := by
        cases hi : is.isPerm (s.listeners rm)
        · exact absurd (.inr (by simp [hi])) hc
        · rfl
      cases hs
      exact List.mem_append_left _ (List.mem_map.2 ⟨i, (List.isPerm_iff.1 hperm).mem_iff.2 ((mem_listeners hI).2 hobj), rfl⟩)

theorem quiet {s : State} (h : ReachIf step OkQuiet {} s) : All s ∧ ∀ j, Fine s j := by
  induction h with
  | init => exact ⟨All.init, Fine.init⟩
  | @step s0 s1 l _ hok hs ih =>
    have := (ih.1.step l).2 _ hs
    exact ⟨this.1, this.2 hok ih.2⟩

/-- C61: requests aren't forwarded to dead objects once all the handlers have been called, if nobody is told that the service
has been registered before being told that its object is dead. It should be so in any case, see `C61_fails_stale`. -/
theorem C61_dead_partial {s : State} (h : ReachIf step OkQuiet {} s) (hc : s.calls = []) {i rm : Nat}
    (hs : serving i s.log = some rm) : .died rm ∉ s.log := by
  obtain ⟨hA, hF⟩ := quiet h
  obtain ⟨-, p, hp, ht⟩ := (serving_iff hA.1).1 hs
  intro hd
  have h1 := (hF i).1 p hp
  rw [ht] at h1
  have := (hF i).2 rm h1.symm hd
  rw [hc] at this; cases this

/-! ### Examples -/

/-- What finds what. -/
def lk (l : List (Nat × Nat)) (i : Nat) : Option Nat := l.lookup i

/-- Labels for the examples. -/
inductive Act
  | plain (l : Label)
  | new (src dest : Option Bytes) (ifaces : List Bytes) (look : List (Nat × Nat))
  | call (look : List (Nat × Nat))

def Act.label : Act → Label
  | .plain l => l
  | .new a b c k => .new a b c (lk k)
  | .call k => .call (lk k)

theorem lookup_mem {l : List (Nat × Nat)} {i rm : Nat} (h : l.lookup i = some rm) : (i, rm) ∈ l := by
  induction l with
  | nil => cases h
  | cons a l ih =>
    obtain ⟨j, k⟩ := a
    rw [List.lookup_cons] at h
    split at h
    · rename_i he
      cases h
      rw [beq_iff_eq] at he
      subst he
      exact List.mem_cons_self
    · exact List.mem_cons_of_mem _ (ih h)

def okB (s : State) : Act → Bool
  | .new _ _ _ k | .call k => k.all fun x => decide (.died x.2 ∉ s.log)
  | .plain (.new ..) | .plain (.call _) => false
  | _ => true

theorem okB_ok {s : State} {a : Act} (h : okB s a = true) : Ok s a.label := by
  have key : ∀ k : List (Nat × Nat), (k.all fun x => decide (.died x.2 ∉ s.log)) = true →
      ∀ i rm, lk k i = some rm → .died rm ∉ s.log := by
    intro k hk i rm hi
    have := List.all_eq_true.1 hk _ (lookup_mem hi)
    exact of_decide_eq_true this
  cases a with
  | plain l => cases l <;> first | trivial | cases h
  | new a b c k => exact key k h
  | call k => exact key k h

def quietB (s : State) : Act → Bool
  | .call _ =>
    match s.calls with
    | .registration i _ :: _ => s.calls.all fun c => match c with
      | .death _ j => decide (j ≠ i)
      | _ => true
    | _ => true
  | _ => true

theorem quietB_ok {s : State} {a : Act} (h : okB s a = true) (hq : quietB s a = true) : OkQuiet s a.label := by
  refine ⟨okB_ok h, ?_⟩
  cases a with
  | plain l => cases l <;> first | trivial | cases h
  | new a b c k => trivial
  | call k =>
    simp only [Act.label, quietB] at hq ⊢
    split
    · rename_i i n rest hc
      rw [hc] at hq
      simp only [] at hq
      intro rm hm
      rw [hc] at hm
      have := List.all_eq_true.1 hq _ hm
      simp at this
    · trivial

def run (quiet : Bool) (s : State) : List Act → Option State
  | [] => some s
  | a :: as =>
    if okB s a && (!quiet || quietB s a) then
      match step s a.label with
      | .ok s' => run quiet s' as
      | _ => none
    else none

theorem run_ok {s0 s s' : State} {as : List Act} (h : ReachIf step Ok s0 s) (hr : run false s as = some s') :
    ReachIf step Ok s0 s' := by
  induction as generalizing s with
  | nil => cases hr; exact h
  | cons a as ih =>
    simp only [run] at hr
    split at hr
    · rename_i hok
      rw [Bool.and_eq_true] at hok
      split at hr
      · rename_i s1 h1; exact ih (.step _ h (okB_ok hok.1) h1) hr
      · cases hr
    · cases hr

theorem run_quiet {s0 s s' : State} {as : List Act} (h : ReachIf step OkQuiet s0 s) (hr : run true s as = some s') :
    ReachIf step OkQuiet s0 s' := by
  induction as generalizing s with
  | nil => cases hr; exact h
  | cons a as ih =>
    simp only [run] at hr
    split at hr
    · rename_i hok
      rw [Bool.and_eq_true] at hok
      split at hr
      · rename_i s1 h1; exact ih (.step _ h (quietB_ok hok.1 (by simpa using hok.2)) h1) hr
      · cases hr
    · cases hr

/-- A bridge for the interfaces "f" and "g" under the name "n". The first one is there (it's the object 0), the other is
registered later (it's the object 1). -/
def demo : List Act :=
  [.plain .newRemote, .new (some [0x6e]) none [[0x66], [0x67]] [(0, 0)], .plain (.unrefRemote 0), .plain .newRemote,
   .plain (.registered [0, 1] [0x67, 0x2f, 0x6e]), .call [], .call [(1, 1)], .plain (.unrefRemote 1)]

/-- Both services are published. -/
example : ∃ s, ReachIf step OkQuiet {} s ∧ s.calls = [] ∧ serving 0 s.log = some 0 ∧ serving 1 s.log = some 1 ∧
    .opened 0 [0x6e] [0x6e] [(0, [0x66]), (1, [0x67])] ∈ s.log ∧ .freed 0 ∉ s.log ∧
    .watch 1 [0x67, 0x2f, 0x6e] ∈ s.log ∧ .published 1 1 1 [0x6e] ∈ s.log := by
  have h : (run true {} demo).map (fun s => decide (s.calls = [] ∧ serving 0 s.log = some 0 ∧ serving 1 s.log = some 1 ∧
      .opened 0 [0x6e] [0x6e] [(0, [0x66]), (1, [0x67])] ∈ s.log ∧ .freed 0 ∉ s.log ∧
      .watch 1 [0x67, 0x2f, 0x6e] ∈ s.log ∧ .published 1 1 1 [0x6e] ∈ s.log)) = some true := by decide +kernel
  obtain ⟨s, hs, h⟩ := Option.map_eq_some_iff.1 h
  exact ⟨s, run_quiet .init hs, of_decide_eq_true h⟩

/-- The object 0 dies, the service is withdrawn, and the object is gone. Then the bridge is freed. -/
example : ∃ s, ReachIf step OkQuiet {} s ∧ s.calls = [] ∧ .opened 0 [0x6e] [0x6e] [(0, [0x66]), (1, [0x67])] ∈ s.log ∧
    .freed 0 ∈ s.log ∧ .withdrawn 0 0 ∈ s.log ∧ .withdrawn 1 1 ∈ s.log ∧ s.remote 0 = none ∧ s.remote 1 = none ∧
    s.proxy 0 = none ∧ s.proxy 1 = none := by
  have h : (run true {} (demo ++ [.plain (.die 0 [0]), .call [], .plain (.free 0)])).map
      (fun s => decide (s.calls = [] ∧ .opened 0 [0x6e] [0x6e] [(0, [0x66]), (1, [0x67])] ∈ s.log ∧
        .freed 0 ∈ s.log ∧ .withdrawn 0 0 ∈ s.log ∧ .withdrawn 1 1 ∈ s.log ∧ (s.remote 0).isNone ∧ (s.remote 1).isNone ∧
        (s.proxy 0).isNone ∧ (s.proxy 1).isNone)) = some true := by decide +kernel
  obtain ⟨s, hs, h⟩ := Option.map_eq_some_iff.1 h
  have h := of_decide_eq_true h
  simp only [Option.isNone_iff_eq_none] at h
  exact ⟨s, run_quiet .init hs, h⟩

theorem reach_of {ok : State → Label → Prop} {s : State} (h : ReachIf step ok {} s) : Reach step {} s := by
  induction h with
  | init => exact .init
  | step l _ _ hs ih => exact ih.step hs

/-- The hypotheses of `C61_new` and `C61_args`, with only the name of the other side. -/
example : ∃ s s', Reach step {} s ∧ step s (.new none (some [0x6e]) [[0x66]] (lk [(0, 0)])) = .ok s' ∧
    .opened 0 [0x6e] [0x6e] [(0, [0x66])] ∈ s'.log ∧ .opened 0 [0x6e] [0x6e] [(0, [0x66])] ∉ s.log := by
  have h : (run true {} [.plain .newRemote]).map (fun s => (step s (.new none (some [0x6e]) [[0x66]] (lk [(0, 0)]))).holds
      fun s' => decide (.opened 0 [0x6e] [0x6e] [(0, [0x66])] ∈ s'.log ∧ .opened 0 [0x6e] [0x6e] [(0, [0x66])] ∉ s.log)) =
      some true := by decide +kernel
  obtain ⟨s, hs, h⟩ := Option.map_eq_some_iff.1 h
  cases hst : step s (.new none (some [0x6e]) [[0x66]] (lk [(0, 0)])) with
  | ok s' => rw [hst] at h; exact ⟨s, s', reach_of (run_quiet .init hs), hst, of_decide_eq_true h⟩
  | no => rw [hst] at h; cases h
  | ub => rw [hst] at h; cases h

/-- The hypotheses of `C61_registered`: the second handler is about to be called. -/
example : ∃ s s', Reach step {} s ∧ .opened 0 [0x6e] [0x6e] [(0, [0x66]), (1, [0x67])] ∈ s.log ∧
    s.calls = [.registration 1 ([0x67] ++ [0x2f] ++ [0x6e])] ∧ step s (.call (lk [(1, 1)])) = .ok s' := by
  have h : (run true {} (demo.take 6)).map (fun s => decide (.opened 0 [0x6e] [0x6e] [(0, [0x66]), (1, [0x67])] ∈ s.log ∧
      s.calls = [.registration 1 ([0x67] ++ [0x2f] ++ [0x6e])]) && (step s (.call (lk [(1, 1)]))).holds fun _ => true) =
      some true := by decide +kernel
  obtain ⟨s, hs, h⟩ := Option.map_eq_some_iff.1 h
  rw [Bool.and_eq_true] at h
  have h1 := of_decide_eq_true h.1
  cases hst : step s (.call (lk [(1, 1)])) with
  | ok s' => exact ⟨s, s', reach_of (run_quiet .init hs), h1.1, h1.2, hst⟩
  | no => rw [hst] at h; cases h.2
  | ub => rw [hst] at h; cases h.2

/-- The hypotheses of `C61_told` and `C61_withdrawn`. -/
example : ∃ s s1 s2, Reach step {} s ∧ step s (.die 0 [0]) = .ok s1 ∧ (∃ v, life 0 s.log = some v ∧ v.obj = some 0) ∧
    s1.calls = [.death 0 0] ∧ step s1 (.call (lk [])) = .ok s2 := by
  have h : (run true {} demo).map (fun s => (step s (.die 0 [0])).holds fun s1 => decide (s1.calls = [.death 0 0]) &&
      ((step s1 (.call (lk []))).holds fun _ => true) && ((life 0 s.log).any fun v => v.obj == some 0)) = some true := by
    decide +kernel
  obtain ⟨s, hs, h⟩ := Option.map_eq_some_iff.1 h
  cases h1 : step s (.die 0 [0]) with
  | no => rw [h1] at h; cases h
  | ub => rw [h1] at h; cases h
  | ok s1 =>
    rw [h1] at h
    simp only [Out.holds, Bool.and_eq_true] at h
    obtain ⟨⟨h2, h3⟩, h4⟩ := h
    cases h5 : step s1 (.call (lk [])) with
    | no => rw [h5] at h3; cases h3
    | ub => rw [h5] at h3; cases h3
    | ok s2 =>
      obtain ⟨v, hv, ho⟩ : ∃ v, life 0 s.log = some v ∧ (v.obj == some 0) = true := by
        cases hl : life 0 s.log with
        | none => rw [hl] at h4; cases h4
        | some v => rw [hl] at h4; exact ⟨v, rfl, h4⟩
      exact ⟨s, s1, s2, reach_of (run_quiet .init hs), h1, ⟨v, hv, by simpa using ho⟩, of_decide_eq_true h2, h5⟩

/-- C61 fails: the bridge is told that the service has been registered when the object is already dead but the bridge hasn't been
told about that. The new object is found (gbinder_bridge.c:141-153), but the old proxy remains and it's still
published (gbinder_bridge.c:154-161): everything is sent to the dead object, and that's how it stays. -/
theorem C61_fails_stale : ∃ s, ReachIf step Ok {} s ∧ s.calls = [] ∧ serving 0 s.log = some 0 ∧ .died 0 ∈ s.log ∧
    (∃ v, life 0 s.log = some v ∧ v.obj = some 1) ∧ .died 1 ∉ s.log := by
  have h : (run false {} [.plain .newRemote, .new (some [0x6e]) none [[0x66]] [(0, 0)], .plain .newRemote,
      .plain (.die 0 [0]), .plain (.registered [0] [0x66, 0x2f, 0x6e]), .call [(0, 1)]]).map
      (fun s => decide (s.calls = [] ∧ serving 0 s.log = some 0 ∧ .died 0 ∈ s.log ∧ .died 1 ∉ s.log ∧
        life 0 s.log = some { stage := .on, obj := some 1, proxy := some (0, 0), service := some 0 })) = some true := by
    decide +kernel
  obtain ⟨s, hs, h⟩ := Option.map_eq_some_iff.1 h
  obtain ⟨h1, h2, h3, h4, h5⟩ := of_decide_eq_true h
  exact ⟨s, run_ok .init hs, h1, h2, h3, ⟨_, h5, rfl⟩, h4⟩

/-- C61 fails: a new instance of the service is registered before it's known that the old one is dead. The bridge does nothing
because it has an object (gbinder_bridge.c:143), then that object dies and the service is withdrawn. The new one
isn't published even though there it is, and the bridge has been told about it. -/
theorem C61_fails_missed : ∃ s s', ReachIf step OkQuiet {} s ∧
    .opened 0 [0x6e] [0x6e] [(0, [0x66])] ∈ s.log ∧ s.calls = [.registration 0 ([0x66] ++ [0x2f] ++ [0x6e])] ∧
    (run true s [.call [(0, 1)], .plain (.die 0 [0]), .call [(0, 1)]] = some s') ∧
    s'.calls = [] ∧ life 0 s'.log = some { stage := .on } ∧ .died 1 ∉ s'.log := by
  have h : (run true {} [.plain .newRemote, .new (some [0x6e]) none [[0x66]] [(0, 0)], .plain .newRemote,
      .plain (.registered [0] [0x66, 0x2f, 0x6e])]).map
      (fun s => decide (.opened 0 [0x6e] [0x6e] [(0, [0x66])] ∈ s.log ∧
        s.calls = [.registration 0 ([0x66] ++ [0x2f] ++ [0x6e])]) &&
        (run true s [.call [(0, 1)], .plain (.die 0 [0]), .call [(0, 1)]]).any fun s' => decide (s'.calls = [] ∧
          life 0 s'.log = some { stage := .on } ∧ .died 1 ∉ s'.log)) = some true := by
    decide +kernel
  obtain ⟨s, hs, h⟩ := Option.map_eq_some_iff.1 h
  rw [Bool.and_eq_true] at h
  obtain ⟨h1, h2⟩ := of_decide_eq_true h.1
  cases hr : run true s [.call [(0, 1)], .plain (.die 0 [0]), .call [(0, 1)]] with
  | none => rw [hr] at h; cases h.2
  | some s' =>
    rw [hr] at h
    exact ⟨s, s', run_quiet .init hs, h1, h2, hr, of_decide_eq_true h.2⟩

end Gb.C61
