import Verif.Lemmas.ProxyLog
/-
What proxies do. The states are mapped to those of another small machine.
-/
set_option autoImplicit false

namespace Gb.Proxy

/-- What matters about a proxy. -/
structure Info where
  ipc : Nat
  remote : Nat
  acquired : Bool
  dropped : Bool

def Obj.info (o : Obj) : Info := ⟨o.ipc, o.remote, o.acquired, o.dropped⟩

/-- What matters about a remote object. -/
structure RInfo where
  ipc : Nat
  handle : Nat
  dead : Bool

def Remote.info (x : Remote) : RInfo := ⟨x.ipc, x.handle, x.dead⟩

/-- Proxies and remote objects. -/
structure Look where
  no : Nat
  info : Nat → Option Info
  remotes : Nat
  rinfo : Nat → Option RInfo
  log : List Ev

def look (s : State) : Look where
  no := s.no
  info p := (s.obj p).map Obj.info
  remotes := s.remotes
  rinfo rm := (s.remote rm).map Remote.info
  log := s.log

/-- Events which have nothing to do with it. -/
def idle : Ev → Bool
  | .replied .. | .answered .. => true
  | _ => false

/-- Steps of the small machine. -/
inductive Act (v : Look) : Look → Prop
  | idle (l : List Ev) : l.all idle = true → Act v { v with log := v.log ++ l }
  | newRemote (ipc handle : Nat) : Act v { v with
      remotes := v.remotes + 1, rinfo := upd v.rinfo v.remotes (some ⟨ipc, handle, false⟩)
      log := v.log ++ [.remote v.remotes ipc handle] }
  | freeRemote (rm : Nat) : Act v { v with rinfo := upd v.rinfo rm none }
  | die (rm : Nat) (x : RInfo) : v.rinfo rm = some x → Act v { v with
      rinfo := upd v.rinfo rm (some { x with dead := true }), log := v.log ++ [.dead rm] }
  | make (ipc rm : Nat) : Act v { v with
      no := v.no + 1, info := upd v.info v.no (some ⟨ipc, rm, false, false⟩)
      log := v.log ++ [.made v.no ipc rm] }
  | drop (p : Nat) (o : Info) : v.info p = some o → Act v { v with
      info := upd v.info p (some { o with dropped := true }), log := v.log ++ [.dropped p] }
  | acquire (p : Nat) (o : Info) : v.info p = some o → o.acquired = false → Act v { v with
      info := upd v.info p (some { o with acquired := true }), log := v.log ++ [.acquire p o.remote] }
  | free (p : Nat) (o : Info) : v.info p = some o → Act v { v with
      info := upd v.info p none
      log := v.log ++ if o.acquired then [.release p o.remote, .freed p] else [.freed p] }
  | forward (r p t c f : Nat) (looper : Bool) (o : Info) (x : RInfo) (l : List Ev) : v.info p = some o →
      v.rinfo o.remote = some x → (!o.dropped && !x.dead) = true → l.all Proxy.idle = true → Act v { v with
      log := v.log ++ ([.received r p looper c f, .forwarded r t x.ipc x.handle c f] ++ l) }
  | refuse (r p c f : Nat) (looper : Bool) (o : Info) (x : RInfo) : v.info p = some o →
      v.rinfo o.remote = some x → ¬ (!o.dropped && !x.dead) = true → Act v { v with
      log := v.log ++ [.received r p looper c f, .answered r none ebadmsg] }

/-- Where the handle is. -/
def expect (v : Look) (p : Nat) : Hold :=
  match v.info p with
  | some o => if o.acquired then .acquired o.remote else .idle o.remote
  | none => if p < v.no then .gone else .new

structure Facts (v : Look) : Prop where
  lt : ∀ p o, v.info p = some o → p < v.no
  rlt : ∀ rm x, v.rinfo rm = some x → rm < v.remotes
  made : ∀ p o, v.info p = some o → .made p o.ipc o.remote ∈ v.log
  dropped : ∀ p o, v.info p = some o → (o.dropped = true ↔ .dropped p ∈ v.log)
  undropped : ∀ p, v.no ≤ p → .dropped p ∉ v.log
  remote : ∀ rm x, v.rinfo rm = some x → .remote rm x.ipc x.handle ∈ v.log ∧ (x.dead = true ↔ .dead rm ∈ v.log)
  undead : ∀ rm, v.remotes ≤ rm → .dead rm ∉ v.log
  handled : Handled v.log
  hold : ∀ p, hold p v.log = some (expect v p)

theorem Facts.init : Facts (look {}) where
  lt _ _ h := by cases h
  rlt _ _ h := by cases h
  made _ _ h := by cases h
  dropped _ _ h := by cases h
  undropped _ _ := by simp [look]
  remote _ _ h := by cases h
  undead _ _ := by simp [look]
  handled := by intro a b r p lo c f h; simp [look] at h
  hold _ := by simp [look, Proxy.hold, expect]

theorem hold_append (r : Nat) (a b : List Ev) :
    hold r (a ++ b) = b.foldl (fun ph e => ph.bind fun ph => nextHold r ph e) (hold r a) := by
  simp [hold, List.foldl_append]

theorem hold_idle (r : Nat) (a : List Ev) {l : List Ev} (h : l.all idle = true) : hold r (a ++ l) = hold r a := by
  rw [hold_append]
  induction l generalizing a with
  | nil => rfl
  | cons e l ih =>
    rw [List.all_cons, Bool.and_eq_true] at h
    have : ((hold r a).bind fun ph => nextHold r ph e) = hold r a := by
      cases hold r a with
      | none => rfl
      | some ph => cases e <;> simp_all [idle, nextHold]
    rw [List.foldl_cons, this]
    exact ih a h.2

/-- Nothing is handled. -/
theorem Handled.append {a l : List Ev} (h : Handled a) (hl : ∀ r p lo c f, .received r p lo c f ∉ l) :
    Handled (a ++ l) := by
  intro a' b r p lo c f he
  rcases List.append_eq_append_iff.1 he with ⟨x, hx1, hx2⟩ | ⟨x, hx1, hx2⟩
  · -- it would be in `l`
    have : Ev.received r p lo c f ∈ l := by rw [hx2]; simp
    exact absurd this (hl r p lo c f)
  · cases x with
    | nil =>
      have : Ev.received r p lo c f ∈ l := by
        simp only [List.nil_append] at hx2; rw [← hx2]; simp
      exact absurd this (hl r p lo c f)
    | cons e x =>
      simp only [List.cons_append, List.cons.injEq] at hx2
      obtain ⟨rfl, rfl⟩ := hx2
      obtain ⟨i, rm, hm, hif⟩ := h a' x r p lo c f hx1
      refine ⟨i, rm, hm, ?_⟩
      split at hif
      · rename_i hd
        rw [if_pos hd]
        obtain ⟨b', rfl⟩ := hif
        exact ⟨b' ++ l, rfl⟩
      · rename_i hd
        rw [if_neg hd]
        obtain ⟨t, ipc, h', b', hr, rfl⟩ := hif
        exact ⟨t, ipc, h', b' ++ l, hr, rfl⟩

/-- One is. -/
theorem Handled.cons {a l : List Ev} {r p c f : Nat} {lo : Bool} (h : Handled a)
    (h1 : ∃ i rm, .made p i rm ∈ a ∧
      if .dropped p ∈ a ∨ .dead rm ∈ a then ∃ b', l = .answered r none (-74) :: b'
      else ∃ t ipc h b', .remote rm ipc h ∈ a ∧ l = .forwarded r t ipc h c f :: b')
    (hl : ∀ r p lo c f, .received r p lo c f ∉ l) : Handled (a ++ .received r p lo c f :: l) := by
  intro a' b r' p' lo' c' f' he
  rcases List.append_eq_append_iff.1 he with ⟨x, hx1, hx2⟩ | ⟨x, hx1, hx2⟩
  · cases x with
    | nil =>
      simp only [List.nil_append, List.cons.injEq] at hx2
      obtain ⟨h2, rfl⟩ := hx2
      cases h2
      simp only [List.append_nil] at hx1
      subst hx1
      exact h1
    | cons e x =>
      simp only [List.cons_append, List.cons.injEq] at hx2
      obtain ⟨rfl, rfl⟩ := hx2
      exact absurd (by simp) (hl r' p' lo' c' f')
  · cases x with
    | nil =>
      simp only [List.nil_append, List.cons.injEq] at hx2
      obtain ⟨h2, rfl⟩ := hx2
      cases h2
      simp only [List.append_nil] at hx1
      subst hx1
      exact h1
    | cons e x =>
      simp only [List.cons_append, List.cons.injEq] at hx2
      obtain ⟨rfl, rfl⟩ := hx2
      obtain ⟨i, rm, hm, hif⟩ := h a' x _ _ _ _ _ hx1
      refine ⟨i, rm, hm, ?_⟩
      split at hif
      · rename_i hd
        rw [if_pos hd]
        obtain ⟨b', rfl⟩ := hif
        exact ⟨_, rfl⟩
      · rename_i hd
        rw [if_neg hd]
        obtain ⟨t, ipc, h', b', hr, rfl⟩ := hif
        exact ⟨t, ipc, h', _, hr, rfl⟩

theorem idle_not {l : List Ev} (h : l.all idle = true) {e : Ev} (he : idle e = false) : e ∉ l := fun hi => by
  have := List.all_eq_true.1 h e hi
  rw [he] at this; cases this

theorem Facts.act {v v' : Look} (h : Facts v) (ha : Act v v') : Facts v' := by
  obtain ⟨lt, rlt, made, dropped, undropped, remote, undead, handled, hold⟩ := h
  cases ha with
  | idle l hl =>
    refine ⟨lt, rlt, fun p o ho => List.mem_append_left _ (made p o ho), fun p o ho => ?_, fun p hp => ?_,
      fun rm x hx => ?_, fun rm hr => ?_, handled.append fun _ _ _ _ _ => idle_not hl rfl, fun p => ?_⟩
    · rw [dropped p o ho]; simp [idle_not hl (e := .dropped p) rfl]
    · simp [idle_not hl (e := .dropped p) rfl, undropped p hp]
    · obtain ⟨h1, h2⟩ := remote rm x hx
      rw [h2]; simp [idle_not hl (e := .dead rm) rfl, h1]
    · simp [idle_not hl (e := .dead rm) rfl, undead rm hr]
    · simp only []; rw [hold_idle _ _ hl, hold]; rfl
  | newRemote ipc handle =>
    refine ⟨lt, fun rm x hx => ?_, fun p o ho => List.mem_append_left _ (made p o ho), fun p o ho => ?_, fun p hp => ?_,
      fun rm x hx => ?_, fun rm hr => ?_, handled.append (by simp), fun p => ?_⟩
    · simp only [] at hx ⊢
      by_cases hr : rm = v.remotes
      · omega
      · rw [upd_ne _ _ hr] at hx; have := rlt rm x hx; omega
    · rw [dropped p o ho]; simp
    · simp [undropped p hp]
    · simp only [] at hx ⊢
      by_cases hr : rm = v.remotes
      · subst hr; rw [upd_same] at hx; cases hx
        simp [undead _ (Nat.le_refl _)]
      · rw [upd_ne _ _ hr] at hx
        obtain ⟨h1, h2⟩ := remote rm x hx
        rw [h2]; simp [h1]
    · simp only [] at hr ⊢
      simp [undead rm (by omega)]
    · simp only []; rw [hold_append, hold]; rfl
  | freeRemote rm0 =>
    refine ⟨lt, fun rm x hx => ?_, made, dropped, undropped, fun rm x hx => ?_, undead, handled, hold⟩
    · simp only [] at hx
      by_cases hr : rm = rm0
      · subst hr; rw [upd_same] at hx; cases hx
      · rw [upd_ne _ _ hr] at hx; exact rlt rm x hx
    · simp only [] at hx
      by_cases hr : rm = rm0
      · subst hr; rw [upd_same] at hx; cases hx
      · rw [upd_ne _ _ hr] at hx; exact remote rm x hx
  | die rm0 x0 hx0 =>
    refine ⟨lt, fun rm x hx => ?_, fun p o ho => List.mem_append_left _ (made p o ho), fun p o ho => ?_, fun p hp => ?_,
      fun rm x hx => ?_, fun rm hr => ?_, handled.append (by simp), fun p => ?_⟩
    · simp only [] at hx ⊢
      by_cases hr : rm = rm0
      · subst hr; exact rlt rm x0 hx0
      · rw [upd_ne _ _ hr] at hx; exact rlt rm x hx
    · rw [dropped p o ho]; simp
    · simp [undropped p hp]
    · simp only [] at hx ⊢
      by_cases hr : rm = rm0
      · subst hr; rw [upd_same] at hx; cases hx
        simp [(remote _ _ hx0).1]
      · rw [upd_ne _ _ hr] at hx
        obtain ⟨h1, h2⟩ := remote rm x hx
        rw [h2]; simp [h1, hr]
    · simp only [] at hr ⊢
      have := rlt _ _ hx0
      have hne : rm ≠ rm0 := by omega
      simp [undead rm hr, hne]
    · simp only []; rw [hold_append, hold]; rfl
  | make ipc rm0 =>
    have hnone : v.info v.no = none := by
      cases h : v.info v.no with
      | none => rfl
      | some o => have := lt _ _ h; omega
    refine ⟨fun p o ho => ?_, rlt, fun p o ho => ?_, fun p o ho => ?_, fun p hp => ?_,
      fun rm x hx => ?_, fun rm hr => ?_, handled.append (by simp), fun p => ?_⟩
    · simp only [] at ho ⊢
      by_cases hp : p = v.no
      · omega
      · rw [upd_ne _ _ hp] at ho; have := lt p o ho; omega
    · simp only [] at ho ⊢
      by_cases hp : p = v.no
      · subst hp; rw [upd_same] at ho; cases ho; simp
      · rw [upd_ne _ _ hp] at ho; exact List.mem_append_left _ (made p o ho)
    · simp only [] at ho ⊢
      by_cases hp : p = v.no
      · subst hp; rw [upd_same] at ho; cases ho; simp [undropped _ (Nat.le_refl _)]
      · rw [upd_ne _ _ hp] at ho; rw [dropped p o ho]; simp
    · simp only [] at hp ⊢
      simp [undropped p (by omega)]
    · obtain ⟨h1, h2⟩ := remote rm x hx
      rw [h2]; simp [h1]
    · simp [undead rm hr]
    · simp only []; rw [hold_append, hold]
      by_cases hp : p = v.no
      · subst hp; simp [expect, hnone, nextHold, upd_same]
      · have : p < v.no + 1 ↔ p < v.no := by omega
        simp [expect, nextHold, upd_ne _ _ hp, Ne.symm hp, this]
  | drop p0 o0 ho0 =>
    refine ⟨fun p o ho => ?_, rlt, fun p o ho => ?_, fun p o ho => ?_, fun p hp => ?_,
      fun rm x hx => ?_, fun rm hr => ?_, handled.append (by simp), fun p => ?_⟩
    · simp only [] at ho ⊢
      by_cases hp : p = p0
      · subst hp; exact lt p o0 ho0
      · rw [upd_ne _ _ hp] at ho; exact lt p o ho
    · simp only [] at ho ⊢
      by_cases hp : p = p0
      · subst hp; rw [upd_same] at ho; cases ho; exact List.mem_append_left _ (made p o0 ho0)
      · rw [upd_ne _ _ hp] at ho; exact List.mem_append_left _ (made p o ho)
    · simp only [] at ho ⊢
      by_cases hp : p = p0
      · subst hp; rw [upd_same] at ho; cases ho; simp
      · rw [upd_ne _ _ hp] at ho; rw [dropped p o ho]; simp [hp]
    · simp only [] at hp ⊢
      have := lt _ _ ho0
      have hne : p ≠ p0 := by omega
      simp [undropped p hp, hne]
    · obtain ⟨h1, h2⟩ := remote rm x hx
      rw [h2]; simp [h1]
    · simp [undead rm hr]
    · simp only []; rw [hold_append, hold]
      by_cases hp : p = p0
      · subst hp; simp [expect, ho0, nextHold, upd_same]
      · simp [expect, nextHold, upd_ne _ _ hp]
  | acquire p0 o0 ho0 hacq =>
    refine ⟨fun p o ho => ?_, rlt, fun p o ho => ?_, fun p o ho => ?_, fun p hp => ?_,
      fun rm x hx => ?_, fun rm hr => ?_, handled.append (by simp), fun p => ?_⟩
    · simp only [] at ho ⊢
      by_cases hp : p = p0
      · subst hp; exact lt p o0 ho0
      · rw [upd_ne _ _ hp] at ho; exact lt p o ho
    · simp only [] at ho ⊢
      by_cases hp : p = p0
      · subst hp; rw [upd_same] at ho; cases ho; exact List.mem_append_left _ (made p o0 ho0)
      · rw [upd_ne _ _ hp] at ho; exact List.mem_append_left _ (made p o ho)
    · simp only [] at ho ⊢
      by_cases hp : p = p0
      · subst hp; rw [upd_same] at ho; cases ho; simp [dropped p o0 ho0]
      · rw [upd_ne _ _ hp] at ho; rw [dropped p o ho]; simp
    · simp [undropped p hp]
    · obtain ⟨h1, h2⟩ := remote rm x hx
      rw [h2]; simp [h1]
    · simp [undead rm hr]
    · simp only []; rw [hold_append, hold]
      by_cases hp : p = p0
      · subst hp; simp [expect, ho0, nextHold, upd_same, hacq]
      · simp [expect, nextHold, upd_ne _ _ hp, Ne.symm hp]
  | free p0 o0 ho0 =>
    have hi : ∀ e ∈ (if o0.acquired then [.release p0 o0.remote, .freed p0] else [.freed p0] : List Ev),
        (∃ rm, e = .release p0 rm) ∨ e = .freed p0 := by
      intro e he; cases hq : o0.acquired <;> simp [hq] at he
      · exact .inr he
      · rcases he with rfl | rfl
        · exact .inl ⟨_, rfl⟩
        · exact .inr rfl
    have hn : ∀ e, (∀ rm, e ≠ .release p0 rm) → e ≠ .freed p0 →
        e ∉ (if o0.acquired then [.release p0 o0.remote, .freed p0] else [.freed p0] : List Ev) := by
      intro e h1 h2 h3
      rcases hi e h3 with ⟨rm, he⟩ | he
      · exact h1 rm he
      · exact h2 he
    refine ⟨fun p o ho => ?_, rlt, fun p o ho => ?_, fun p o ho => ?_, fun p hp => ?_,
      fun rm x hx => ?_, fun rm hr => ?_, handled.append fun _ _ _ _ _ => hn _ (by simp) (by simp), fun p => ?_⟩
    · simp only [] at ho ⊢
      by_cases hp : p = p0
      · subst hp; exact lt p o0 ho0
      · rw [upd_ne _ _ hp] at ho; exact lt p o ho
    · simp only [] at ho ⊢
      by_cases hp : p = p0
      · subst hp; rw [upd_same] at ho; cases ho
      · rw [upd_ne _ _ hp] at ho; exact List.mem_append_left _ (made p o ho)
    · simp only [] at ho ⊢
      by_cases hp : p = p0
      · subst hp; rw [upd_same] at ho; cases ho
      · rw [upd_ne _ _ hp] at ho; rw [dropped p o ho, List.mem_append]
        simp [hn (.dropped p) (by simp) (by simp)]
    · simp only [] at hp ⊢
      rw [List.mem_append]
      simp [undropped p hp, hn (.dropped p) (by simp) (by simp)]
    · obtain ⟨h1, h2⟩ := remote rm x hx
      simp only []
      rw [h2, List.mem_append, List.mem_append]; simp [h1, hn (.dead rm) (by simp) (by simp)]
    · simp only []
      rw [List.mem_append]
      simp [undead rm hr, hn (.dead rm) (by simp) (by simp)]
    · simp only []; rw [hold_append, hold]
      by_cases hp : p = p0
      · subst hp; cases hq : o0.acquired <;> simp [expect, ho0, nextHold, upd_same, hq, lt _ _ ho0]
      · cases hq : o0.acquired <;> simp [expect, nextHold, upd_ne _ _ hp, Ne.symm hp]
  | forward r p0 t c f looper o0 x0 l ho0 hx0 hc hl =>
    have hc' : o0.dropped = false ∧ x0.dead = false := by simpa using hc
    have hnn : ∀ e, Proxy.idle e = false → e ≠ .received r p0 looper c f → e ≠ .forwarded r t x0.ipc x0.handle c f →
        e ∉ ([.received r p0 looper c f, .forwarded r t x0.ipc x0.handle c f] ++ l : List Ev) := by
      intro e h1 h2 h3; simp [h2, h3, idle_not hl h1]
    refine ⟨lt, rlt, fun p o ho => List.mem_append_left _ (made p o ho), fun p o ho => ?_, fun p hp => ?_,
      fun rm x hx => ?_, fun rm hr => ?_, handled.cons ⟨o0.ipc, o0.remote, made _ _ ho0, ?_⟩ ?_, fun p => ?_⟩
    · simp only []
      rw [dropped p o ho, List.mem_append]; simp only [hnn (.dropped p) rfl (by simp) (by simp), or_false]
    · simp only []
      rw [List.mem_append]; simp only [hnn (.dropped p) rfl (by simp) (by simp), or_false]; exact undropped p hp
    · obtain ⟨h1, h2⟩ := remote rm x hx
      refine ⟨List.mem_append_left _ h1, ?_⟩
      simp only []
      rw [h2, List.mem_append]; simp only [hnn (.dead rm) rfl (by simp) (by simp), or_false]
    · simp only []
      rw [List.mem_append]; simp only [hnn (.dead rm) rfl (by simp) (by simp), or_false]; exact undead rm hr
    · rw [if_neg]
      · exact ⟨t, x0.ipc, x0.handle, l, (remote _ _ hx0).1, rfl⟩
      · rw [← dropped _ _ ho0, ← (remote _ _ hx0).2, hc'.1, hc'.2]; simp
    · intro _ _ _ _ _ hm
      rcases List.mem_cons.1 hm with hm | hm
      · cases hm
      · exact idle_not hl rfl hm
    · simp only []
      rw [← List.append_assoc, hold_idle _ _ hl, hold_append, hold]; rfl
  | refuse r p0 c f looper o0 x0 ho0 hx0 hc =>
    refine ⟨lt, rlt, fun p o ho => List.mem_append_left _ (made p o ho), fun p o ho => ?_, fun p hp => ?_,
      fun rm x hx => ?_, fun rm hr => ?_, handled.cons ⟨o0.ipc, o0.remote, made _ _ ho0, ?_⟩ (by simp), fun p => ?_⟩
    · rw [dropped p o ho]; simp
    · simp [undropped p hp]
    · obtain ⟨h1, h2⟩ := remote rm x hx
      rw [h2]; simp [h1]
    · simp [undead rm hr]
    · rw [if_pos]
      · exact ⟨[], rfl⟩
      · rw [← dropped _ _ ho0, ← (remote _ _ hx0).2]
        cases h1 : o0.dropped <;> cases h2 : x0.dead <;> simp_all
    · simp only []; rw [hold_append, hold]; rfl

/-! ### Steps -/

theorem look_eq {s' : State} {v : Look} (h1 : s'.no = v.no) (h2 : ∀ p, (s'.obj p).map Obj.info = v.info p)
    (h3 : s'.remotes = v.remotes) (h4 : ∀ rm, (s'.remote rm).map Remote.info = v.rinfo rm)
    (h5 : s'.log = v.log) : look s' = v := by
  obtain ⟨a, b, c, d, e⟩ := v
  simp only [look, Look.mk.injEq]
  exact ⟨h1, funext h2, h3, funext h4, h5⟩

/-- Nothing that matters. -/
theorem Facts.same {s s' : State} (h : Facts (look s)) (h1 : s'.no = s.no)
    (h2 : ∀ p, (s'.obj p).map Obj.info = (s.obj p).map Obj.info)
    (h3 : s'.remotes = s.remotes) (h4 : ∀ rm, (s'.remote rm).map Remote.info = (s.remote rm).map Remote.info)
    (h5 : ∃ l, l.all Proxy.idle = true ∧ s'.log = s.log ++ l) : Facts (look s') := by
  obtain ⟨l, hl, h5⟩ := h5
  rw [look_eq (v := { look s with log := s.log ++ l }) h1 h2 h3 h4 h5]
  exact h.act (.idle l hl)

theorem info_upd {s : State} {p : Nat} {o : Obj} (y : Obj) (ho : s.obj p = some o) (h : y.info = o.info) (p' : Nat) :
    (upd s.obj p (some y) p').map Obj.info = (s.obj p').map Obj.info := by
  by_cases hp : p' = p
  · subst hp; rw [upd_same, ho]; simp [h]
  · rw [upd_ne _ _ hp]

theorem rinfo_upd {s : State} {rm : Nat} {x : Remote} (y : Remote) (hx : s.remote rm = some x) (h : y.info = x.info)
    (rm' : Nat) : (upd s.remote rm (some y) rm').map Remote.info = (s.remote rm').map Remote.info := by
  by_cases hp : rm' = rm
  · subst hp; rw [upd_same, hx]; simp [h]
  · rw [upd_ne _ _ hp]

theorem Facts.remoteUnref {s s' : State} {rm : Nat} {m : Bool} (h : Facts (look s)) (hs : s.remoteUnref rm m = .ok s') :
    Facts (look s') := by
  simp only [State.remoteUnref] at hs
  split at hs
  · cases hs
  · rename_i x hx
    split at hs <;> cases hs
    · have hm := h.act (.freeRemote rm)
      rw [look_eq _ _ _ _ _]
      · exact hm
      · rfl
      · intro _; rfl
      · rfl
      · intro rm'
        by_cases hr : rm' = rm
        · subst hr; simp [State.setRemote, upd_same]
        · simp [State.setRemote, upd_ne _ _ hr, look]
      · rfl
    · exact h.same rfl (fun _ => rfl) rfl (rinfo_upd _ hx rfl) ⟨[], rfl, by simp [State.setRemote]⟩

theorem Facts.objUnref {s s' : State} {p : Nat} {m : Bool} (h : Facts (look s)) (hs : s.objUnref p m = .ok s') :
    Facts (look s') := by
  simp only [State.objUnref] at hs
  split at hs
  · cases hs
  · rename_i o ho
    split at hs
    · split at hs
      · cases hs
      · refine Facts.remoteUnref ?_ hs
        have hm := h.act (.free p o.info (by simp [look, ho]))
        rw [look_eq _ _ _ _ _]
        · exact hm
        · rfl
        · intro p'
          by_cases hp : p' = p
          · subst hp; simp [State.setObj, upd_same]
          · simp [State.setObj, State.see, upd_ne _ _ hp, look]
        · rfl
        · intro _; rfl
        · rfl
    · cases hs
      exact h.same rfl (info_upd _ ho rfl) rfl (fun _ => rfl) ⟨[], rfl, by simp [State.setObj]⟩

theorem Facts.dequeue {s s' : State} {t : Nat} (h : Facts (look s)) (hs : s.dequeue t = .ok s') : Facts (look s') := by
  simp only [State.dequeue] at hs
  split at hs
  · cases hs
  · split at hs
    · cases hs; exact h
    · split at hs
      · cases hs
      · rename_i o ho
        split at hs
        · refine Facts.objUnref ?_ hs
          exact h.same rfl (info_upd _ ho rfl) rfl (fun _ => rfl) ⟨[], rfl, by simp [State.setObj, State.setTx]⟩
        · cases hs

theorem Facts.complete {s s' : State} {r : Nat} {rep : Option Nat} {st : Int} (h : Facts (look s))
    (hs : s.complete r rep st = .ok s') : Facts (look s') := by
  simp only [State.complete] at hs
  split at hs
  · cases hs
  · rename_i x _
    cases hs
    cases x.tx
    · exact h
    · exact h.same rfl (fun _ => rfl) rfl (fun _ => rfl) ⟨[.answered r rep st], rfl, by simp [State.setReq, State.see]⟩

theorem Facts.reqUnref {s s' : State} {r : Nat} {m : Bool} (h : Facts (look s)) (hs : s.reqUnref r m = .ok s') :
    Facts (look s') := by
  simp only [State.reqUnref] at hs
  split at hs
  · cases hs
  · rename_i x _
    split at hs <;> cases hs
    · cases x.tx
      · exact h.same rfl (fun _ => rfl) rfl (fun _ => rfl) ⟨[], rfl, by simp [State.setReq]⟩
      · exact h.same rfl (fun _ => rfl) rfl (fun _ => rfl)
          ⟨[.answered r none ecanceled], rfl, by simp [State.setReq, State.see]⟩
    · exact h.same rfl (fun _ => rfl) rfl (fun _ => rfl) ⟨[], rfl, by simp [State.setReq]⟩

theorem Facts.create {s s' : State} {ipc rm : Nat} (h : Facts (look s)) (hs : s.create ipc rm = .ok s') :
    Facts (look s') := by
  simp only [State.create] at hs
  split at hs
  · cases hs
  · rename_i x hx
    cases hs
    have hm := h.act (.make ipc rm)
    rw [look_eq _ _ _ _ _]
    · exact hm
    · rfl
    · intro p
      by_cases hp : p = s.no
      · subst hp; simp [State.setObj, State.setRemote, State.see, upd_same, Obj.info, look]
      · simp [State.setObj, State.setRemote, State.see, upd_ne _ _ hp, look]
    · rfl
    · exact rinfo_upd _ hx rfl
    · rfl

theorem Facts.die {s s' : State} {rm : Nat} {x : Remote} (h : Facts (look s)) (hx : s.remote rm = some x)
    (h1 : s'.no = s.no) (h2 : s'.obj = s.obj) (h3 : s'.remotes = s.remotes)
    (h4 : s'.remote = upd s.remote rm (some { x with dead := true })) (h5 : s'.log = s.log ++ [.dead rm]) :
    Facts (look s') := by
  have hm := h.act (.die rm x.info (by simp [look, hx]))
  rw [look_eq _ _ _ _ _]
  · exact hm
  · exact h1
  · intro p; rw [h2]; rfl
  · exact h3
  · intro rm'; rw [h4]
    by_cases hr : rm' = rm
    · subst hr; simp [upd_same, Remote.info]
    · simp [upd_ne _ _ hr, look]
  · exact h5

theorem Facts.step {s s' : State} (hg : Facts (look s)) {l : Label} (hs : step s l = .ok s') : Facts (look s') := by
  cases l with
  | newRemote ipc handle =>
    cases hs
    have hm := hg.act (.newRemote ipc handle)
    rw [look_eq _ _ _ _ _]
    · exact hm
    · rfl
    · intro _; rfl
    · rfl
    · intro rm
      by_cases hr : rm = s.remotes
      · subst hr; simp [State.setRemote, State.see, upd_same, Remote.info, look]
      · simp [State.setRemote, State.see, upd_ne _ _ hr, look]
    · rfl
  | refRemote rm =>
    simp only [Proxy.step] at hs
    split at hs
    · cases hs
    · rename_i x hx
      cases hs
      exact hg.same rfl (fun _ => rfl) rfl (rinfo_upd _ hx rfl) ⟨[], rfl, by simp [State.setRemote]⟩
  | unrefRemote rm => exact hg.remoteUnref hs
  | die rm =>
    simp only [Proxy.step] at hs
    split at hs
    · cases hs
    · rename_i x hx
      cases hs
      exact hg.die hx rfl rfl rfl rfl rfl
  | new ipc rm => exact hg.create hs
  | find ipc rm p =>
    simp only [Proxy.step] at hs
    split at hs
    · cases hs
    · split at hs
      · split at hs
        · cases hs
        · rename_i o ho
          split at hs <;> cases hs
          exact hg.same rfl (info_upd _ ho rfl) rfl (fun _ => rfl) ⟨[], rfl, by simp [State.setObj]⟩
      · split at hs
        · cases hs
        · split at hs
          · cases hs; exact hg
          · exact hg.create hs
  | ref p =>
    simp only [Proxy.step] at hs
    split at hs
    · cases hs
    · rename_i o ho
      cases hs
      exact hg.same rfl (info_upd _ ho rfl) rfl (fun _ => rfl) ⟨[], rfl, by simp [State.setObj]⟩
  | unref p => exact hg.objUnref hs
  | acquire p =>
    simp only [Proxy.step] at hs
    split at hs
    · cases hs
    · rename_i o ho
      split at hs
      · cases hs
      · split at hs <;> cases hs
        · rename_i hc
          have hm := hg.act (.acquire p o.info (by simp [look, ho]) (by simp_all [Obj.info]))
          rw [look_eq _ _ _ _ _]
          · exact hm
          · rfl
          · intro p'
            by_cases hp : p' = p
            · subst hp; simp [State.setObj, State.see, upd_same, Obj.info]
            · simp [State.setObj, State.see, upd_ne _ _ hp, look]
          · rfl
          · intro _; rfl
          · rfl
        · exact hg
  | drop p =>
    simp only [Proxy.step] at hs
    split at hs
    · cases hs
    · rename_i o ho
      refine Facts.objUnref ?_ hs
      have hm := hg.act (.drop p o.info (by simp [look, ho]))
      rw [look_eq _ _ _ _ _]
      · exact hm
      · rfl
      · intro p'
        by_cases hp : p' = p
        · subst hp; simp [State.setObj, State.see, upd_same, Obj.info]
        · simp [State.setObj, State.see, upd_ne _ _ hp, look]
      · rfl
      · intro _; rfl
      · rfl
  | handle p looper code flags =>
    simp only [Proxy.step] at hs
    split at hs
    · cases hs
    · split at hs
      · cases hs
      · rename_i o ho
        split at hs
        · cases hs
        · rename_i x hx
          split at hs <;> cases hs
          · rename_i hc
            have hm := hg.act (.forward s.reqs p s.txs code flags looper o.info x.info
              (if looper then [] else [.answered s.reqs none 0]) (by simp [look, ho]) (by simp [look, hx, Obj.info]) hc
              (by cases looper <;> rfl))
            rw [look_eq _ _ _ _ _]
            · exact hm
            · rfl
            · exact info_upd _ ho rfl
            · rfl
            · intro _; rfl
            · rfl
          · rename_i hc
            have hm := hg.act (.refuse s.reqs p code flags looper o.info x.info (by simp [look, ho])
              (by simp [look, hx, Obj.info]) hc)
            rw [look_eq _ _ _ _ _]
            · exact hm
            · rfl
            · intro _; rfl
            · rfl
            · intro _; rfl
            · rfl
  | refReq r =>
    simp only [Proxy.step] at hs
    split at hs <;> cases hs
    exact hg.same rfl (fun _ => rfl) rfl (fun _ => rfl) ⟨[], rfl, by simp [State.setReq]⟩
  | unrefReq r => exact hg.reqUnref hs
  | reply t rep st =>
    simp only [Proxy.step] at hs
    split at hs
    · cases hs
    · split at hs
      · cases hs
      · rename_i x hx
        split at hs
        · cases hs
        · split at hs
          · cases hs
          · cases hd : ((s.setTx t (some { x with replied := true })).see [.replied t rep st]).dequeue t with
            | no => rw [hd] at hs; cases hs
            | ub => rw [hd] at hs; cases hs
            | ok s1 =>
              rw [hd] at hs
              simp only [Out.andThen] at hs
              have h1 : Facts (look s1) := by
                refine Facts.dequeue ?_ hd
                exact hg.same rfl (fun _ => rfl) rfl (fun _ => rfl) ⟨[.replied t rep st], rfl, rfl⟩
              cases hc : s1.complete x.req rep (if st > 0 then efault else st) with
              | no => rw [hc] at hs; cases hs
              | ub => rw [hc] at hs; cases hs
              | ok s2 =>
                rw [hc] at hs
                have h2 := h1.complete hc
                simp only [] at hs
                cases hs
                split
                · exact h2
                · exact h2
  | suicide =>
    simp only [Proxy.step] at hs
    split at hs
    · cases hs
    · split at hs
      · cases hs
      · rename_i o ho
        split at hs
        · cases hs
        · rename_i x hx
          cases hs
          exact hg.die hx rfl rfl rfl rfl rfl
  | destroy t =>
    simp only [Proxy.step] at hs
    split at hs
    · cases hs
    · split at hs
      · cases hs
      · cases hd : s.dequeue t with
        | no => rw [hd] at hs; cases hs
        | ub => rw [hd] at hs; cases hs
        | ok s1 =>
          rw [hd] at hs
          simp only [Out.andThen] at hs
          refine Facts.reqUnref ?_ hs
          exact (hg.dequeue hd).same rfl (fun _ => rfl) rfl (fun _ => rfl) ⟨[], rfl, by simp [State.setTx]⟩

end Gb.Proxy
