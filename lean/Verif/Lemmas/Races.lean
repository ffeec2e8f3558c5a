import Verif.Spec.Races
/-
Whoever touches a variable has locked its mutex.
-/
set_option autoImplicit false

namespace Gb.Races

open Gb.Locks (Lock Created Started Joining Handled Reading)

/-- With these mutexes being locked, the thread follows the rules until it finishes (or locks the same thing again). -/
def Safe : List Lock → List Act → Prop
  | _, [] => True
  | g, .use v _ :: r => (∀ l, guard v = some l → l ∈ g) ∧ Safe g r
  | g, .act (.lock l) :: r => l ∈ g ∨ Safe (l :: g) r
  | g, .act (.unlock l) :: r => Safe (g.filter (· ≠ l)) r
  | g, .act _ :: r => Safe g r

/-- What can be done under the locks `m`. -/
def Fine (m : List Lock) (f : List Act) : Prop := ∀ g r, (∀ l ∈ m, l ∈ g) → Safe g r → Safe g (f ++ r)

theorem Fine.nil (m : List Lock) : Fine m [] := fun _ _ _ h => h

theorem Fine.append {m : List Lock} {a b : List Act} (ha : Fine m a) (hb : Fine m b) : Fine m (a ++ b) := by
  intro g r hg hr
  rw [List.append_assoc]
  exact ha g _ hg (hb g r hg hr)

theorem Fine.cons {m : List Lock} {a : Act} {b : List Act} (ha : Fine m [a]) (hb : Fine m b) : Fine m (a :: b) :=
  ha.append hb

theorem Fine.mono {m m' : List Lock} {a : List Act} (h : Fine m a) (hm : ∀ l ∈ m, l ∈ m') : Fine m' a :=
  fun g r hg hr => h g r (fun l hl => hg l (hm l hl)) hr

theorem Fine.weak {m : List Lock} {a : List Act} (h : Fine [] a) : Fine m a := h.mono (by simp)

theorem Fine.flatMap {α : Type} {m : List Lock} {f : α → List Act} {l : List α} (h : ∀ a ∈ l, Fine m (f a)) :
    Fine m (l.flatMap f) := by
  induction l with
  | nil => exact Fine.nil _
  | cons a l ih =>
    rw [List.flatMap_cons]
    exact (h a (by simp)).append (ih fun b hb => h b (by simp [hb]))

theorem Fine.use {m : List Lock} {v : Var} {w : Bool} (h : ∀ l, guard v = some l → l ∈ m) : Fine m [.use v w] :=
  fun _ _ hg hr => ⟨fun l hl => hg l (h l hl), hr⟩

theorem filter_cons_self {g : List Lock} {l : Lock} (h : l ∉ g) : (l :: g).filter (· ≠ l) = g := by
  rw [List.filter_cons]
  simp only [ne_eq, not_true_eq_false, decide_false, Bool.false_eq_true, if_false]
  rw [List.filter_eq_self]
  intro a ha
  simp
  rintro rfl
  exact h ha

theorem Fine.locked {m : List Lock} {l : Lock} {body : List Act} (h : Fine (l :: m) body) : Fine m (locked l body) := by
  intro g r hg hr
  show l ∈ g ∨ Safe (l :: g) ((body ++ [.act (.unlock l)]) ++ r)
  by_cases hl : l ∈ g
  · exact .inl hl
  · refine .inr ?_
    rw [List.append_assoc]
    refine h (l :: g) _ (by grind) ?_
    show Safe ((l :: g).filter (· ≠ l)) r
    rw [filter_cons_self hl]
    exact hr

/-- Anything except for locking and unlocking. -/
def quiet : Locks.Act → Bool
  | .lock _ => false
  | .unlock _ => false
  | _ => true

theorem Fine.act {m : List Lock} {a : Locks.Act} (h : quiet a = true) : Fine m [.act a] := by
  intro g r _ hr
  cases a <;> first | exact hr | cases h

theorem Fine.quiet {m : List Lock} {p : List Locks.Act} (h : ∀ a ∈ p, quiet a = true) : Fine m (p.map .act) := by
  induction p with
  | nil => exact Fine.nil _
  | cons a p ih => exact Fine.cons (.act (h a (by simp))) (ih fun b hb => h b (by simp [hb]))

/-! Functions -/

/-- Variables without a guard can be used anywhere (which doesn't make it right). -/
theorem Fine.free {m : List Lock} {v : Var} {w : Bool} (h : guard v = none) : Fine m [.use v w] :=
  Fine.use (by simp [h])

theorem ioctl_fine (m : List Lock) (i : Nat) : Fine m (ioctl i) := Fine.cons (.free rfl) (.act rfl)

theorem looperNew_fine (m : List Lock) (c : Created) : Fine m (looperNew c) := by
  cases c with
  | noPipe => exact Fine.nil _
  | noThread x =>
    exact (Fine.locked (l := .looper x) (body := [.act .sys]) (.act rfl)).append (b := [.act .joinUnset]) (.act rfl)
  | ok x => exact Fine.locked (l := .looper x) (body := [.act .sys]) (.act rfl)

theorem looperWait_fine (m : List Lock) (w : Started) (c : Created) : Fine m (looperWait w c) := by
  cases c with
  | noPipe => exact Fine.nil _
  | noThread x => exact Fine.nil _
  | ok x =>
    show Fine m ((Locks.looperStart x w ++ [Locks.Act.drop x]).map Act.act)
    rw [List.map_append]
    refine Fine.append ?_ (Fine.act (a := .drop x) rfl)
    cases w with
    | already => exact Fine.nil _
    | meanwhile => exact Fine.locked (l := .looper x) (body := []) (Fine.nil _)
    | notYet =>
      intro g r _ hr
      show _ ∈ g ∨ Safe _ _
      by_cases hl : Lock.looper x ∈ g
      · exact .inl hl
      · refine .inr ?_
        show Safe ((Lock.looper x :: g).filter (· ≠ Lock.looper x)) _
        rw [filter_cons_self hl]
        show _ ∈ g ∨ Safe _ _
        refine .inr ?_
        show Safe ((Lock.looper x :: g).filter (· ≠ Lock.looper x)) r
        rw [filter_cons_self hl]
        exact hr

theorem looperCheck_fine (m : List Lock) (i : Nat) (c : Option Created) (w : Started) : Fine m (looperCheck i c w) := by
  cases c with
  | none => exact Fine.locked (.use (by simp [guard]))
  | some c =>
    refine (Fine.locked ?_).append (looperWait_fine m w c)
    exact Fine.cons (.use (by simp [guard])) ((looperNew_fine _ c).append (.use (by simp [guard])))

theorem readLocals_fine (m : List Lock) (i : Nat) : Fine m (readLocals i) := Fine.locked (.use (by simp [guard]))

theorem changeLocals_fine (m : List Lock) (i : Nat) : Fine m (changeLocals i) :=
  Fine.locked (Fine.cons (.use (by simp [guard])) (.use (by simp [guard])))

theorem changeRemotes_fine (m : List Lock) (i : Nat) : Fine m (changeRemotes i) :=
  Fine.locked (Fine.cons (.use (by simp [guard])) (.use (by simp [guard])))

theorem remoteNew_fine (m : List Lock) (i : Nat) (dead : Bool) (c : Option Created) (w : Started) :
    Fine m (remoteNew i dead c w) := by
  unfold remoteNew
  split
  · exact Fine.nil _
  · exact ((looperCheck_fine m i c w).append (ioctl_fine m i)).append (ioctl_fine m i)

theorem getRemote_fine (m : List Lock) (i : Nat) (create dead : Bool) (c : Option Created) (w : Started) :
    Fine m (getRemote i create dead c w) := by
  refine Fine.locked (Fine.cons (.use (by simp [guard])) ?_)
  split
  · exact (remoteNew_fine _ i dead c w).append (.use (by simp [guard]))
  · exact Fine.nil _

theorem configGet_fine (m : List Lock) (c : Loaded) : Fine m (configGet c) := by
  cases c
  · exact Fine.free rfl
  · exact Fine.free rfl
  · exact Fine.cons (.free rfl) (.free rfl)

theorem protocolFor_fine (m : List Lock) (p : Option Loaded) : Fine m (protocolFor p) := by
  cases p with
  | none => exact Fine.free rfl
  | some c => exact Fine.cons (.free rfl) ((configGet_fine m c).append (Fine.cons (.free rfl) (.free rfl)))

theorem typeFor_fine (m : List Lock) (named : Bool) (p : Option Loaded) : Fine m (typeFor named p) := by
  cases named with
  | true => exact Fine.nil _
  | false =>
    cases p with
    | none => exact Fine.free rfl
    | some c => exact Fine.cons (.free rfl) ((configGet_fine m c).append (Fine.cons (.free rfl) (.free rfl)))

theorem ipcNew_fine (m : List Lock) (named : Bool) (p : Option Loaded) (found : Bool) : Fine m (ipcNew named p found) := by
  refine Fine.append ?_ (Fine.locked (Fine.cons (.use (by simp [guard])) ?_))
  · split
    · exact Fine.nil _
    · exact protocolFor_fine m p
  · split
    · exact Fine.nil _
    · exact Fine.cons (.act rfl) (.use (by simp [guard]))

theorem looperJoin_fine (m : List Lock) (i : Nat) (j : Joining) : Fine m (looperJoin i j) := by
  refine Fine.append ?_ (.act rfl)
  split
  · exact Fine.nil _
  · split
    · exact Fine.cons (.act rfl) ((Fine.locked (Fine.cons (.free rfl) (.act rfl))).append (.act rfl))
    · exact Fine.act rfl

theorem stopLoopers_fine (m : List Lock) (i : Nat) (js : List (List Joining)) : Fine m (stopLoopers i js) := by
  induction js with
  | nil => exact Fine.locked (Fine.cons (.use (by simp [guard])) (.use (by simp [guard])))
  | cons js more ih =>
    refine (Fine.append (Fine.locked ?_) ?_).append ih
    · refine Fine.cons (.use (by simp [guard])) (Fine.append (Fine.flatMap fun j _ => ?_) (.use (by simp [guard])))
      exact Fine.cons (.act rfl) (.free rfl)
    · exact Fine.flatMap fun j _ => Fine.cons (.free rfl) (looperJoin_fine m i j)

theorem map_join_fine (m : List Lock) (l : List Nat) : Fine m (l.map fun u => .act (.join u)) := by
  induction l with
  | nil => exact Fine.nil _
  | cons u l ih => exact Fine.cons (.act rfl) ih

theorem looperTransact_fine (m : List Lock) (i x r : Nat) (h : Handled) : Fine m (looperTransact i x r h) := by
  have hu : ∀ w, Fine (Lock.loopers i :: m) [.use (.loopers i) w] := fun w => .use (by simp [guard])
  have hn : ∀ w, Fine (Lock.loopers i :: m) [.use (.next i) w] := fun w => .free rfl
  cases h with
  | done => exact Fine.cons (.act rfl) (.act rfl)
  | blocked q p c w =>
    refine Fine.append (Fine.append (Fine.append (.act rfl) ?_) (Fine.cons (.act rfl) (.act rfl))) ?_
    · cases p with
      | false => exact Fine.locked (Fine.cons (hu _) (hn _))
      | true =>
        cases c with
        | none => exact Fine.locked (Fine.cons (hu _) (Fine.cons (hn _) (hu _)))
        | some c =>
          refine (Fine.locked (Fine.append (Fine.append ?_ (looperNew_fine _ c)) (hu _))).append (looperWait_fine m w c)
          exact Fine.cons (hu _) (Fine.cons (hn _) (hu _))
    · cases p with
      | false => exact Fine.nil _
      | true => exact Fine.locked (Fine.cons (hu _) (Fine.cons (hn _) (hu _)))

theorem poolTransact_fine (m : List Lock) (r : Nat) (h : Handled) : Fine m (poolTransact r h) := by
  refine Fine.quiet ?_
  cases h <;> simp [Locks.poolTransact, Races.quiet]

theorem looperReading_fine (m : List Lock) (i x : Nat) (a : Reading) : Fine m (looperReading i x a) := by
  cases a with
  | sys => exact ioctl_fine m i
  | getLocal => exact readLocals_fine m i
  | getRemote create c w => exact getRemote_fine m i create false c w
  | other => exact Fine.act rfl
  | request r h => exact looperTransact_fine m i x r h

theorem poolReading_fine (m : List Lock) (i : Nat) (a : Reading) : Fine m (poolReading i a) := by
  cases a with
  | sys => exact ioctl_fine m i
  | getLocal => exact readLocals_fine m i
  | getRemote create c w => exact getRemote_fine m i create false c w
  | other => exact Fine.act rfl
  | request r h => exact poolTransact_fine m r h

theorem mainReading_fine (m : List Lock) (i : Nat) (a : Reading) : Fine m (mainReading i a) := by
  cases a with
  | sys => exact ioctl_fine m i
  | getLocal => exact readLocals_fine m i
  | getRemote create c w => exact getRemote_fine m i create false c w
  | other => exact Fine.act rfl
  | request r h => exact Fine.act rfl

theorem looperThread_fine (m : List Lock) (i x : Nat) (entered : Bool) (reads : List Reading) (abandoned : Bool) :
    Fine m (looperThread i x entered reads abandoned) := by
  refine Fine.append (Fine.append (Fine.locked (ioctl_fine _ i)) ?_) (.act rfl)
  split
  · refine (ioctl_fine m i).append (Fine.append ((Fine.flatMap fun a _ => looperReading_fine m i x a).append
      (ioctl_fine m i)) ?_)
    split
    · exact Fine.nil _
    · exact Fine.locked (Fine.cons (.use (by simp [guard])) (Fine.cons (.free rfl)
        (Fine.cons (.use (by simp [guard])) (.act rfl))))
  · exact Fine.nil _

theorem reanimate_fine (m : List Lock) (i : Nat) (alive : Bool) (c : Option Created) (w : Started) :
    Fine m (reanimate i alive c w) := by
  refine Fine.cons (.free rfl) (Fine.cons (.act rfl) ?_)
  split
  · exact Fine.cons (.free rfl) (((looperCheck_fine m i c w).append (ioctl_fine m i)).append (ioctl_fine m i))
  · exact Fine.nil _

theorem Fn.fine {f : List Act} (h : Fn f) : Fine [] f := by
  cases h with
  | ioctl i => exact ioctl_fine _ i
  | other => exact Fine.act rfl
  | readLocals i => exact readLocals_fine _ i
  | changeLocals i => exact changeLocals_fine _ i
  | changeRemotes i => exact changeRemotes_fine _ i
  | looperCheck i c w => exact looperCheck_fine _ i c w
  | registerLocal i c w => exact (changeLocals_fine _ i).append (looperCheck_fine _ i c w)
  | getRemote i create dead c w => exact getRemote_fine _ i create dead c w
  | configForget => exact Fine.free rfl
  | typeFor named p => exact typeFor_fine _ named p
  | ipcNew named p found => exact ipcNew_fine _ named p found
  | ipcDispose i js pool =>
    refine Fine.append (Fine.append (Fine.append (Fine.locked ?_) (stopLoopers_fine _ i js)) (map_join_fine _ pool))
      (Fine.cons (.free rfl) (.act rfl))
    exact Fine.cons (.use (by simp [guard])) (.use (by simp [guard]))
  | ipcExit es =>
    refine Fine.append (Fine.append (Fine.locked (.use (by simp [guard]))) (Fine.flatMap fun e _ => ?_)) (.act rfl)
    exact Fine.append (Fine.append (Fine.append (Fine.append (stopLoopers_fine _ _ _) (map_join_fine _ _)) (.act rfl))
      (readLocals_fine _ _)) (.act rfl)
  | localGone i => exact ((changeLocals_fine _ i).append (changeLocals_fine _ i)).append (.act rfl)
  | remoteGone i =>
    exact Fine.append (Fine.append (Fine.append (Fine.append ((changeRemotes_fine _ i).append (changeRemotes_fine _ i))
      (.free rfl)) (ioctl_fine _ i)) (ioctl_fine _ i)) (.act rfl)
  | remoteDied i =>
    exact Fine.append (Fine.append (Fine.append (Fine.append (Fine.cons (.free rfl) (.free rfl)) (ioctl_fine _ i))
      (changeRemotes_fine _ i)) (ioctl_fine _ i)) (.act rfl)
  | reanimate i alive c w => exact reanimate_fine _ i alive c w
  | addDeathHandler i c w => exact looperCheck_fine _ i c w
  | managerNew k i named p found first alive c c' c'' w w' w'' =>
    refine Fine.append (Fine.append (Fine.append ((ipcNew_fine _ named p found).append (getRemote_fine _ i _ _ c w))
      (Fine.locked (Fine.cons (.use (by simp [guard])) ?_))) ?_) (Fine.cons (.act rfl) (.act rfl))
    · split
      · exact Fine.use (by simp [guard])
      · exact Fine.nil _
    · split
      · exact (looperCheck_fine _ i c' w').append (reanimate_fine _ i alive c'' w'')
      · exact Fine.nil _
  | managerGone k =>
    exact (Fine.locked (Fine.cons (.use (by simp [guard])) (.use (by simp [guard])))).append (.act rfl)
  | looperThread i x entered reads abandoned => exact looperThread_fine _ i x entered reads abandoned
  | txProc i reads => exact Fine.flatMap fun a _ => poolReading_fine _ i a
  | workerCall i reads => exact Fine.cons (.free rfl) (Fine.flatMap fun a _ => poolReading_fine _ i a)
  | mainCall i reads => exact Fine.cons (.free rfl) (Fine.flatMap fun a _ => mainReading_fine _ i a)
  | mainServe r => exact Fine.cons (.act rfl) (.act rfl)

theorem safe_inside {p : List Act} (hp : Fine [] p) (a b : List Act) (g : List Lock)
    (h : Safe g (a ++ .act .other :: b)) : Safe g (a ++ .act .other :: (p ++ b)) := by
  induction a generalizing g with
  | nil => exact hp g b (by simp) h
  | cons x a ih =>
    cases x with
    | use v w => exact ⟨h.1, ih g h.2⟩
    | act x =>
      cases x with
      | lock l => exact h.imp id (ih (l :: g))
      | unlock l => exact ih (g.filter (· ≠ l)) h
      | _ => exact ih g h

theorem Prog.fine {p : List Act} (h : Prog p) : Fine [] p := by
  induction h with
  | nil => exact Fine.nil _
  | call hf _ ih => exact hf.fine.append ih
  | @inside a b p _ _ ih1 ih2 =>
    intro g r hg hr
    have := ih1 g r hg hr
    rw [List.append_assoc, List.cons_append, List.append_assoc]
    rw [List.append_assoc, List.cons_append] at this
    exact safe_inside ih2 a (b ++ r) g this

/-! Executions -/

structure Inv (s : State) : Prop where
  safe : ∀ t, ∃ g, Safe g (s.rest t) ∧ ∀ l ∈ g, s.held l = some t

theorem start_inv {progs : Nat → List Act} (hp : ∀ t, Prog (progs t)) : Inv (start progs) := by
  refine ⟨fun t => ⟨[], ?_, by simp⟩⟩
  have := (hp t).fine [] [] (by simp) trivial
  rwa [List.append_nil] at this

theorem step_inv {s s' : State} {t : Nat} (hi : Inv s) (h : step s t = .ok s') : Inv s' := by
  have other : ∀ (r : List Act) (s1 : State), s1.rest = s.rest → s1.held = s.held → (∀ g, Safe g (s.rest t) → Safe g r) →
      Inv (s1.next t r) := by
    intro r s1 h1 h2 hr
    refine ⟨fun u => ?_⟩
    obtain ⟨g, hg, hl⟩ := hi.safe u
    refine ⟨g, ?_, by simpa [State.next, h2] using hl⟩
    by_cases hu : u = t
    · subst hu; simpa [State.next, upd] using hr g hg
    · simpa [State.next, upd, hu, h1] using hg
  unfold step at h
  split at h
  · cases h
  · rename_i v w r hr
    cases h
    exact other r _ rfl rfl fun g hg => by rw [hr] at hg; exact hg.2
  · rename_i l r hr
    split at h
    · rename_i hn
      cases h
      refine ⟨fun u => ?_⟩
      obtain ⟨g, hg, hl⟩ := hi.safe u
      by_cases hu : u = t
      · subst hu
        rw [hr] at hg
        have hnm : l ∉ g := fun hm => by rw [hl l hm] at hn; cases hn
        refine ⟨l :: g, ?_, ?_⟩
        · simpa [State.next, upd] using hg.resolve_left hnm
        · intro k hk
          by_cases hkl : k = l
          · simp [State.next, State.see, State.set, hkl]
          · simp only [State.next, State.see, State.set, hkl, if_false]
            exact hl k ((List.mem_cons.1 hk).resolve_left hkl)
      · refine ⟨g, by simpa [State.next, State.see, State.set, upd, hu] using hg, ?_⟩
        intro k hk
        have : k ≠ l := by rintro rfl; rw [hl k hk] at hn; cases hn
        simp only [State.next, State.see, State.set, this, if_false]
        exact hl k hk
    · split at h <;> cases h
  · rename_i l r hr
    split at h
    · rename_i hn
      cases h
      refine ⟨fun u => ?_⟩
      obtain ⟨g, hg, hl⟩ := hi.safe u
      by_cases hu : u = t
      · subst hu
        rw [hr] at hg
        refine ⟨g.filter (· ≠ l), by simpa [State.next, upd, Safe] using hg, ?_⟩
        intro k hk
        have hk' := List.mem_filter.1 hk
        have : k ≠ l := by simpa using hk'.2
        simp only [State.next, State.see, State.set, this, if_false]
        exact hl k hk'.1
      · refine ⟨g, by simpa [State.next, State.see, State.set, upd, hu] using hg, ?_⟩
        intro k hk
        have : k ≠ l := by
          rintro rfl
          rw [hl k hk, Option.some.injEq] at hn
          exact hu hn
        simp only [State.next, State.see, State.set, this, if_false]
        exact hl k hk
    · cases h
  · rename_i u r hr
    split at h
    · cases h; exact other r _ rfl rfl fun g hg => by rw [hr] at hg; exact hg
    · cases h
  · cases h
  · rename_i x r hr
    cases h; exact other r _ rfl rfl fun g hg => by rw [hr] at hg; exact hg
  · rename_i q w r hr
    split at h
    · cases h; exact other r _ rfl rfl fun g hg => by rw [hr] at hg; exact hg
    · cases h
  · rename_i q r hr
    cases h; exact other r _ rfl rfl fun g hg => by rw [hr] at hg; exact hg
  · rename_i r hr
    cases h; exact other r _ rfl rfl fun g hg => by rw [hr] at hg; exact hg
  · rename_i r hr
    cases h; exact other r _ rfl rfl fun g hg => by rw [hr] at hg; exact hg
  · rename_i r hr
    cases h; exact other r _ rfl rfl fun g hg => by rw [hr] at hg; exact hg
  · rename_i x r hr
    cases h; exact other r _ rfl rfl fun g hg => by rw [hr] at hg; exact hg

theorem reach_inv {progs : Nat → List Act} (hp : ∀ t, Prog (progs t)) {s : State} (h : Reach step (start progs) s) : Inv s :=
  h.invariant (start_inv hp) fun _ _ _ hi hs => step_inv hi hs

/-- Whoever is about to access the variable has locked its mutex. -/
theorem Inv.guarded {s : State} (hi : Inv s) {t : Nat} {v : Var} {w : Bool} {r : List Act} (h : s.rest t = .use v w :: r)
    {l : Lock} (hg : guard v = some l) : s.held l = some t := by
  obtain ⟨g, h1, h2⟩ := hi.safe t
  rw [h] at h1
  exact h2 l (h1.1 l hg)

/-! The log -/

/-- Who has locked it after this event. -/
def held1 (l : Lock) (o : Option Nat) : Ev → Option Nat
  | .locked t k => if k = l then some t else o
  | .unlocked _ k => if k = l then none else o
  | .used _ _ _ => o

/-- Who has locked it after these events. -/
def holder (l : Lock) (o : Option Nat) (log : List Ev) : Option Nat := log.foldl (held1 l) o

/-- What may happen when it's locked by this one. -/
def allowed (l : Lock) (o : Option Nat) : Ev → Prop
  | .locked _ k => k = l → o = none
  | .unlocked t k => k = l → o = some t
  | .used t v _ => guard v = some l → o = some t

/-- Nothing else has happened. -/
def Wf (l : Lock) : Option Nat → List Ev → Prop
  | _, [] => True
  | o, e :: r => allowed l o e ∧ Wf l (held1 l o e) r

theorem wf_append {l : Lock} {o : Option Nat} {a b : List Ev} : Wf l o (a ++ b) ↔ Wf l o a ∧ Wf l (holder l o a) b := by
  induction a generalizing o with
  | nil => simp [Wf, holder]
  | cons e a ih =>
    simp only [List.cons_append, Wf, ih, and_assoc]
    rfl

theorem holder_append {l : Lock} {o : Option Nat} {a b : List Ev} :
    holder l o (a ++ b) = holder l (holder l o a) b := List.foldl_append

/-- The log tells who holds what, and that the rules were followed. -/
structure Logged (s : State) : Prop where
  held : ∀ l, s.held l = holder l none s.log
  wf : ∀ l, Wf l none s.log

theorem Logged.same {s s1 : State} (h : Logged s) (h1 : s1.held = s.held) (h2 : s1.log = s.log) (t : Nat) (r : List Act) :
    Logged (s1.next t r) :=
  ⟨fun l => by simpa [State.next, h1, h2] using h.held l, fun l => by simpa [State.next, h2] using h.wf l⟩

theorem Logged.see {s s1 : State} (h : Logged s) (e : Ev) (h2 : s1.log = s.log)
    (h1 : ∀ l, s1.held l = held1 l (s.held l) e) (ha : ∀ l, allowed l (s.held l) e) (t : Nat) (r : List Act) :
    Logged ((s1.see e).next t r) := by
  constructor
  · intro l
    show s1.held l = holder l none (s1.log ++ [e])
    rw [h2, holder_append, ← h.held l, h1]
    rfl
  · intro l
    show Wf l none (s1.log ++ [e])
    rw [h2, wf_append]
    exact ⟨h.wf l, by rw [← h.held l]; exact ha l, trivial⟩

theorem step_logged {s s' : State} {t : Nat} (hi : Inv s) (hl : Logged s) (h : step s t = .ok s') : Logged s' := by
  unfold step at h
  split at h
  · cases h
  · rename_i v w r hr
    cases h
    exact hl.see (.used t v w) rfl (fun _ => rfl) (fun l (hg : guard v = some l) => hi.guarded hr hg) _ _
  · rename_i l r hr
    split at h
    · rename_i hn
      cases h
      refine hl.see (s1 := s.set l (some t)) (.locked t l) rfl (fun k => ?_) (fun k (hk : l = k) => ?_) _ _
      · simp only [State.set, held1]
        by_cases hk : k = l
        · simp [hk]
        · simp [hk, Ne.symm hk]
      · rw [← hk]; exact hn
    · split at h <;> cases h
  · rename_i l r hr
    split at h
    · rename_i hn
      cases h
      refine hl.see (s1 := s.set l none) (.unlocked t l) rfl (fun k => ?_) (fun k (hk : l = k) => ?_) _ _
      · simp only [State.set, held1]
        by_cases hk : k = l
        · simp [hk]
        · simp [hk, Ne.symm hk]
      · rw [← hk]; exact hn
    · cases h
  · split at h
    · cases h; refine Logged.same hl ?_ ?_ _ _ <;> rfl
    · cases h
  · cases h
  · cases h; refine Logged.same hl ?_ ?_ _ _ <;> rfl
  · split at h
    · cases h; refine Logged.same hl ?_ ?_ _ _ <;> rfl
    · cases h
  · cases h; refine Logged.same hl ?_ ?_ _ _ <;> rfl
  · cases h; refine Logged.same hl ?_ ?_ _ _ <;> rfl
  · cases h; refine Logged.same hl ?_ ?_ _ _ <;> rfl
  · cases h; refine Logged.same hl ?_ ?_ _ _ <;> rfl
  · cases h; refine Logged.same hl ?_ ?_ _ _ <;> rfl

theorem reach_logged {progs : Nat → List Act} (hp : ∀ t, Prog (progs t)) {s : State} (h : Reach step (start progs) s) :
    Logged s :=
  (h.invariant (P := fun s => Inv s ∧ Logged s) ⟨start_inv hp, ⟨fun _ => rfl, fun _ => trivial⟩⟩
    fun _ _ _ hi hs => ⟨step_inv hi.1 hs, step_logged hi.1 hi.2 hs⟩).2

/-- To hold it in the end, one has to lock it. -/
theorem taken {l : Lock} {u : Nat} {b : List Ev} {o : Option Nat} (ho : o ≠ some u) (h : holder l o b = some u) :
    ∃ b1 b2, b = b1 ++ .locked u l :: b2 := by
  induction b generalizing o with
  | nil => exact absurd h ho
  | cons e b ih =>
    by_cases h1 : held1 l o e = some u
    · cases e with
      | locked t k =>
        simp only [held1] at h1
        split at h1
        · rename_i hk
          cases h1; subst hk
          exact ⟨[], b, rfl⟩
        · exact absurd h1 ho
      | unlocked t k =>
        simp only [held1] at h1
        split at h1
        · cases h1
        · exact absurd h1 ho
      | used t v w => exact absurd h1 ho
    · obtain ⟨b1, b2, rfl⟩ := ih h1 h
      exact ⟨e :: b1, b2, rfl⟩

/-- Somebody else holds it: the first one has unlocked it, and the other one has locked it then. -/
theorem passed {l : Lock} {t u : Nat} (htu : t ≠ u) {b : List Ev} (hw : Wf l (some t) b) (h : holder l (some t) b = some u) :
    ∃ b1 b2 b3, b = b1 ++ .unlocked t l :: (b2 ++ .locked u l :: b3) := by
  induction b with
  | nil => exact absurd (by simpa [holder] using h) htu
  | cons e b ih =>
    have keep : held1 l (some t) e = some t → ∃ b1 b2 b3, e :: b = b1 ++ .unlocked t l :: (b2 ++ .locked u l :: b3) := by
      intro he
      have hw' := hw.2
      rw [he] at hw'
      have h' : holder l (held1 l (some t) e) b = some u := h
      rw [he] at h'
      obtain ⟨b1, b2, b3, rfl⟩ := ih hw' h'
      exact ⟨e :: b1, b2, b3, rfl⟩
    cases e with
    | locked v k =>
      by_cases hk : k = l
      · have := hw.1 hk
        cases this
      · exact keep (by simp [held1, hk])
    | unlocked v k =>
      by_cases hk : k = l
      · have hv := hw.1 hk
        cases hv; subst hk
        have h' : holder k (held1 k (some t) (.unlocked t k)) b = some u := h
        obtain ⟨b2, b3, rfl⟩ := taken (by simp [held1]) h'
        exact ⟨[], b2, b3, rfl⟩
      · exact keep (by simp [held1, hk])
    | used v x w => exact keep rfl

/-! What is left to do was there from the beginning -/

theorem step_suffix {progs : Nat → List Act} {s s' : State} {t : Nat} (hi : ∀ u, s.rest u <:+ progs u)
    (h : step s t = .ok s') (u : Nat) : s'.rest u <:+ progs u := by
  have key : ∀ (a : Act) (r : List Act) (s1 : State), s.rest t = a :: r → s1.rest = s.rest →
      (s1.next t r).rest u <:+ progs u := by
    intro a r s1 hr h1
    by_cases hu : u = t
    · subst hu
      simp only [State.next, upd_same]
      refine List.IsSuffix.trans ?_ (hi u)
      rw [hr]
      exact List.suffix_cons a r
    · simpa [State.next, upd, hu, h1] using hi u
  unfold step at h
  split at h <;> (try (split at h)) <;> (try (split at h)) <;> first
    | (cases h; done)
    | (cases h; exact key _ _ _ ‹_› rfl)

theorem reach_suffix {progs : Nat → List Act} {s : State} (h : Reach step (start progs) s) (u : Nat) :
    s.rest u <:+ progs u :=
  h.invariant (P := fun s => ∀ u, s.rest u <:+ progs u) (fun _ => List.suffix_refl _) (fun _ _ _ hi hs => step_suffix hi hs) u

/-! It's the same thing as Model/Locks -/

theorem erase_append (a b : List Act) : erase (a ++ b) = erase a ++ erase b := List.filterMap_append ..

theorem erase_cons_act (a : Locks.Act) (b : List Act) : erase (.act a :: b) = a :: erase b := rfl

theorem erase_cons_use (v : Var) (w : Bool) (b : List Act) : erase (.use v w :: b) = erase b := rfl

theorem erase_nil : erase [] = [] := rfl

theorem erase_map (p : List Locks.Act) : erase (p.map .act) = p := by
  induction p with
  | nil => rfl
  | cons a p ih => rw [List.map_cons, erase_cons_act, ih]

theorem erase_flatMap {α : Type} (f : α → List Act) (l : List α) :
    erase (l.flatMap f) = l.flatMap fun a => erase (f a) := by
  induction l with
  | nil => rfl
  | cons a l ih => simp only [List.flatMap_cons, erase_append, ih]

theorem erase_locked (l : Lock) (b : List Act) : erase (locked l b) = Locks.locked l (erase b) := by
  simp only [locked, Locks.locked, erase_cons_act, erase_append, erase_nil]

theorem erase_ioctl (i : Nat) : erase (ioctl i) = [.sys] := rfl

theorem erase_looperNew (c : Created) : erase (looperNew c) = Locks.looperNew c := erase_map _

theorem erase_looperWait (w : Started) (c : Created) : erase (looperWait w c) = Locks.looperWait w c := erase_map _

theorem erase_looperCheck (i : Nat) (c : Option Created) (w : Started) :
    erase (looperCheck i c w) = Locks.looperCheck i c w := by
  cases c <;> simp only [looperCheck, Locks.looperCheck, erase_append, erase_locked, erase_cons_use, erase_nil,
    erase_looperNew, erase_looperWait, List.append_nil]

theorem erase_readLocals (i : Nat) : erase (readLocals i) = Locks.localsOnly i := rfl
theorem erase_changeLocals (i : Nat) : erase (changeLocals i) = Locks.localsOnly i := rfl
theorem erase_changeRemotes (i : Nat) : erase (changeRemotes i) = Locks.remotesOnly i := rfl

theorem erase_remoteNew (i : Nat) (dead : Bool) (c : Option Created) (w : Started) :
    erase (remoteNew i dead c w) = Locks.remoteNew i dead c w := by
  cases dead <;> simp [remoteNew, Locks.remoteNew, erase_append, erase_looperCheck, erase_ioctl, erase_nil]

theorem erase_getRemote (i : Nat) (create dead : Bool) (c : Option Created) (w : Started) :
    erase (getRemote i create dead c w) = Locks.getRemote i create dead c w := by
  cases create <;> simp [getRemote, Locks.getRemote, erase_locked, erase_cons_use, erase_append, erase_remoteNew, erase_nil]

theorem erase_configGet (c : Loaded) : erase (configGet c) = [] := by cases c <;> rfl

theorem erase_protocolFor (p : Option Loaded) : erase (protocolFor p) = [] := by
  cases p <;> simp [protocolFor, erase_cons_use, erase_append, erase_configGet, erase_nil]

theorem erase_typeFor (named : Bool) (p : Option Loaded) : erase (typeFor named p) = [] := by
  cases named <;> cases p <;> simp [typeFor, erase_cons_use, erase_append, erase_configGet, erase_nil]

theorem erase_ipcNew (named : Bool) (p : Option Loaded) (found : Bool) : erase (ipcNew named p found) = Locks.ipcNew found := by
  cases named <;> cases found <;> simp [ipcNew, Locks.ipcNew, erase_append, erase_protocolFor, erase_locked, erase_cons_use,
    erase_cons_act, erase_nil]

theorem erase_looperJoin (i : Nat) (j : Joining) : erase (looperJoin i j) = Locks.looperJoin i j := by
  unfold looperJoin Locks.looperJoin
  split <;> (try split) <;> simp [erase_append, erase_locked, erase_cons_use, erase_cons_act, erase_nil]

theorem erase_stopLoopers (i : Nat) (js : List (List Joining)) : erase (stopLoopers i js) = Locks.stopLoopers i js := by
  induction js with
  | nil => rfl
  | cons js more ih =>
    have h1 : (js.flatMap fun j => [Locks.Act.stop j.x]) = js.map fun j => .stop j.x := by
      induction js with
      | nil => rfl
      | cons j js ih => rw [List.flatMap_cons, List.map_cons, ih]; rfl
    simp only [stopLoopers, Locks.stopLoopers, erase_append, erase_locked, erase_cons_use, erase_cons_act, erase_nil,
      erase_flatMap, erase_looperJoin, ih, h1, List.append_nil]

theorem erase_joins (l : List Nat) : erase (l.map fun u => .act (.join u)) = l.map .join := by
  induction l with
  | nil => rfl
  | cons u l ih => rw [List.map_cons, erase_cons_act, ih, List.map_cons]

theorem erase_reanimate (i : Nat) (alive : Bool) (c : Option Created) (w : Started) :
    erase (reanimate i alive c w) = Locks.reanimate i alive c w := by
  cases alive <;> simp [reanimate, Locks.reanimate, erase_append, erase_cons_use, erase_cons_act, erase_looperCheck,
    erase_ioctl, erase_nil]

theorem erase_looperTransact (i x r : Nat) (h : Handled) : erase (looperTransact i x r h) = Locks.looperTransact i x r h := by
  cases h with
  | done => rfl
  | blocked q p c w =>
    cases p <;> cases c <;> simp [looperTransact, Locks.looperTransact, erase_append, erase_cons_use, erase_cons_act,
      erase_locked, erase_looperNew, erase_looperWait, erase_nil]

theorem erase_looperReading (i x : Nat) (a : Reading) : erase (looperReading i x a) = Locks.looperReading i x a := by
  cases a with
  | sys => rfl
  | getLocal => rfl
  | getRemote create c w => exact erase_getRemote i create false c w
  | other => rfl
  | request r h => exact erase_looperTransact i x r h

theorem erase_poolReading (i : Nat) (a : Reading) : erase (poolReading i a) = Locks.poolReading i a := by
  cases a with
  | sys => rfl
  | getLocal => rfl
  | getRemote create c w => exact erase_getRemote i create false c w
  | other => rfl
  | request r h => exact erase_map _

theorem erase_mainReading (i : Nat) (a : Reading) : erase (mainReading i a) = Locks.mainReading i a := by
  cases a with
  | sys => rfl
  | getLocal => rfl
  | getRemote create c w => exact erase_getRemote i create false c w
  | other => rfl
  | request r h => rfl

theorem erase_looperThread (i x : Nat) (entered : Bool) (reads : List Reading) (abandoned : Bool) :
    erase (looperThread i x entered reads abandoned) = Locks.looperThread i x entered reads abandoned := by
  cases entered <;> cases abandoned <;> simp [looperThread, Locks.looperThread, erase_append, erase_cons_use, erase_cons_act,
    erase_locked, erase_ioctl, erase_flatMap, erase_looperReading, erase_nil]

theorem fn_erase {f : List Act} (h : Fn f) : Locks.Fn (erase f) ∨ erase f = [] := by
  cases h with
  | ioctl i => exact .inl .sys
  | other => exact .inl .other
  | readLocals i => exact .inl (.localsOnly i)
  | changeLocals i => exact .inl (.localsOnly i)
  | changeRemotes i => exact .inl (.remotesOnly i)
  | looperCheck i c w => rw [erase_looperCheck]; exact .inl (.looperCheck i c w)
  | registerLocal i c w =>
    rw [registerLocal, erase_append, erase_looperCheck, erase_changeLocals]; exact .inl (.registerLocal i c w)
  | getRemote i create dead c w => rw [erase_getRemote]; exact .inl (.getRemote ..)
  | configForget => exact .inr rfl
  | typeFor named p => exact .inr (erase_typeFor named p)
  | ipcNew named p found => rw [erase_ipcNew]; exact .inl (.ipcNew found)
  | ipcDispose i js pool =>
    refine .inl ?_
    have : erase (ipcDispose i js pool) = Locks.ipcDispose i js pool := by
      simp [ipcDispose, Locks.ipcDispose, erase_append, erase_locked, erase_cons_use, erase_cons_act, erase_nil,
        erase_stopLoopers, erase_joins]
    rw [this]; exact .ipcDispose ..
  | ipcExit es =>
    refine .inl ?_
    have h1 : ∀ e, erase (ipcExitOne e) = Locks.ipcExitOne e := fun e => by
      simp [ipcExitOne, Locks.ipcExitOne, erase_append, erase_cons_act, erase_nil, erase_stopLoopers, erase_joins,
        erase_readLocals]
    have : erase (ipcExit es) = Locks.ipcExit es := by
      simp only [ipcExit, Locks.ipcExit, erase_append, erase_locked, erase_cons_use, erase_cons_act, erase_nil,
        erase_flatMap, h1]
    rw [this]; exact .ipcExit es
  | localGone i => exact .inl (.localGone i)
  | remoteGone i => exact .inl (.remoteGone i)
  | remoteDied i => exact .inl (.remoteDied i)
  | reanimate i alive c w => rw [erase_reanimate]; exact .inl (.reanimate ..)
  | addDeathHandler i c w => rw [addDeathHandler, erase_looperCheck]; exact .inl (.addDeathHandler i c w)
  | managerNew k i named p found first alive c c' c'' w w' w'' =>
    refine .inl ?_
    have : erase (managerNew k i named p found first alive c c' c'' w w' w'') =
        Locks.managerNew k i found first alive c c' c'' w w' w'' := by
      cases first <;> simp [managerNew, Locks.managerNew, erase_append, erase_locked, erase_cons_use, erase_cons_act,
        erase_nil, erase_ipcNew, erase_getRemote, erase_reanimate, addDeathHandler, Locks.addDeathHandler, erase_looperCheck]
    rw [this]; exact .managerNew ..
  | managerGone k => exact .inl (.managerGone k)
  | looperThread i x entered reads abandoned => rw [erase_looperThread]; exact .inl (.looperThread ..)
  | txProc i reads =>
    rw [txProc, erase_flatMap]
    simp only [erase_poolReading]
    exact .inl (.txProc i reads)
  | workerCall i reads =>
    rw [workerCall, erase_cons_use, txProc, erase_flatMap]
    simp only [erase_poolReading]
    exact .inl (.txProc i reads)
  | mainCall i reads =>
    rw [mainCall, erase_cons_use, erase_flatMap]
    simp only [erase_mainReading]
    exact .inl (.mainCall i reads)
  | mainServe r => exact .inl (.mainServe r)

theorem prog_erase {p : List Act} (h : Prog p) : Locks.Prog (erase p) := by
  induction h with
  | nil => exact .nil
  | call hf _ ih =>
    rw [erase_append]
    rcases fn_erase hf with h1 | h1
    · exact .call h1 ih
    · rw [h1]; exact ih
  | inside _ _ ih1 ih2 =>
    rw [erase_append, erase_cons_act, erase_append]
    rw [erase_append, erase_cons_act] at ih1
    exact .inside ih1 ih2

theorem erased_next {s : State} {t : Nat} {r : List Act} : (s.next t r).erased = s.erased.next t (erase r) := by
  simp only [State.next, State.erased, Locks.State.next, Locks.State.mk.injEq, true_and, and_true]
  funext u
  by_cases hu : u = t <;> simp [upd, hu]

/-- Each step is a step of Model/Locks, or nothing happens there. -/
theorem step_erased {s s' : State} {t : Nat} (h : step s t = .ok s') :
    Locks.step s.erased t = .ok s'.erased ∨ s'.erased = s.erased := by
  have go : ∀ {a r}, s.rest t = .act a :: r → s.erased.rest t = a :: erase r := by
    intro a r hr
    simp [State.erased, hr, erase_cons_act]
  have hh : s.erased.held = s.held := rfl
  unfold step at h
  split at h
  · cases h
  · rename_i v w r hr
    cases h
    refine .inr ?_
    rw [erased_next]
    simp only [State.see, State.erased, Locks.State.next, Locks.State.mk.injEq, true_and, and_true]
    funext u
    by_cases hu : u = t
    · subst hu; simp [upd, hr, erase_cons_use]
    · simp [upd, hu]
  · rename_i l r hr
    split at h
    · rename_i hn
      cases h
      refine .inl ?_
      unfold Locks.step
      rw [go hr, erased_next]
      simp only [hh, hn]
      rfl
    · split at h <;> cases h
  · rename_i l r hr
    split at h
    · rename_i hn
      cases h
      refine .inl ?_
      unfold Locks.step
      rw [go hr, erased_next]
      simp only [hh, hn, if_true]
      rfl
    · cases h
  · rename_i u r hr
    split at h
    · rename_i hn
      cases h
      refine .inl ?_
      unfold Locks.step
      rw [go hr, erased_next]
      have : s.erased.rest u = [] := by simp [State.erased, hn, erase_nil]
      simp only [this, if_true]
    · cases h
  · cases h
  · rename_i x r hr
    cases h
    refine .inl ?_
    unfold Locks.step
    rw [go hr, erased_next]
    rfl
  · rename_i q w r hr
    split at h
    · rename_i hn
      cases h
      refine .inl ?_
      unfold Locks.step
      rw [go hr, erased_next]
      have : s.erased.answered q = true ∨ w.any s.erased.stopped = true := hn
      simp only [this, if_true]
    · cases h
  all_goals
    cases h
    refine .inl ?_
    unfold Locks.step
    rw [go ‹_›, erased_next]
    try rfl

theorem reach_erased {progs : Nat → List Act} {s : State} (h : Reach step (start progs) s) :
    Reach Locks.step { rest := fun t => erase (progs t) } s.erased :=
  h.invariant (P := fun s => Reach Locks.step { rest := fun t => erase (progs t) } s.erased) Reach.init
    fun s t s' hi hs => by
      rcases step_erased hs with h1 | h1
      · exact hi.step h1
      · rw [h1]; exact hi

end Gb.Races
