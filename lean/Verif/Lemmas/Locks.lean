import Verif.Spec.Locks
/-
Lemmas about locks: the order in which they are taken.
-/
set_option autoImplicit false

namespace Gb.Locks

/-- The order of locks. -/
def Lock.rank : Lock → Nat
  | .table => 0
  | .manager _ => 0
  | .locals _ => 0
  | .remotes _ => 0
  | .loopers _ => 1
  | .looper _ => 2

theorem Lock.rank_le (l : Lock) : l.rank ≤ 2 := by cases l <;> simp [Lock.rank]

/-- All these locks are below `k`. -/
def Below (k : Nat) (h : List Lock) : Prop := ∀ l ∈ h, l.rank < k

instance (k : Nat) (h : List Lock) : Decidable (Below k h) := inferInstanceAs (Decidable (∀ l ∈ h, l.rank < k))

/-- Locks held after the actions, if the order has been kept. -/
def scan : List Lock → List Act → Option (List Lock)
  | h, [] => some h
  | h, .lock l :: r => if Below l.rank h then scan (l :: h) r else none
  | h, .unlock l :: r => match h with
    | [] => none
    | k :: h => if k = l then scan h r else none
  | h, .sys :: r => scan h r
  | h, .pause :: r => scan h r
  | h, .drop _ :: r => scan h r
  | h, .stop _ :: r => scan h r
  | h, .answer _ :: r => scan h r
  | h, .other :: r => if h = [] then scan h r else none
  | h, .join _ :: r => if h = [] then scan h r else none
  | h, .ask _ _ :: r => if h = [] then scan h r else none
  | _, .joinUnset :: _ => none

theorem scan_append (h : List Lock) (a b : List Act) : scan h (a ++ b) = (scan h a).bind (scan · b) := by
  induction a generalizing h with
  | nil => rfl
  | cons x a ih =>
    cases x <;> simp only [List.cons_append, scan] <;> (try exact ih _) <;> (try rfl) <;>
      (try (split <;> simp_all)) <;> (try (split <;> simp_all))

/-- Keeps the order if locks below `k` are held, and leaves them held. -/
def Keeps (k : Nat) (p : List Act) : Prop := ∀ h, Below k h → scan h p = some h

theorem Keeps.nil (k : Nat) : Keeps k [] := fun _ _ => rfl

theorem Keeps.mono {k m : Nat} {p : List Act} (hp : Keeps k p) (hk : m ≤ k) : Keeps m p :=
  fun h hh => hp h fun l hl => Nat.lt_of_lt_of_le (hh l hl) hk

theorem Keeps.append {k : Nat} {a b : List Act} (ha : Keeps k a) (hb : Keeps k b) : Keeps k (a ++ b) := by
  intro h hh
  rw [scan_append, ha h hh]
  exact hb h hh

theorem Keeps.flatMap {α : Type} {k : Nat} {f : α → List Act} {l : List α} (h : ∀ a ∈ l, Keeps k (f a)) :
    Keeps k (l.flatMap f) := by
  induction l with
  | nil => exact Keeps.nil k
  | cons a l ih =>
    rw [List.flatMap_cons]
    exact (h a (by simp)).append (ih fun b hb => h b (by simp [hb]))

theorem Keeps.locked {l : Lock} {body : List Act} (hb : Keeps (l.rank + 1) body) : Keeps l.rank (locked l body) := by
  intro h hh
  have h1 : Below (l.rank + 1) (l :: h) := by
    intro k hk
    rcases List.mem_cons.1 hk with rfl | hk
    · omega
    · have := hh k hk; omega
  simp only [Locks.locked, scan, hh, if_true]
  rw [scan_append, hb _ h1]
  simp [scan]

theorem Keeps.sys (k : Nat) : Keeps k [.sys] := fun _ _ => rfl
theorem Keeps.drop (k x : Nat) : Keeps k [.drop x] := fun _ _ => rfl

theorem below_zero {h : List Lock} (hh : Below 0 h) : h = [] := by
  cases h with
  | nil => rfl
  | cons l h => have := hh l (by simp); omega

theorem Keeps.other : Keeps 0 [.other] := by intro h hh; rw [below_zero hh]; rfl
theorem Keeps.join (u : Nat) : Keeps 0 [.join u] := by intro h hh; rw [below_zero hh]; rfl
theorem Keeps.ask (r : Nat) (w : Option Nat) : Keeps 0 [.ask r w] := by intro h hh; rw [below_zero hh]; rfl

/-- The function keeps the order, unless pthread_create fails. -/
def KeepsIf (k : Nat) (p : List Act) : Prop := Creates p → Keeps k p

theorem creates_append {a b : List Act} : Creates (a ++ b) ↔ Creates a ∧ Creates b := by
  simp [Creates, not_or]

theorem creates_locked {l : Lock} {b : List Act} : Creates (locked l b) ↔ Creates b := by
  simp [Creates, locked]

theorem KeepsIf.of {k : Nat} {p : List Act} (h : Keeps k p) : KeepsIf k p := fun _ => h

theorem KeepsIf.mono {k m : Nat} {p : List Act} (hp : KeepsIf k p) (hk : m ≤ k) : KeepsIf m p :=
  fun h => (hp h).mono hk

theorem KeepsIf.append {k : Nat} {a b : List Act} (ha : KeepsIf k a) (hb : KeepsIf k b) : KeepsIf k (a ++ b) :=
  fun h => (ha (creates_append.1 h).1).append (hb (creates_append.1 h).2)

theorem KeepsIf.locked {l : Lock} {b : List Act} (hb : KeepsIf (l.rank + 1) b) : KeepsIf l.rank (locked l b) :=
  fun h => Keeps.locked (hb (creates_locked.1 h))

theorem KeepsIf.flatMap {α : Type} {k : Nat} {f : α → List Act} {l : List α} (h : ∀ a ∈ l, KeepsIf k (f a)) :
    KeepsIf k (l.flatMap f) := by
  intro hc
  refine Keeps.flatMap fun a ha => h a ha ?_
  intro hm
  exact hc (List.mem_flatMap.2 ⟨a, ha, hm⟩)

theorem looperNew_keeps (c : Created) : KeepsIf 2 (looperNew c) := by
  cases c with
  | noPipe => exact .of (Keeps.nil 2)
  | noThread x => intro h; simp [Creates, looperNew] at h
  | ok x => exact .of (Keeps.locked (l := .looper x) (Keeps.sys _))

theorem looperStart_keeps (x : Nat) (w : Started) : Keeps 2 (looperStart x w) := by
  cases w with
  | already => exact Keeps.nil 2
  | meanwhile => exact Keeps.locked (l := .looper x) (Keeps.nil _)
  | notYet =>
    intro h hh
    have hb : Below (Lock.looper x).rank h := hh
    simp [looperStart, locked, scan, hb]

theorem looperWait_keeps (w : Started) (c : Created) : Keeps 2 (looperWait w c) := by
  cases c with
  | ok x => exact (looperStart_keeps x w).append (Keeps.drop _ x)
  | _ => exact Keeps.nil 2

theorem looperCheck_keeps (i : Nat) (c : Option Created) (w : Started) : KeepsIf 1 (looperCheck i c w) := by
  cases c with
  | none => exact .of (Keeps.locked (l := .loopers i) (Keeps.nil _))
  | some c =>
    exact .append (KeepsIf.locked (l := .loopers i) (looperNew_keeps c))
      (.of ((looperWait_keeps w c).mono (by omega)))

theorem localsOnly_keeps (i : Nat) : Keeps 0 (localsOnly i) := Keeps.locked (l := .locals i) (Keeps.nil _)
theorem remotesOnly_keeps (i : Nat) : Keeps 0 (remotesOnly i) := Keeps.locked (l := .remotes i) (Keeps.nil _)

theorem registerLocal_keeps (i : Nat) (c : Option Created) (w : Started) : KeepsIf 0 (registerLocal i c w) :=
  (KeepsIf.of (localsOnly_keeps i)).append ((looperCheck_keeps i c w).mono (by omega))

theorem sys2_keeps (k : Nat) : Keeps k [.sys, .sys] := (Keeps.sys k).append (Keeps.sys k)

theorem remoteNew_keeps (i : Nat) (dead : Bool) (c : Option Created) (w : Started) :
    KeepsIf 1 (remoteNew i dead c w) := by
  cases dead with
  | true => exact .of (Keeps.nil 1)
  | false => exact (looperCheck_keeps i c w).append (.of (sys2_keeps 1))

theorem getRemote_keeps (i : Nat) (create dead : Bool) (c : Option Created) (w : Started) :
    KeepsIf 0 (getRemote i create dead c w) := by
  refine KeepsIf.locked (l := .remotes i) ?_
  cases create with
  | true => exact remoteNew_keeps i dead c w
  | false => exact .of (Keeps.nil _)

theorem ipcNew_keeps (found : Bool) : Keeps 0 (ipcNew found) := by
  refine Keeps.locked (l := .table) ?_
  cases found
  · exact Keeps.sys _
  · exact Keeps.nil _

theorem map_join_keeps (l : List Nat) : Keeps 0 (l.map .join) := by
  have : l.map Act.join = l.flatMap fun u => [.join u] := by induction l <;> simp_all
  rw [this]
  exact Keeps.flatMap fun u _ => Keeps.join u

theorem map_stop_keeps (k : Nat) (js : List Joining) : Keeps k (js.map fun j => .stop j.x) := by
  have : js.map (fun j => Act.stop j.x) = js.flatMap fun j => [.stop j.x] := by induction js <;> simp_all
  rw [this]
  exact Keeps.flatMap fun u _ => fun _ _ => rfl

theorem looperJoin_keeps (i : Nat) (j : Joining) : Keeps 0 (looperJoin i j) := by
  refine Keeps.append ?_ (Keeps.drop _ _)
  split
  · exact Keeps.nil _
  · split
    · have h1 : Keeps 0 [.pause] := fun _ _ => rfl
      exact h1.append (Keeps.append ((Keeps.locked (l := .loopers i) (Keeps.sys _)).mono (by omega)) (Keeps.join _))
    · exact Keeps.join _

theorem stopLoopers_keeps (i : Nat) (js : List (List Joining)) : Keeps 0 (stopLoopers i js) := by
  induction js with
  | nil => exact (Keeps.locked (l := .loopers i) (Keeps.nil _)).mono (by omega)
  | cons j js ih =>
    refine Keeps.append (Keeps.append ?_ (Keeps.flatMap fun a _ => looperJoin_keeps i a)) ih
    exact (Keeps.locked (l := .loopers i) (map_stop_keeps _ j)).mono (by omega)

theorem table_keeps : Keeps 0 (locked .table []) := Keeps.locked (l := .table) (Keeps.nil _)

theorem looperTransact_keeps (i x r : Nat) (h : Handled) : KeepsIf 0 (looperTransact i x r h) := by
  cases h with
  | done => exact .of ((Keeps.ask _ _).append Keeps.other)
  | blocked q p c w =>
    have hl : Keeps 0 (locked (.loopers i) []) := (Keeps.locked (l := .loopers i) (Keeps.nil _)).mono (by omega)
    refine .append (.append (.append (.of (Keeps.ask _ _)) ?_) (.of ((Keeps.ask q _).append Keeps.other))) ?_
    · split
      · exact .append ((KeepsIf.locked (l := .loopers i) (looperNew_keeps _)).mono (by omega))
          (.of ((looperWait_keeps _ _).mono (by omega)))
      · exact .of hl
    · split
      · exact .of hl
      · exact .of (Keeps.nil _)

theorem poolTransact_keeps (r : Nat) (h : Handled) : Keeps 0 (poolTransact r h) := by
  cases h with
  | done => exact (Keeps.ask _ _).append Keeps.other
  | blocked q p c w => exact (Keeps.ask r none).append ((Keeps.ask q none).append Keeps.other)

theorem looperReading_keeps (i x : Nat) (a : Reading) : KeepsIf 0 (looperReading i x a) := by
  cases a with
  | sys => exact .of (Keeps.sys _)
  | getLocal => exact .of (localsOnly_keeps i)
  | getRemote create c w => exact getRemote_keeps i create false c w
  | other => exact .of Keeps.other
  | request r h => exact looperTransact_keeps i x r h

theorem poolReading_keeps (i : Nat) (a : Reading) : KeepsIf 0 (poolReading i a) := by
  cases a with
  | sys => exact .of (Keeps.sys _)
  | getLocal => exact .of (localsOnly_keeps i)
  | getRemote create c w => exact getRemote_keeps i create false c w
  | other => exact .of Keeps.other
  | request r h => exact .of (poolTransact_keeps r h)

theorem mainReading_keeps (i : Nat) (a : Reading) : KeepsIf 0 (mainReading i a) := by
  cases a with
  | sys => exact .of (Keeps.sys _)
  | getLocal => exact .of (localsOnly_keeps i)
  | getRemote create c w => exact getRemote_keeps i create false c w
  | other => exact .of Keeps.other
  | request r h => exact .of Keeps.other

theorem looperThread_keeps (i x : Nat) (entered : Bool) (reads : List Reading) (abandoned : Bool) :
    KeepsIf 0 (looperThread i x entered reads abandoned) := by
  refine .append (.append (.of ((Keeps.locked (l := .looper x) (Keeps.sys _)).mono (by omega))) ?_)
    (.of (Keeps.drop _ _))
  split
  · refine .append (a := [.sys]) (.of (Keeps.sys 0)) (.append (.append (.flatMap fun a _ => looperReading_keeps i x a)
      (.of (Keeps.sys 0))) ?_)
    split
    · exact .of (Keeps.nil _)
    · exact .of ((Keeps.locked (l := .loopers i) (Keeps.drop _ _)).mono (by omega))
  · exact .of (Keeps.nil _)

theorem reanimate_keeps (i : Nat) (alive : Bool) (c : Option Created) (w : Started) :
    KeepsIf 0 (reanimate i alive c w) := by
  refine .append (a := [.other]) (b := if alive then looperCheck i c w ++ [.sys, .sys] else []) (.of Keeps.other) ?_
  split
  · exact ((looperCheck_keeps i c w).mono (by omega)).append (.of (sys2_keeps _))
  · exact .of (Keeps.nil _)

theorem Fn.keeps {f : List Act} (h : Fn f) : KeepsIf 0 f := by
  cases h with
  | sys => exact .of (Keeps.sys _)
  | other => exact .of Keeps.other
  | localsOnly i => exact .of (localsOnly_keeps i)
  | remotesOnly i => exact .of (remotesOnly_keeps i)
  | looperCheck i c w => exact (looperCheck_keeps i c w).mono (by omega)
  | registerLocal i c w => exact registerLocal_keeps i c w
  | getRemote i create dead c w => exact getRemote_keeps i create dead c w
  | ipcNew found => exact .of (ipcNew_keeps found)
  | ipcDispose i js pool =>
    exact .of (((table_keeps.append (stopLoopers_keeps i js)).append (map_join_keeps pool)).append (Keeps.sys _))
  | ipcExit es =>
    refine .of ((table_keeps.append (Keeps.flatMap fun e _ => ?_)).append Keeps.other)
    exact ((((stopLoopers_keeps _ _).append (map_join_keeps _)).append Keeps.other).append
      (localsOnly_keeps _)).append Keeps.other
  | localGone i => exact .of (((localsOnly_keeps i).append (localsOnly_keeps i)).append Keeps.other)
  | remoteGone i =>
    exact .of (((remotesOnly_keeps i).append (remotesOnly_keeps i)).append ((sys2_keeps 0).append Keeps.other))
  | remoteDied i =>
    exact .of ((Keeps.sys 0).append ((remotesOnly_keeps i).append ((Keeps.sys 0).append Keeps.other)))
  | reanimate i alive c w => exact reanimate_keeps i alive c w
  | addDeathHandler i c w => exact (looperCheck_keeps i c w).mono (by omega)
  | managerNew k i found first alive c c' c'' w w' w'' =>
    refine .append (.append (.append (.append (.of (ipcNew_keeps found)) (getRemote_keeps i true true c w))
      (.of (Keeps.locked (l := .manager k) (Keeps.nil _)))) ?_) (.of (Keeps.other.append Keeps.other))
    split
    · exact ((looperCheck_keeps i c' w').mono (by omega)).append (reanimate_keeps i alive c'' w'')
    · exact .of (Keeps.nil _)
  | managerGone k => exact .of ((Keeps.locked (l := .manager k) (Keeps.nil _)).append Keeps.other)
  | looperThread i x entered reads abandoned => exact looperThread_keeps i x entered reads abandoned
  | txProc i reads => exact .flatMap fun a _ => poolReading_keeps i a
  | mainCall i reads => exact .flatMap fun a _ => mainReading_keeps i a
  | mainServe r => exact .of (Keeps.other.append fun _ _ => rfl)

/-- Any program keeps the order. -/
theorem Prog.scan {p : List Act} (h : Prog p) (hc : Creates p) : Locks.scan [] p = some [] := by
  induction h with
  | nil => rfl
  | call hf _ ih =>
    have h1 := creates_append.1 hc
    rw [scan_append, hf.keeps h1.1 [] (by intro l hl; cases hl)]
    exact ih h1.2
  | @inside a b p _ _ ih1 ih2 =>
    have hp : Creates p := fun hm => hc (by simp [hm])
    have hab : Creates (a ++ .other :: b) := by
      intro hm
      refine hc ?_
      simp only [List.mem_append, List.mem_cons] at hm ⊢
      rcases hm with hm | hm | hm
      · exact .inl hm
      · cases hm
      · exact .inr (.inr (.inr hm))
    have h1 := ih1 hab
    have h2 := ih2 hp
    rw [scan_append] at h1 ⊢
    cases ha : Locks.scan [] a with
    | none => simp [ha] at h1
    | some h =>
      simp only [ha, Option.bind_some, Locks.scan] at h1 ⊢
      by_cases hh : h = []
      · subst hh
        simp only [if_true] at h1 ⊢
        rw [scan_append, h2]
        exact h1
      · simp [hh] at h1

/-- Threads keep the order. -/
structure Mine (s : State) (t : Nat) (h : List Lock) : Prop where
  mem : ∀ l, l ∈ h ↔ s.held l = some t
  scan : scan h (s.rest t) = some []

def Inv (s : State) : Prop := ∀ t, ∃ h, Mine s t h ∧ h.Nodup

theorem start_inv {progs : Nat → List Act} (hp : ∀ t, Prog (progs t)) (hc : ∀ t, Creates (progs t)) :
    Inv (start progs) := fun t => ⟨[], ⟨by intro l; simp [start], (hp t).scan (hc t)⟩, List.nodup_nil⟩

/-- Changes made by one thread don't concern the others, as long as their locks are as they were. -/
theorem inv_step {s s' : State} (hi : Inv s) {t : Nat} {h : List Lock} (hm : Mine s' t h) (hn : h.Nodup)
    (hr : ∀ u, u ≠ t → s'.rest u = s.rest u) (hh : ∀ l u, u ≠ t → (s'.held l = some u ↔ s.held l = some u)) :
    Inv s' := by
  intro u
  by_cases hu : u = t
  · subst hu; exact ⟨h, hm, hn⟩
  · obtain ⟨g, hg, hgn⟩ := hi u
    exact ⟨g, ⟨fun l => (hg.mem l).trans (hh l u hu).symm, by rw [hr u hu]; exact hg.scan⟩, hgn⟩

/-- Either the thread has finished and holds no locks, or it has to wait, or the order is kept. -/
theorem step_inv {s : State} (hi : Inv s) (t : Nat) : step s t = .no ∨ ∃ s', step s t = .ok s' ∧ Inv s' ∧
    (∀ u, u ≠ t → s'.rest u = s.rest u) ∧ (∀ l u, u ≠ t → (s'.held l = some u ↔ s.held l = some u)) ∧
    (∀ x, s.stopped x = true → s'.stopped x = true) ∧ s'.rest t = (s.rest t).tail ∧ s.rest t ≠ [] := by
  obtain ⟨h, hm, hn⟩ := hi t
  have hsc := hm.scan
  unfold step
  cases hr : s.rest t with
  | nil => exact .inl rfl
  | cons a r =>
    rw [hr] at hsc
    have simple : ∀ (s' : State), s'.held = s.held → s'.rest = upd s.rest t r →
        (∀ x, s.stopped x = true → s'.stopped x = true) → scan h r = some [] →
        ∃ s1, Out.ok s' = .ok s1 ∧ Inv s1 ∧ (∀ u, u ≠ t → s1.rest u = s.rest u) ∧
          (∀ l u, u ≠ t → (s1.held l = some u ↔ s.held l = some u)) ∧
          (∀ x, s.stopped x = true → s1.stopped x = true) ∧ s1.rest t = (a :: r).tail ∧ (a :: r) ≠ [] := by
      intro s' h1 h2 h3 h4
      have hr' : ∀ u, u ≠ t → s'.rest u = s.rest u := fun u hu => by rw [h2, upd_ne _ _ hu]
      have hh' : ∀ l u, u ≠ t → (s'.held l = some u ↔ s.held l = some u) := fun l u _ => by rw [h1]
      have ht' : s'.rest t = r := by rw [h2, upd_same]
      refine ⟨s', rfl, inv_step hi ⟨fun l => by rw [h1]; exact hm.mem l, ?_⟩ hn hr' hh', hr', hh', h3, ht', by simp⟩
      rw [ht']; exact h4
    cases a with
    | lock l =>
      simp only [scan] at hsc
      split at hsc
      · rename_i hb
        cases hl : s.held l with
        | some u =>
          refine .inl ?_
          have : u ≠ t := by
            rintro rfl
            have := hb l ((hm.mem l).2 hl)
            omega
          simp [hl, this]
        | none =>
          refine .inr ?_
          simp only [hl]
          have hr' : ∀ u, u ≠ t → ((s.set l (some t)).next t r).rest u = s.rest u := fun u hu => by
            simp [State.next, State.set, upd_ne _ _ hu]
          have ht' : ((s.set l (some t)).next t r).rest t = r := by simp [State.next, State.set, upd_same]
          have hh' : ∀ k u, u ≠ t → (((s.set l (some t)).next t r).held k = some u ↔ s.held k = some u) := by
            intro k u hu
            simp only [State.next, State.set]
            by_cases hk : k = l
            · subst hk; simp [hl]; exact fun h => hu h.symm
            · simp [hk]
          refine ⟨_, rfl, inv_step hi (t := t) (h := l :: h) ⟨?_, by rw [ht']; exact hsc⟩ ?_ hr' hh', hr', hh',
            fun x hx => hx, ht', by simp⟩
          · intro k
            simp only [State.next, State.set, List.mem_cons]
            by_cases hk : k = l
            · simp [hk]
            · simp [hk, hm.mem k]
          · refine List.nodup_cons.2 ⟨fun hl' => ?_, hn⟩
            have := hb l hl'
            omega
      · cases hsc
    | unlock l =>
      simp only [scan] at hsc
      cases h with
      | nil => simp at hsc
      | cons k h =>
        simp only at hsc
        split at hsc
        · rename_i hk
          subst hk
          have hl : s.held k = some t := (hm.mem k).1 (by simp)
          refine .inr ?_
          simp only [hl, if_true]
          have hr' : ∀ u, u ≠ t → ((s.set k none).next t r).rest u = s.rest u := fun u hu => by
            simp [State.next, State.set, upd_ne _ _ hu]
          have ht' : ((s.set k none).next t r).rest t = r := by simp [State.next, State.set, upd_same]
          have hh' : ∀ l u, u ≠ t → (((s.set k none).next t r).held l = some u ↔ s.held l = some u) := by
            intro l u hu
            simp only [State.next, State.set]
            by_cases hk : l = k
            · subst hk; simp [hl]; exact fun h => hu h.symm
            · simp [hk]
          have hn' := List.nodup_cons.1 hn
          refine ⟨_, rfl, inv_step hi (t := t) (h := h) ⟨?_, by rw [ht']; exact hsc⟩ hn'.2 hr' hh', hr', hh',
            fun x hx => hx, ht', by simp⟩
          intro l
          simp only [State.next, State.set]
          by_cases hk : l = k
          · subst hk; simp [hn'.1]
          · simp [hk, ← hm.mem l]
        · cases hsc
    | sys => exact .inr (simple _ rfl rfl (fun _ h => h) hsc)
    | pause => exact .inr (simple _ rfl rfl (fun _ h => h) hsc)
    | drop x => exact .inr (simple _ rfl rfl (fun _ h => h) hsc)
    | answer q => exact .inr (simple _ rfl rfl (fun _ h => h) hsc)
    | stop x =>
      refine .inr (simple _ rfl rfl (fun y hy => ?_) hsc)
      simp only [State.next, upd]
      split
      · rfl
      · exact hy
    | other =>
      simp only [scan] at hsc
      split at hsc
      · exact .inr (simple _ rfl rfl (fun _ h => h) hsc)
      · cases hsc
    | join u =>
      simp only [scan] at hsc
      split at hsc
      · simp only
        split
        · exact .inr (simple _ rfl rfl (fun _ h => h) hsc)
        · exact .inl rfl
      · cases hsc
    | ask q w =>
      simp only [scan] at hsc
      split at hsc
      · simp only
        split
        · exact .inr (simple _ rfl rfl (fun _ h => h) hsc)
        · exact .inl rfl
      · cases hsc
    | joinUnset => simp [scan] at hsc

theorem inv_ok {s s' : State} (hi : Inv s) {t : Nat} (h : step s t = .ok s') : Inv s' ∧
    (∀ u, u ≠ t → s'.rest u = s.rest u) ∧ (∀ l u, u ≠ t → (s'.held l = some u ↔ s.held l = some u)) ∧
    (∀ x, s.stopped x = true → s'.stopped x = true) ∧ s'.rest t = (s.rest t).tail ∧ s.rest t ≠ [] := by
  rcases step_inv hi t with h1 | ⟨s1, h1, h2⟩
  · rw [h1] at h; cases h
  · rw [h1] at h; cases h; exact h2

theorem reach_inv {progs : Nat → List Act} (hp : ∀ t, Prog (progs t)) (hc : ∀ t, Creates (progs t)) {s : State}
    (h : Reach step (start progs) s) : Inv s :=
  h.invariant (start_inv hp hc) fun _ _ _ hi hs => (inv_ok hi hs).1

/-- Steps of those who hold locks, made while `l` is locked. -/
inductive Path (l : Lock) : State → State → Prop
  | refl (s : State) : Path l s s
  | step {s s' s'' : State} (t : Nat) : s.Holder t → s.held l ≠ none → step s t = .ok s' → Path l s' s'' → Path l s s''

theorem Path.trans {l : Lock} {a b c : State} (h : Path l a b) (h' : Path l b c) : Path l a c := by
  induction h with
  | refl => exact h'
  | step t h1 h2 h3 _ ih => exact .step t h1 h2 h3 (ih h')

theorem Path.inv {l : Lock} {a b : State} (h : Path l a b) (hi : Inv a) : Inv b ∧
    ∀ x, a.stopped x = true → b.stopped x = true := by
  induction h with
  | refl => exact ⟨hi, fun _ h => h⟩
  | step t _ _ h3 _ ih =>
    have h1 := inv_ok hi h3
    have h2 := ih h1.1
    exact ⟨h2.1, fun x hx => h2.2 x (h1.2.2.2.1 x hx)⟩

/-- Whoever waits for the lock doesn't do anything meanwhile. -/
theorem Path.waits {l : Lock} {a b : State} (h : Path l a b) (hi : Inv a) {t : Nat} {r : List Act}
    (hr : a.rest t = .lock l :: r) : b.rest t = a.rest t ∧ ∀ k, (a.held k = some t ↔ b.held k = some t) := by
  induction h with
  | refl => exact ⟨rfl, fun _ => Iff.rfl⟩
  | @step s s' s'' u h1 h2 h3 _ ih =>
    have hu : t ≠ u := by
      rintro rfl
      cases hl : s.held l with
      | none => exact h2 hl
      | some v => simp only [Locks.step, hr, hl] at h3; split at h3 <;> cases h3
    have h4 := inv_ok hi h3
    have h5 := ih h4.1 (by rw [h4.2.1 t hu]; exact hr)
    exact ⟨h5.1.trans (h4.2.1 t hu), fun k => (h4.2.2.1 k t hu).symm.trans (h5.2 k)⟩

/-- Whoever holds no locks doesn't do anything meanwhile. -/
theorem Path.idle {l : Lock} {a b : State} (h : Path l a b) (hi : Inv a) {t : Nat} (ht : ¬ a.Holder t) :
    b.rest t = a.rest t ∧ ¬ b.Holder t := by
  induction h with
  | refl => exact ⟨rfl, ht⟩
  | @step s s' s'' u h1 h2 h3 _ ih =>
    have hu : t ≠ u := by rintro rfl; exact ht h1
    have h4 := inv_ok hi h3
    have h5 := ih h4.1 (by rintro ⟨k, hk⟩; exact ht ⟨k, (h4.2.2.1 k t hu).1 hk⟩)
    exact ⟨h5.1.trans (h4.2.1 t hu), h5.2⟩

/-- Change of what is being waited for: the lock `k` is held by somebody who waits for `l`. -/
theorem Path.lift {k l : Lock} {a b : State} (h : Path l a b) (hi : Inv a) {t : Nat} {r : List Act}
    (hr : a.rest t = .lock l :: r) (hk : a.held k = some t) : Path k a b := by
  induction h with
  | refl => exact .refl _
  | @step s s' s'' u h1 h2 h3 _ ih =>
    have h4 := (Path.step u h1 h2 h3 (.refl _)).waits hi hr
    exact .step u h1 (by rw [hk]; simp) h3 (ih (inv_ok hi h3).1 (h4.1.trans hr) ((h4.2 k).1 hk))

/-- Whatever is locked gets unlocked by those who hold locks. -/
theorem free_aux (n : Nat) : ∀ (l : Lock), 3 - l.rank ≤ n → ∀ (m : Nat) (s : State), Inv s → ∀ u, s.held l = some u →
    (s.rest u).length ≤ m → ∃ s', Path l s s' ∧ s'.held l = none := by
  induction n with
  | zero => intro l hl; have := l.rank_le; omega
  | succ n ihn =>
    intro l hl m
    induction m with
    | zero =>
      intro s hi u hu hm
      obtain ⟨h, hmine, hnd⟩ := hi u
      have : s.rest u = [] := List.length_eq_zero_iff.1 (by omega)
      have hsc := hmine.scan
      rw [this] at hsc
      simp only [scan, Option.some.injEq] at hsc
      have := (hmine.mem l).2 hu
      rw [hsc] at this
      cases this
    | succ m ihm =>
      intro s hi u hu hm
      have one : ∀ s1, Inv s1 → s1.held l = some u → s1.rest u = s.rest u → step s1 u ≠ .no →
          ∃ s', Path l s1 s' ∧ s'.held l = none := by
        intro s1 hi1 hu1 hr1 hno
        rcases step_inv hi1 u with h1 | ⟨s2, h2, hi2, _, _, _, ht, hne⟩
        · exact absurd h1 hno
        · have p : Path l s1 s2 := .step u ⟨l, hu1⟩ (by rw [hu1]; simp) h2 (.refl _)
          cases hl2 : s2.held l with
          | none => exact ⟨s2, p, hl2⟩
          | some v =>
            have hv : v = u := by
              refine Classical.byContradiction fun hv => ?_
              have := ((inv_ok hi1 h2).2.2.1 l v hv).1 hl2
              rw [hu1] at this
              exact hv (Option.some.inj this).symm
            subst hv
            have hlen : (s2.rest v).length ≤ m := by
              rw [ht, hr1]
              rw [hr1] at hne
              have := List.length_pos_iff.2 hne
              simp only [List.length_tail]; omega
            obtain ⟨s', p', hf⟩ := ihm s2 hi2 v hl2 hlen
            exact ⟨s', p.trans p', hf⟩
      obtain ⟨h, hmine, hnd⟩ := hi u
      have hin : l ∈ h := (hmine.mem l).2 hu
      have hsc := hmine.scan
      cases hr : s.rest u with
      | nil =>
        rw [hr] at hsc
        simp only [scan, Option.some.injEq] at hsc
        rw [hsc] at hin; cases hin
      | cons a r =>
        rw [hr] at hsc
        have hne : h ≠ [] := by rintro rfl; cases hin
        cases a with
        | lock k =>
          simp only [scan] at hsc
          split at hsc
          · rename_i hb
            have hlt := hb l hin
            cases hk : s.held k with
            | none =>
              refine one s hi hu rfl ?_
              simp [step, hr, hk]
            | some v =>
              have hkr := k.rank_le
              obtain ⟨s1, p1, hf1⟩ := ihn k (by omega) _ s hi v hk (Nat.le_refl _)
              have hw := p1.waits hi hr
              have hi1 := (p1.inv hi).1
              have hu1 : s1.held l = some u := (hw.2 l).1 hu
              obtain ⟨s', p', hf⟩ := one s1 hi1 hu1 hw.1 (by simp [step, hw.1, hr, hf1])
              exact ⟨s', (p1.lift hi hr hu).trans p', hf⟩
          · cases hsc
        | unlock k =>
          refine one s hi hu rfl ?_
          simp only [step, hr]; split <;> simp
        | sys => exact one s hi hu rfl (by simp [step, hr])
        | pause => exact one s hi hu rfl (by simp [step, hr])
        | drop x => exact one s hi hu rfl (by simp [step, hr])
        | stop x => exact one s hi hu rfl (by simp [step, hr])
        | answer q => exact one s hi hu rfl (by simp [step, hr])
        | other => simp [scan, hne] at hsc
        | join v => simp [scan, hne] at hsc
        | ask q w => simp [scan, hne] at hsc
        | joinUnset => simp [scan] at hsc

theorem free {s : State} (hi : Inv s) {l : Lock} {u : Nat} (hu : s.held l = some u) :
    ∃ s', Path l s s' ∧ s'.held l = none :=
  free_aux _ l (Nat.le_refl _) _ s hi u hu (Nat.le_refl _)

theorem Path.runs {l : Lock} {a b : State} (h : Path l a b) {may : State → Nat → Prop}
    (hm : ∀ s t, s.Holder t → may s t) : Runs may a b := by
  induction h with
  | refl => exact .refl _
  | step t h1 _ h3 _ ih => exact .step t (hm _ t h1) h3 ih

theorem Runs.trans {may : State → Nat → Prop} {a b c : State} (h : Runs may a b) (h' : Runs may b c) :
    Runs may a c := by
  induction h with
  | refl => exact h'
  | step t h1 h2 _ ih => exact .step t h1 h2 (ih h')

/-- The looper which has been told to stop gets to its end. -/
theorem ends (x : Nat) (n : Nat) : ∀ (s : State), Inv s → s.stopped x = true → OfLooper x (s.rest x) →
    (s.rest x).length ≤ n → ∃ s', Runs (fun s t => t = x ∨ s.Holder t) s s' ∧ s'.rest x = [] ∧
      ∀ m, m ≠ x → ¬ s.Holder m → s'.rest m = s.rest m := by
  induction n with
  | zero =>
    intro s hi _ _ hn
    exact ⟨s, .refl _, List.length_eq_zero_iff.1 (by omega), fun _ _ _ => rfl⟩
  | succ n ih =>
    intro s hi hs ho hn
    have one : ∀ s1, Inv s1 → s1.stopped x = true → s1.rest x = s.rest x → step s1 x ≠ .no →
        ∃ s', Runs (fun s t => t = x ∨ s.Holder t) s1 s' ∧ s'.rest x = [] ∧
          ∀ m, m ≠ x → ¬ s1.Holder m → s'.rest m = s1.rest m := by
      intro s1 hi1 hs1 hr1 hno
      rcases step_inv hi1 x with h1 | ⟨s2, h2, hi2, h3, h4, h5, ht, hne⟩
      · exact absurd h1 hno
      · have hlen : (s2.rest x).length ≤ n := by
          rw [ht, hr1]
          rw [hr1] at hne
          have := List.length_pos_iff.2 hne
          simp only [List.length_tail]; omega
        have ho2 : OfLooper x (s2.rest x) := by
          rw [ht, hr1]
          exact ⟨fun u hu => ho.1 u (List.mem_of_mem_tail hu), fun r w hw => ho.2 r w (List.mem_of_mem_tail hw)⟩
        obtain ⟨s', p, he, hm⟩ := ih s2 hi2 (h5 x hs1) ho2 hlen
        refine ⟨s', .step x (.inl rfl) h2 p, he, fun m hmx hnm => ?_⟩
        rw [hm m hmx (by rintro ⟨k, hk⟩; exact hnm ⟨k, (h4 k m hmx).1 hk⟩), h3 m hmx]
    cases hr : s.rest x with
    | nil => exact ⟨s, .refl _, hr, fun _ _ _ => rfl⟩
    | cons a r =>
      have plain : step s x ≠ .no → ∃ s', Runs (fun s t => t = x ∨ s.Holder t) s s' ∧ s'.rest x = [] ∧
          ∀ m, m ≠ x → ¬ s.Holder m → s'.rest m = s.rest m := fun h => one s hi hs rfl h
      cases a with
      | lock k =>
        cases hk : s.held k with
        | none => exact plain (by simp [step, hr, hk])
        | some v =>
          obtain ⟨s1, p1, hf1⟩ := free hi hk
          have hw := p1.waits hi hr
          have hi1 := p1.inv hi
          obtain ⟨s', p', he, hm⟩ := one s1 hi1.1 (hi1.2 x hs) hw.1 (by simp [step, hw.1, hr, hf1])
          refine ⟨s', (p1.runs fun _ _ h => .inr h).trans p', he, fun m hmx hnm => ?_⟩
          have h6 := p1.idle hi hnm
          rw [hm m hmx h6.2, h6.1]
      | unlock k =>
        refine plain ?_
        simp only [step, hr]; split <;> simp
      | ask q w =>
        have := ho.2 q w (by rw [hr]; simp)
        subst this
        exact plain (by simp [step, hr, hs])
      | join u => exact absurd (by rw [hr]; simp) (ho.1 u)
      | joinUnset =>
        obtain ⟨h, hmine, _⟩ := hi x
        have := hmine.scan
        simp [hr, scan] at this
      | sys => exact plain (by simp [step, hr])
      | pause => exact plain (by simp [step, hr])
      | drop y => exact plain (by simp [step, hr])
      | stop y => exact plain (by simp [step, hr])
      | answer q => exact plain (by simp [step, hr])
      | other => exact plain (by simp [step, hr])

end Gb.Locks
