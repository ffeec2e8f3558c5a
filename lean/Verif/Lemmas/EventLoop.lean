import Verif.Spec.EventLoop
/-
C62: callbacks. Each step is about one callback.
-/
set_option autoImplicit false

namespace Gb.EventLoop

def stageOf (x : Src) : Stage :=
  if x.running then .running else if x.destroyed then .over else if x.attached then .pending else .fresh

def viewOf (x : Src) : View where
  func := x.func
  fin := x.fin
  later := x.later
  users := x.users
  stage := stageOf x
  sched := x.attached || (x.destroyed && !x.cb)
  called := x.called
  final := x.fin && decide (x.cbrefs = 0)

structure WF (x : Src) : Prop where
  refs : x.refs = x.users + x.attached.toNat + x.running.toNat
  cbrefs : x.cbrefs = x.cb.toNat + x.running.toNat
  att : x.attached = true → x.destroyed = false
  cb : x.destroyed = false → x.cb = true
  cancelled : x.destroyed = true → x.cb = true → x.running = false ∧ x.called = false
  run : x.running = true → x.called = x.func ∧ (x.attached = true ∨ x.destroyed = true)
  idle : x.running = false → x.destroyed = false → x.called = false
  some : x.refs ≠ 0
  later : x.later = true → x.destroyed = false ∧ x.attached = true ∧ x.users = 1 ∧ x.idle = true

def lifeOf (y : Option Src) : Life :=
  match y with
  | none => .freed
  | some x => .live (viewOf x)

theorem State.known_some {s : State} {c : Nat} {x : Src} (h : s.known c = some x) :
    s.src c = some x ∧ x.users ≠ 0 ∧ x.later = false := by
  unfold State.known at h
  split at h
  · cases h
  · split at h
    · cases h
    · rename_i y hy hn
      cases h
      simp only [Bool.or_eq_true, beq_iff_eq, decide_eq_true_eq, not_or, Bool.not_eq_true] at hn
      exact ⟨hy, hn⟩

/-- It's about this callback. -/
def Ev.about (c k : Nat) : Ev → Bool
  | .asked k' op d => d == c && k' == k && op != .new
  | .made d .. | .start d | .stop d | .func d | .final d | .freed d => d == c
  | _ => false

theorem next_about {c k d : Nat} (h : d ≠ c) {e : Ev} (he : e.about c k = true) (x : Option Life) : next d x e = x := by
  cases x with
  | none => rfl
  | some l => cases e <;> simp only [Ev.about, beq_iff_eq, Bool.and_eq_true] at he <;> first | (cases he; done) | (subst he; simp [next, h.symm]) |
    (obtain ⟨⟨rfl, -⟩, -⟩ := he; simp [next, h.symm])

theorem timer_about {c k : Nat} {e : Ev} (he : e.about c k = true) (t : Nat) (x : Option Timer) : nextTimer t x e = x := by
  cases x with
  | none => rfl
  | some l => cases e <;> simp only [Ev.about, beq_iff_eq] at he <;> first | (cases he; done) | simp [nextTimer]

theorem foldl_id {α β : Type} {f : β → α → β} {l : List α} (h : ∀ a ∈ l, ∀ b, f b a = b) (b : β) : l.foldl f b = b := by
  induction l generalizing b with
  | nil => rfl
  | cons a l ih =>
    rw [List.foldl_cons, h a List.mem_cons_self]
    exact ih (fun a ha => h a (List.mem_cons_of_mem _ ha)) b

/-- Nothing changes about the choice of the integration. -/
theorem route_about {c k : Nat} {e : Ev} (he : e.about c k = true) {r : Routes} (ho : r.owed = none) (hm : r.maker c = some k) :
    route (some r) e = some r := by
  obtain ⟨loop, owed, maker, makerTimeout⟩ := r
  simp only at ho hm
  subst ho
  cases e <;> simp only [Ev.about, beq_iff_eq, Bool.and_eq_true] at he <;> first | (cases he; done) | (subst he; simp [route]; done) |
    (obtain ⟨⟨rfl, rfl⟩, h⟩ := he
     simp [route, hm]
     intro h2; simp [h2] at h)

/-- What a step about one callback does. -/
def Okay (c k : Nat) (l : Life) (o : Done) : Prop :=
  ∃ y es, o = .ok (y, es) ∧ es.foldl (next c) (some l) = some (lifeOf y) ∧ (∀ x, y = some x → WF x ∧ x.loop = k) ∧
    es.all (Ev.about c k) = true

/-- What a step which makes a callback does. -/
def OkayNew (c k : Nat) (o : Done) : Prop :=
  ∃ y es, o = .ok (y, .asked k .new c :: es) ∧ es.foldl (next c) (some .none) = some (lifeOf y) ∧
    (∀ x, y = some x → WF x ∧ x.loop = k) ∧ y ≠ none ∧ es.all (Ev.about c k) = true

theorem ok_ref {c : Nat} {x : Src} (hw : WF x) (hu : x.users ≠ 0) (hl : x.later = false) :
    Okay c x.loop (.live (viewOf x))
      ((ask .ref c x).then fun _ => .ok (some { x with users := x.users + 1, refs := x.refs + 1 }, [])) := by
  obtain ⟨w1, w2, w3, w4, w5, w6, w7, w8, w9⟩ := hw
  obtain ⟨loop, users, refs, att, des, run, cb, cbrefs, later, func, fin, idle, called⟩ := x
  obtain ⟨u, rfl⟩ := Nat.exists_eq_succ_of_ne_zero hu
  simp only at *
  subst w1 w2 hl
  refine ⟨_, _, rfl, ?_, ?_, by simp [Ev.about]⟩
  · simp [next, nextLive, viewOf, lifeOf, stageOf]
  · intro x hx
    cases hx
    refine ⟨?_, rfl⟩
    constructor <;> simp_all <;> omega

theorem ok_unref {c : Nat} {x : Src} (hw : WF x) (hu : x.users ≠ 0) (hl : x.later = false) :
    Okay c x.loop (.live (viewOf x)) (userUnref c (some x)) := by
  obtain ⟨w1, w2, w3, w4, w5, w6, w7, w8, w9⟩ := hw
  obtain ⟨loop, users, refs, att, des, run, cb, cbrefs, later, func, fin, idle, called⟩ := x
  obtain ⟨u, rfl⟩ := Nat.exists_eq_succ_of_ne_zero hu
  simp only at *
  subst w1 w2 hl
  cases u <;> cases att <;> cases des <;> cases run <;> cases cb <;> cases fin <;> cases func <;> cases called <;>
    simp at w3 w4 w5 w6 w7 w8 <;>
    (refine ⟨_, _, rfl, ?_, ?_, ?_⟩
     · simp [next, nextLive, viewOf, lifeOf, stageOf]
     · intro x hx
       first
       | cases hx; done
       | (cases hx; refine ⟨?_, rfl⟩; constructor <;> simp)
     · simp [Ev.about])

theorem ok_schedule {c : Nat} {x : Src} (hw : WF x) (hu : x.users ≠ 0) (hl : x.later = false) :
    Okay c x.loop (.live (viewOf x)) ((ask .schedule c x).then attach) := by
  obtain ⟨w1, w2, w3, w4, w5, w6, w7, w8, w9⟩ := hw
  obtain ⟨loop, users, refs, att, des, run, cb, cbrefs, later, func, fin, idle, called⟩ := x
  obtain ⟨u, rfl⟩ := Nat.exists_eq_succ_of_ne_zero hu
  simp only at *
  subst w1 w2 hl
  cases u <;> cases att <;> cases des <;> cases run <;> cases cb <;> cases fin <;> cases func <;> cases called <;>
    simp at w3 w4 w5 w6 w7 w8 <;>
    (refine ⟨_, _, rfl, ?_, ?_, ?_⟩
     · simp [next, nextLive, viewOf, lifeOf, stageOf]
     · intro x hx
       first
       | cases hx; done
       | (cases hx; refine ⟨?_, rfl⟩; constructor <;> simp)
     · simp [Ev.about])

theorem ok_cancel {c : Nat} {x : Src} (hw : WF x) (hu : x.users ≠ 0) (hl : x.later = false) :
    Okay c x.loop (.live (viewOf x)) ((ask .cancel c x).then (destroy c)) := by
  obtain ⟨w1, w2, w3, w4, w5, w6, w7, w8, w9⟩ := hw
  obtain ⟨loop, users, refs, att, des, run, cb, cbrefs, later, func, fin, idle, called⟩ := x
  obtain ⟨u, rfl⟩ := Nat.exists_eq_succ_of_ne_zero hu
  simp only at *
  subst w1 w2 hl
  cases u <;> cases att <;> cases des <;> cases run <;> cases cb <;> cases fin <;> cases func <;> cases called <;>
    simp at w3 w4 w5 w6 w7 w8 <;>
    (refine ⟨_, _, rfl, ?_, ?_, ?_⟩
     · simp [next, nextLive, viewOf, lifeOf, stageOf]
     · intro x hx
       first
       | cases hx; done
       | (cases hx; refine ⟨?_, rfl⟩; constructor <;> simp)
     · simp [Ev.about])

theorem ok_destroy {c : Nat} {x : Src} (hw : WF x) (hu : x.users ≠ 0) (hl : x.later = false) :
    Okay c x.loop (.live (viewOf x)) (((ask .cancel c x).then (destroy c)).then (userUnref c)) := by
  obtain ⟨w1, w2, w3, w4, w5, w6, w7, w8, w9⟩ := hw
  obtain ⟨loop, users, refs, att, des, run, cb, cbrefs, later, func, fin, idle, called⟩ := x
  obtain ⟨u, rfl⟩ := Nat.exists_eq_succ_of_ne_zero hu
  simp only at *
  subst w1 w2 hl
  cases u <;> cases att <;> cases des <;> cases run <;> cases cb <;> cases fin <;> cases func <;> cases called <;>
    simp at w3 w4 w5 w6 w7 w8 <;>
    (refine ⟨_, _, rfl, ?_, ?_, ?_⟩
     · simp [next, nextLive, viewOf, lifeOf, stageOf]
     · intro x hx
       first
       | cases hx; done
       | (cases hx; refine ⟨?_, rfl⟩; constructor <;> simp)
     · simp [Ev.about])

theorem ok_start {c : Nat} {x : Src} (hw : WF x) (h1 : x.attached = true) (h2 : x.destroyed = false)
    (h3 : x.running = false) : Okay c x.loop (.live (viewOf x)) (startProc c x) := by
  obtain ⟨w1, w2, w3, w4, w5, w6, w7, w8, w9⟩ := hw
  obtain ⟨loop, users, refs, att, des, run, cb, cbrefs, later, func, fin, idle, called⟩ := x
  simp only at *
  subst w1 w2 h1 h2 h3
  cases later with
  | true =>
    obtain ⟨v1, v2, v3, v4⟩ := w9 rfl
    try simp only at v1 v2 v3 v4
    subst v3 v4
    cases cb <;> cases fin <;> cases func <;> cases called <;> skip <;>
    simp at w3 w4 w5 w6 w7 w8 v1 v2 <;>
    (refine ⟨_, _, rfl, ?_, ?_, ?_⟩
     · simp [next, nextLive, viewOf, lifeOf, stageOf]
     · intro x hx
       first
       | cases hx; done
       | (cases hx; refine ⟨?_, rfl⟩; constructor <;> simp)
     · simp [Ev.about])
  | false =>
    cases users <;> cases cb <;> cases fin <;> cases func <;> cases called <;> skip <;>
    simp at w3 w4 w5 w6 w7 w8 <;>
    (refine ⟨_, _, rfl, ?_, ?_, ?_⟩
     · simp [next, nextLive, viewOf, lifeOf, stageOf]
     · intro x hx
       first
       | cases hx; done
       | (cases hx; refine ⟨?_, rfl⟩; constructor <;> simp)
     · simp [Ev.about])

theorem ok_stop {c : Nat} {x : Src} (hw : WF x) (h1 : x.running = true) :
    Okay c x.loop (.live (viewOf x)) (((stopProc c x).then (destroy c)).then (unref c)) := by
  obtain ⟨w1, w2, w3, w4, w5, w6, w7, w8, w9⟩ := hw
  obtain ⟨loop, users, refs, att, des, run, cb, cbrefs, later, func, fin, idle, called⟩ := x
  simp only at *
  subst w1 w2 h1
  cases later with
  | true =>
    obtain ⟨v1, v2, v3, v4⟩ := w9 rfl
    try simp only at v1 v2 v3 v4
    subst v3 v4
    cases cb <;> cases fin <;> cases func <;> cases called <;> cases att <;> cases des <;>
    simp at w3 w4 w5 w6 w7 w8 v1 v2 <;>
    (refine ⟨_, _, rfl, ?_, ?_, ?_⟩
     · simp [next, nextLive, viewOf, lifeOf, stageOf]
     · intro x hx
       first
       | cases hx; done
       | (cases hx; refine ⟨?_, rfl⟩; constructor <;> simp)
     · simp [Ev.about])
  | false =>
    cases users <;> cases cb <;> cases fin <;> cases func <;> cases called <;> cases att <;> cases des <;>
    simp at w3 w4 w5 w6 w7 w8 <;>
    (refine ⟨_, _, rfl, ?_, ?_, ?_⟩
     · simp [next, nextLive, viewOf, lifeOf, stageOf]
     · intro x hx
       first
       | cases hx; done
       | (cases hx; refine ⟨?_, rfl⟩; constructor <;> simp)
     · simp [Ev.about])

theorem ok_new {loop c : Nat} {fin : Bool} : OkayNew c loop (create loop c true fin false) := by
  refine ⟨_, _, rfl, by simp [next, lifeOf, viewOf, stageOf], ?_, by simp, by simp [Ev.about]⟩
  intro x hx; cases hx; refine ⟨?_, rfl⟩; constructor <;> simp

theorem ok_scheduleNew {loop c : Nat} {fin : Bool} :
    OkayNew c loop ((create loop c true fin false).then fun _ =>
      (ask .schedule c { loop := loop, func := true, fin, later := false }).then attach) := by
  refine ⟨_, _, rfl, by simp [next, nextLive, lifeOf, viewOf, stageOf], ?_, by simp, by simp [Ev.about]⟩
  intro x hx; cases hx; refine ⟨?_, rfl⟩; constructor <;> simp

theorem ok_later {loop c : Nat} {func fin : Bool} :
    OkayNew c loop ((create loop c func fin true).then fun _ =>
      (ask .schedule c { loop := loop, func, fin, later := true }).then attach) := by
  refine ⟨_, _, rfl, by simp [next, nextLive, lifeOf, viewOf, stageOf], ?_, by simp, by simp [Ev.about]⟩
  intro x hx; cases hx; refine ⟨?_, rfl⟩; constructor <;> simp

end Gb.EventLoop
