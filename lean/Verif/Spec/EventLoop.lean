import Verif.Model.EventLoop
/-
What is expected of callbacks and timeouts, see include/gbinder_eventloop.h:60-130. Everything is
stated in terms of what is observable, i.e. as a condition on the log.
-/
set_option autoImplicit false

namespace Gb.EventLoop

/-- What the main loop is going to do with a callback. -/
inductive Stage
  | fresh
  | pending
  | running
  | over
  deriving DecidableEq, Repr

/-- What is known about a callback. -/
structure View where
  func : Bool
  fin : Bool
  later : Bool
  /-- references held by those who use it -/
  users : Nat := 1
  stage : Stage := .fresh
  /-- has ever been pending -/
  sched : Bool := false
  called : Bool := false
  final : Bool := false
  deriving DecidableEq, Repr

/-- The life of a callback. -/
inductive Life
  | none
  | live (v : View)
  | freed
  deriving DecidableEq, Repr

/-- What's allowed to happen to a callback: the function is only called by the main loop, once, and only if the callback has been
scheduled but not cancelled; the finalize function isn't called while the function is running or before that, and at most
once; the memory is freed when there's nobody to use it, but not before the data has been finalized. -/
def nextLive (v : View) : Op → Option View
  | .ref => if v.users = 0 then none else some { v with users := v.users + 1 }
  | .unref => if v.users = 0 then none else some { v with users := v.users - 1 }
  | .schedule =>
    if v.users = 0 then none
    else if v.stage = .fresh then some { v with stage := .pending, sched := true } else some v
  | .cancel =>
    if v.users = 0 || v.later then none
    else if v.stage = .fresh || v.stage = .pending then some { v with stage := .over } else some v
  | _ => none

def next (c : Nat) (x : Option Life) (e : Ev) : Option Life :=
  match x with
  | none => none
  | some l =>
    match e with
    | .made d func fin later =>
      if d = c then (if l = .none then some (.live { func, fin, later }) else none) else some l
    | .asked _ op d =>
      if d = c then
        if op = .new then (if l = .none then some l else none)
        else
          match l with
          | .live v => (nextLive v op).map .live
          | _ => none
      else some l
    | .start d =>
      if d = c then
        match l with
        | .live v => if v.stage = .pending ∧ ¬v.final ∧ ¬v.called then some (.live { v with stage := .running }) else none
        | _ => none
      else some l
    | .func d =>
      if d = c then
        match l with
        | .live v =>
          if v.stage = .running ∧ v.func ∧ ¬v.called ∧ ¬v.final then some (.live { v with called := true }) else none
        | _ => none
      else some l
    | .stop d =>
      if d = c then
        match l with
        | .live v => if v.stage = .running ∧ v.called = v.func then some (.live { v with stage := .over }) else none
        | _ => none
      else some l
    | .final d =>
      if d = c then
        match l with
        | .live v =>
          if v.fin ∧ ¬v.final ∧ (v.stage = .over ∨ v.stage = .fresh ∧ v.users = 0) ∧ (v.later → v.called = v.func) then
            some (.live { v with final := true })
          else none
        | _ => none
      else some l
    | .freed d =>
      if d = c then
        match l with
        | .live v =>
          if v.users = 0 ∧ (v.stage = .over ∨ v.stage = .fresh) ∧ v.final = v.fin ∧ (v.later → v.called = v.func) then
            some .freed
          else none
        | _ => none
      else some l
    | _ => some l

/-- What has become of a callback, `none` if something has happened which shouldn't have. -/
def life (c : Nat) (log : List Ev) : Option Life := log.foldl (next c) (some .none)

/-- The life of a timeout. -/
inductive Timer
  | none
  /-- it may be called -/
  | armed
  | firing
  /-- removed, but the function is still running -/
  | stopping
  | gone
  deriving DecidableEq, Repr

/-- What's allowed to happen to a timeout: the function isn't called after it's been removed or if the function has said
so, and the function is never called recursively. -/
def nextTimer (t : Nat) (x : Option Timer) (e : Ev) : Option Timer :=
  match x with
  | none => none
  | some l =>
    match e with
    | .askedTimeout _ op d =>
      if d = t then
        match op, l with
        | .add _, .none => some .armed
        | .remove, .armed => some .gone
        | .remove, .firing => some .stopping
        | _, _ => none
      else some l
    | .fire d => if d = t then (if l = .armed then some .firing else none) else some l
    | .fired d again =>
      if d = t then
        match l with
        | .firing => some (if again then .armed else .gone)
        | .stopping => some .gone
        | _ => none
      else some l
    | _ => some l

def timer (t : Nat) (log : List Ev) : Option Timer := log.foldl (nextTimer t) (some .none)

/-- How many times the memory of a timeout has been freed. -/
def freeings (t : Nat) (log : List Ev) : Nat := log.countP (· = .gone t)

/-- Which integration everything goes to. -/
structure Routes where
  /-- the one which has been set -/
  loop : Nat := 0
  /-- the one which has been replaced but hasn't been told about that -/
  owed : Option Nat := none
  /-- who has made the object -/
  maker : Nat → Option Nat := fun _ => none
  makerTimeout : Nat → Option Nat := fun _ => none

/-- New objects are made by the integration which has been set, and it's the one which is asked about them
ever since. An integration is told when it's replaced. -/
def route (x : Option Routes) (e : Ev) : Option Routes :=
  match x with
  | none => none
  | some r =>
    match e, r.owed with
    | .cleanup k, some o => if k = o then some { r with owed := none } else none
    | _, some _ => none
    | .cleanup _, none => none
    | .set k, none => if k = r.loop then some r else some { r with loop := k, owed := some r.loop }
    | .asked k op c, none =>
      if op = .new then
        if k = r.loop ∧ r.maker c = none then some { r with maker := upd r.maker c (some k) } else none
      else if r.maker c = some k then some r else none
    | .askedTimeout k op t, none =>
      match op with
      | .add _ =>
        if k = r.loop ∧ r.makerTimeout t = none then some { r with makerTimeout := upd r.makerTimeout t (some k) } else none
      | _ => if r.makerTimeout t = some k then some r else none
    | _, none => some r

def routes (log : List Ev) : Option Routes := log.foldl route (some {})

end Gb.EventLoop
