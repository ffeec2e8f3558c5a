import Verif.Model.Parcels
/-
Who owns what, and what is to be done when a parcel goes away.
-/
set_option autoImplicit false

namespace Gb.Parcels

/-- Owner of an address or descriptor. -/
inductive Owner
  | nobody
  | app
  /-- A parcel; `true` if it has to be released now. -/
  | of (p : Nat) (ending : Bool)
  deriving DecidableEq, Repr

/-- The rules: only those who own something may release it, and only once. A parcel releases what it
owns when it's freed or its contents are replaced, not earlier and not later. `none` if the rules
are broken. -/
def nextOwner (k : Kind) (a : Nat) (o : Owner) : Ev → Option Owner
  | .get k' who b =>
    if k' = k ∧ b = a then
      match o, who with
      | .nobody, none => some .app
      | .nobody, some p => some (.of p false)
      | _, _ => none
    else some o
  | .put k' who b =>
    if k' = k ∧ b = a then
      match o, who with
      | .app, none => some .nobody
      | .of p true, some q => if p = q then some .nobody else none
      | _, _ => none
    else some o
  | .ending q =>
    match o with
    | .of p false => if p = q then some (.of p true) else some o
    | _ => some o
  | .done q =>
    match o with
    | .of p true => if p = q then none else some o
    | _ => some o
  | _ => some o

def owner (k : Kind) (a : Nat) (log : List Ev) : Option Owner :=
  log.foldl (fun st e => st.bind fun o => nextOwner k a o e) (some .nobody)

/-- What a parcel has to do: those which wait until it's freed or its contents are replaced, and
those which must be done now. -/
structure Duties where
  later : List CleanupItem := []
  now : List CleanupItem := []
  deriving DecidableEq, Repr

/-- Everything is done once, in the order of registration, when the time has come. -/
def nextDuty (p : Nat) (d : Duties) : Ev → Option Duties
  | .reg who c => if who = some p then some { d with later := d.later ++ [c] } else some d
  | .ran who c =>
    if who = some p then
      match d.now with
      | c' :: l => if c = c' then some { d with now := l } else none
      | [] => none
    else some d
  | .ending q => if q = p then (if d.now = [] then some { later := [], now := d.later } else none) else some d
  | .done q => if q = p then (if d.now = [] then some d else none) else some d
  | _ => some d

def duties (p : Nat) (log : List Ev) : Option Duties :=
  log.foldl (fun st e => st.bind fun d => nextDuty p d e) (some {})

/-- How often something has been registered without a parcel, and how often it's been done. -/
def registered (c : CleanupItem) (log : List Ev) : Nat := log.count (.reg none c)
def done (c : CleanupItem) (log : List Ev) : Nat := log.count (.ran none c)

/-- The memory allocator returns what isn't in use, and not NULL (g_malloc aborts if there's no memory). -/
def Allocates (e : Env) : Prop := ∀ m n, e.alloc m n ≠ 0 ∧ e.alloc m n ∉ m.map (·.1)

/-- What's expected of those who make the calls. -/
def Ok (e : Env) (s : State) : Label → Prop
  -- the caller has a reference
  | .ref p => ∃ x, s.parcel p = some x ∧ 0 < x.refs
  -- as does the one who is replacing the contents
  | .unref p => ∃ x, s.parcel p = some x ∧ 0 < x.refs ∧ (x.phase ≠ .idle → 1 < x.refs)
  -- arguments are valid
  | .op p o => ∃ x, s.parcel p = some x ∧ 0 < x.refs ∧ ∃ w, o.run e { x.w with mem := s.mem } = .ok w
  | .contents p src off convert =>
    ∃ x, s.parcel p = some x ∧ 0 < x.refs ∧ ∃ w, x.w.appendContents e src off convert = .ok w
  | .reset p => ∃ x, s.parcel p = some x ∧ 0 < x.refs ∧ x.phase = .idle
  | .writerNull _ _ => False
  -- the application only releases what it owns
  | .free a => a = 0 ∨ owner .mem a s.log = some .app
  | .close d => owner .fd d s.log = some .app
  | _ => True

end Gb.Parcels
