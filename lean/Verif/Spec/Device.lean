import Verif.Model.Device
/-
Specification: descriptors and mappings, seen from outside.
-/
set_option autoImplicit false

namespace Gb.Device

/-- Whose descriptor it is. -/
inductive Owner
  | nobody
  | app
  | lib
  deriving DecidableEq, Repr

/-- What happens to the descriptor `n`. `none` if something is wrong: a descriptor is opened which was open
already, is closed by someone else than who has opened it, or is used by the library when it doesn't belong to
the library (e.g. after it has been closed, and opened again by the application). -/
def fdStep (n : Nat) (o : Owner) (e : Ev) : Option Owner :=
  match e with
  | .opened m => if m = n then (if o = .nobody then some .lib else none) else some o
  | .appOpened m => if m = n then (if o = .nobody then some .app else none) else some o
  | .closed (some m) => if m = n then (if o = .lib then some .nobody else none) else some o
  | .appClosed m => if m = n then (if o = .app then some .nobody else none) else some o
  | .ioctl (some m) => if m = n then (if o = .lib then some .lib else none) else some o
  | _ => some o

/-- Whose descriptor it is in the end, `none` if something went wrong. -/
def fdOwner (n : Nat) (log : List Ev) : Option Owner :=
  log.foldl (fun o e => o.bind fun o => fdStep n o e) (some .nobody)

/-- The same for a mapping: is it there? -/
def mapStep (n : Nat) (o : Bool) (e : Ev) : Option Bool :=
  match e with
  | .mapped m => if m = n then (if o then none else some true) else some o
  | .unmapped m => if m = n then (if o then some false else none) else some o
  | _ => some o

def isMapped (n : Nat) (log : List Ev) : Option Bool :=
  log.foldl (fun o e => o.bind fun o => mapStep n o e) (some false)

/-- The life of a driver: is it there? `none` if it's created when it's there, or freed when it isn't. -/
def lifeStep (d : Nat) (o : Bool) (e : Ev) : Option Bool :=
  match e with
  | .created d' _ => if d' = d then (if o then none else some true) else some o
  | .freed d' => if d' = d then (if o then some false else none) else some o
  | _ => some o

def life (d : Nat) (log : List Ev) : Option Bool :=
  log.foldl (fun o e => o.bind fun o => lifeStep d o e) (some false)

/-- The steps of an application which closes its own descriptors only. -/
def Decent (s : State) : Label → Prop
  | .appClose fd => fdOwner fd s.log = some .app
  | _ => True

/-- And no looper hangs. -/
def Smooth (s : State) : Label → Prop
  | .stuck _ => False
  | l => Decent s l

/-- The versions of the driver's interface which are supported: 7 for 32-bit and 8 for 64-bit structures
(BINDER_CURRENT_PROTOCOL_VERSION in the Linux kernel). -/
def supported : Int → Option Io
  | 7 => some .io32
  | 8 => some .io64
  | _ => none

end Gb.Device
