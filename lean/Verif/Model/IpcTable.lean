import Verif.Basic.Lts
import Verif.Model.Config
/-
src/gbinder_ipc.c: the table of GBinderIpc objects, and references to them.

gbinder_ipc_mutex protects the table, so what's done under the lock is one step. g_object_unref isn't:
if it's about to drop the last reference, it calls dispose, looks at the number of references again
(there may be new ones), and then drops the reference. Any number of threads may be doing that.

Simplified: what else is done by gbinder_ipc_dispose, gbinder_ipc_finalize and gbinder_ipc_exit (the threads
and the transactions), GASSERT does nothing. A lookup in the table touches the keys of all entries (it
may touch fewer).
-/
set_option autoImplicit false

namespace Gb.IpcTable

open Config (str)

/-- gbinder_rpc_protocol.c:125, 173, 230, 276 -/
def protocolName : Protocol → Bytes
  | .aidl => str "aidl"
  | .aidl2 => str "aidl2"
  | .aidl3 => str "aidl3"
  | .hidl => str "hidl"

/-- gbinder_ipc.c:268-275 `gbinder_ipc_make_key` -/
def makeKey (dev : Bytes) (p : Protocol) : Bytes := protocolName p ++ str ":" ++ dev

/-- gbinder_ipc.c:1860: the default is used if there's no name or if it's empty (GBINDER_DEFAULT_BINDER). -/
def device : Option Bytes → Bytes
  | none => str "/dev/binder"
  | some d => if d = [] then str "/dev/binder" else d

/-- gbinder_ipc.c:1857-1861: the one with this name, or the one which is used with this device (`auto`,
gbinder_rpc_protocol_for_device, see C48). -/
def protocol (auto : Bytes → Protocol) (dev : Bytes) (name : Option Bytes) : Protocol :=
  (name.bind Config.findProtocol).getD (auto dev)

/-- Where a thread is in g_object_unref, when it isn't just decrementing the number of references (the last thing called
by gbinder_ipc.c:1913-1920). -/
inductive Phase
  /-- in gbinder_ipc_dispose, waiting for the lock -/
  | dispose
  /-- the lock has been released -/
  | disposed
  /-- no new references after dispose -/
  | last
  deriving DecidableEq, Repr

/-- gbinder_ipc.c:62-80: GBinderIpc and GBinderIpcPriv, which owns the key. -/
structure Ipc where
  refs : Nat
  dev : Bytes
  protocol : Protocol
  deriving DecidableEq, Repr

/-- gbinder_ipc.c:1871-1889 `priv->key` -/
def Ipc.key (x : Ipc) : Bytes := makeKey x.dev x.protocol

/-- What is observable of gbinder_ipc.c:1850-1920, 2102-2156. -/
inductive Ev
  /-- gbinder_ipc_new has returned this object to the caller which wanted this device and this protocol -/
  | got (dev : Bytes) (p : Protocol) (i : Nat)
  /-- the device couldn't be opened, NULL has been returned -/
  | failed (dev : Bytes) (p : Protocol)
  /-- gbinder_ipc_ref has been called -/
  | ref (i : Nat)
  /-- gbinder_ipc_unref has been called -/
  | unref (i : Nat)
  /-- gbinder_ipc_finalize has been called -/
  | freed (i : Nat)
  deriving DecidableEq, Repr

/-- gbinder_ipc.c:247-249: the table. An entry is a pointer to GBinderIpc and a pointer to its key, both belong to the
same object (gbinder_ipc.c:1888), so one number is enough. -/
structure State where
  no : Nat := 0
  ipc : Nat → Option Ipc := fun _ => none
  table : List Nat := []
  /-- threads which are in g_object_unref -/
  busy : List (Nat × Nat × Phase) := []
  log : List Ev := []

/-- gbinder_ipc.c:1850-1920, 2102-2250: what happens next, see `step`. -/
inductive Label
  | new (dev protocol : Option Bytes) (opens : Bool)
  | ref (i : Nat)
  | unref (t i : Nat)
  | remove (t : Nat)
  | recheck (t : Nat)
  | drop (t : Nat)
  | exit
  deriving DecidableEq, Repr

/-- Adds to the log; no code in gbinder_ipc.c:1850-1920 corresponds to it. -/
def State.see (s : State) (l : List Ev) : State := { s with log := s.log ++ l }

/-- Stores to the fields of the object (gbinder_ipc.c:62-80). -/
def State.set (s : State) (i : Nat) (x : Option Ipc) : State := { s with ipc := upd s.ipc i x }

/-- What a thread is doing: gbinder_ipc.c:2102-2132, or waiting for it to return. -/
def State.doing (s : State) (t : Nat) : Option (Nat × Phase) := (s.busy.find? fun b => b.1 == t).map (·.2)

/-- The thread goes on (gbinder_ipc.c:2102-2132), or is done. -/
def State.becomes (s : State) (t : Nat) (x : Option (Nat × Phase)) : State :=
  { s with busy := (match x with | some y => [(t, y)] | none => []) ++ s.busy.filter fun b => b.1 != t }

/-- The keys are in the memory which hasn't been freed (gbinder_ipc.c:2154 frees them). -/
def State.intact (s : State) : Bool := s.table.all fun i => (s.ipc i).isSome

/-- g_hash_table_lookup in gbinder_ipc.c:1867 -/
def State.lookup (s : State) (key : Bytes) : Option Nat :=
  s.table.find? fun i => (s.ipc i).any fun x => x.key == key

/-- g_hash_table_remove in gbinder_ipc.c:2121: whatever is there under this key. -/
def State.forget (s : State) (key : Bytes) : State :=
  { s with table := s.table.filter fun i => !(s.ipc i).any fun x => x.key == key }

/-- g_object_ref for each of them (gbinder_ipc.c:2177-2181). -/
def State.refAll (s : State) : List Nat → Out State
  | [] => .ok s
  | i :: l =>
    match s.ipc i with
    | none => .ub
    | some x => ((s.set i (some { x with refs := x.refs + 1 })).see [.ref i]).refAll l

/-- gbinder_ipc.c:1850-1920, 2102-2156, 2170-2182, each step has its own lines below. `auto` is
gbinder_rpc_protocol_for_device. -/
def step (auto : Bytes → Protocol) (s : State) : Label → Out State
  /- gbinder_ipc.c:1850-1899 `gbinder_ipc_new` -/
  | .new dev name opens =>
    let dev := device dev
    let p := protocol auto dev name
    if s.intact then
      match s.lookup (makeKey dev p) with
      | some i =>
        match s.ipc i with
        | none => .ub
        | some x => .ok ((s.set i (some { x with refs := x.refs + 1 })).see [.got dev p i])
      | none =>
        if opens then
          .ok (({ s with no := s.no + 1, table := s.no :: s.table } : State).set s.no (some ⟨1, dev, p⟩)
            |>.see [.got dev p s.no])
        else .ok (s.see [.failed dev p])
    else .ub
  /- gbinder_ipc.c:1901-1911 `gbinder_ipc_ref` -/
  | .ref i =>
    match s.ipc i with
    | none => .ub
    | some x => .ok ((s.set i (some { x with refs := x.refs + 1 })).see [.ref i])
  /- gbinder_ipc.c:1913-1920 `gbinder_ipc_unref`; g_object_unref either decrements the counter or calls dispose. -/
  | .unref t i =>
    if s.doing t ≠ none then .no
    else
      match s.ipc i with
      | none => .ub
      | some x =>
        if x.refs > 1 then .ok ((s.set i (some { x with refs := x.refs - 1 })).see [.unref i])
        else .ok ((s.becomes t (some (i, .dispose))).see [.unref i])
  /- gbinder_ipc.c:2102-2128 `gbinder_ipc_dispose` -/
  | .remove t =>
    match s.doing t with
    | some (i, .dispose) =>
      match s.ipc i with
      | none => .ub
      | some x => if s.intact then .ok ((s.forget x.key).becomes t (some (i, .disposed))) else .ub
    | _ => .no
  /- g_object_unref: there may be new references, after gbinder_ipc.c:2102-2132 -/
  | .recheck t =>
    match s.doing t with
    | some (i, .disposed) =>
      match s.ipc i with
      | none => .ub
      | some x =>
        if x.refs > 1 then .ok ((s.set i (some { x with refs := x.refs - 1 })).becomes t none)
        else .ok (s.becomes t (some (i, .last)))
    | _ => .no
  /- g_object_unref: the last reference, and then gbinder_ipc.c:2134-2156 `gbinder_ipc_finalize` -/
  | .drop t =>
    match s.doing t with
    | some (i, .last) =>
      match s.ipc i with
      | none => .ub
      | some x =>
        if x.refs > 1 then .ok ((s.set i (some { x with refs := x.refs - 1 })).becomes t none)
        else .ok (((s.set i none).becomes t none).see [.freed i])
    | _ => .no
  /- gbinder_ipc.c:2170-2184: the references which are taken by gbinder_ipc_exit, they are dropped (gbinder_ipc.c:2248)
  by `unref`. -/
  | .exit => if s.intact then s.refAll s.table else .ub

end Gb.IpcTable
