import Verif.Model.IpcTable
import Verif.Model.Client
/-
src/gbinder_servicemanager.c: GBinderServiceManager objects, one for each device, and references to them.

There is a table for each class. It belongs to the structure of the class (gbinder_servicemanager_p.h:56-79), which is
created by GLib (g_type_class_ref) when the class is used for the first time, as a copy of the structure of the
parent's class. The parent of aidl2, aidl3 and aidl4 is aidl (gbinder_servicemanager_aidl2.c:43,
gbinder_servicemanager_aidl3.c:47, gbinder_servicemanager_aidl4.c:47), the parent of aidl and hidl is the abstract class
(gbinder_servicemanager_aidl.c:54, gbinder_servicemanager_hidl.c:63), which has no table.

What's done under the lock (of the class) is one step, see `IpcTable` for g_object_unref.

Simplified: GBinderIpc is there or not, and it's for the right device and the right protocol (C51). Presence is in
`Manager`. Tables, managers and threads are numbered, i.e. the memory is not reused.
-/
set_option autoImplicit false

namespace Gb.SmTable

open Client (Kind)
open IpcTable (Phase)

/-- gbinder_servicemanager_p.h:44-54 struct gbinder_servicemanager: the class, the device (self->dev) and the protocol of the
client. -/
structure Sm where
  refs : Nat
  kind : Kind
  dev : Bytes
  protocol : Protocol
  deriving DecidableEq, Repr

/-- What is observable of gbinder_servicemanager.c:518-583, 706-714, 1070-1127. -/
inductive Ev
  /-- this manager has been returned to a caller who has asked for that -/
  | got (k : Kind) (dev : Bytes) (p : Protocol) (i : Nat)
  | failed (k : Kind) (dev : Bytes) (p : Protocol)
  | ref (i : Nat)
  | unref (i : Nat)
  | freed (i : Nat)
  deriving DecidableEq, Repr

/-- `cls` are the structures of the classes, with klass->table (gbinder_servicemanager_p.h:56-79); `tabs` are the hash tables
(gbinder_servicemanager.c:555), which own the keys. -/
structure State where
  cls : Kind → Option (Option Nat) := fun _ => none
  tabs : Nat → Option (List (Bytes × Nat)) := fun _ => none
  ntabs : Nat := 0
  sm : Nat → Option Sm := fun _ => none
  no : Nat := 0
  /-- threads which are in g_object_unref -/
  doing : Nat → Option (Nat × Phase) := fun _ => none
  log : List Ev := []

/-- G_DEFINE_TYPE in gbinder_servicemanager_aidl.c:54, gbinder_servicemanager_aidl2.c:43, gbinder_servicemanager_aidl3.c:47,
gbinder_servicemanager_aidl4.c:47, gbinder_servicemanager_hidl.c:63: the parent, if it isn't the abstract class. -/
def parent : Kind → Option Kind
  | .aidl | .hidl => none
  | .aidl2 | .aidl3 | .aidl4 => some .aidl

/-- A function changed at one point. -/
def updK {α : Type} (f : Kind → α) (k : Kind) (v : α) : Kind → α := fun x => if x = k then v else f x

/-- g_type_class_ref (called by gbinder_servicemanager.c:146-161): the structure of the class is created, unless it's there. -/
def classRef (s : State) (k : Kind) : State :=
  match s.cls k with
  | some _ => s
  | none =>
    match parent k with
    | none => { s with cls := updK s.cls k (some none) }
    | some q =>
      match s.cls q with
      | some t => { s with cls := updK s.cls k (some t) }
      | none => { s with cls := updK (updK s.cls q (some none)) k (some none) }

/-- klass->table (gbinder_servicemanager_p.h:59) -/
def State.table (s : State) (k : Kind) : Option Nat := (s.cls k).join

/-- Adds to the log; no code in gbinder_servicemanager.c:518-583 corresponds to it. -/
def State.see (s : State) (e : Ev) : State := { s with log := s.log ++ [e] }

/-- Stores to the fields of the object (gbinder_servicemanager_p.h:44-54). -/
def State.set (s : State) (i : Nat) (x : Option Sm) : State := { s with sm := upd s.sm i x }

/-- A hash table is changed (gbinder_servicemanager.c:555-558, 1101-1103). -/
def State.setTab (s : State) (t : Nat) (l : Option (List (Bytes × Nat))) : State := { s with tabs := upd s.tabs t l }

/-- klass->table is changed (gbinder_servicemanager.c:555, 1104). -/
def State.setCls (s : State) (k : Kind) (t : Option Nat) : State := { s with cls := updK s.cls k (some t) }

/-- The thread goes on in g_object_unref (called by gbinder_servicemanager.c:716-723), or is done. -/
def State.becomes (s : State) (t : Nat) (x : Option (Nat × Phase)) : State := { s with doing := upd s.doing t x }

/-- gbinder_servicemanager.c:550-558: a new object, which goes to the table `t` with contents `l`. The device of the object is
that of the GBinderIpc (gbinder_remote_object_p.h:51 gbinder_remote_object_dev, gbinder_ipc.c:1860). -/
def create (s : State) (k : Kind) (dev : Bytes) (p : Protocol) (t : Nat) (l : List (Bytes × Nat)) : State :=
  (({ s with no := s.no + 1 } : State).set s.no (some ⟨1, k, IpcTable.device (some dev), p⟩)).setTab t (some ((dev, s.no) :: l))
    |>.see (.got k dev p s.no)

/-- gbinder_servicemanager.c:539-561: what's done under the lock. -/
def lookup (s : State) (k : Kind) (dev : Bytes) (p : Protocol) : Out State :=
  match s.table k with
  | none => .ok (create (({ s with ntabs := s.ntabs + 1 } : State).setCls k (some s.ntabs)) k dev p s.ntabs [])
  | some t =>
    match s.tabs t with
    | none => .ub
    | some l =>
      match l.find? fun e => e.1 == dev with
      | none => .ok (create s k dev p t l)
      | some e =>
        match s.sm e.2 with
        | none => .ub
        | some x => .ok ((s.set e.2 (some { x with refs := x.refs + 1 })).see (.got k dev p e.2))

/-- gbinder_servicemanager.c:1100-1106: what's done under the lock. -/
def forget (s : State) (x : Sm) : Out State :=
  match s.table x.kind with
  | none => .ok s
  | some t =>
    if x.refs ≤ 1 then
      match s.tabs t with
      | none => .ub
      | some l =>
        let l := l.filter fun e => !(e.1 == x.dev)
        if l = [] then .ok ((s.setTab t none).setCls x.kind none)
        else .ok (s.setTab t (some l))
    else .ok s

/-- gbinder_servicemanager.c:518-583, 706-714, 1070-1127: what happens next, see `step`. -/
inductive Label
  | new (k : Kind) (dev : Bytes) (protocol : Option Bytes) (opens : Bool)
  | ref (i : Nat)
  | unref (t i : Nat)
  | remove (t : Nat)
  | recheck (t : Nat)
  | drop (t : Nat)
  deriving DecidableEq, Repr

/-- gbinder_servicemanager.c:518-583, 706-714, 1070-1127, each step has its own lines below. `auto` is
gbinder_rpc_protocol_for_device. -/
def step (auto : Bytes → Protocol) (s : State) : Label → Out State
  /- gbinder_servicemanager.c:518-583 `gbinder_servicemanager_new_with_type` -/
  | .new k dev name opens =>
    let p := IpcTable.protocol auto (IpcTable.device (some dev)) name
    let s := classRef s k
    if opens then lookup s k dev p else .ok (s.see (.failed k dev p))
  /- gbinder_servicemanager.c:706-714 `gbinder_servicemanager_ref` -/
  | .ref i =>
    match s.sm i with
    | none => .ub
    | some x => .ok ((s.set i (some { x with refs := x.refs + 1 })).see (.ref i))
  /- gbinder_servicemanager.c:716-723 `gbinder_servicemanager_unref`; g_object_unref either decrements the counter or calls
  dispose. -/
  | .unref t i =>
    if s.doing t ≠ none then .no
    else
      match s.sm i with
      | none => .ub
      | some x =>
        if x.refs > 1 then .ok ((s.set i (some { x with refs := x.refs - 1 })).see (.unref i))
        else .ok ((s.becomes t (some (i, .dispose))).see (.unref i))
  /- gbinder_servicemanager.c:1070-1110 `gbinder_servicemanager_dispose` -/
  | .remove t =>
    match s.doing t with
    | some (i, .dispose) =>
      match s.sm i with
      | none => .ub
      | some x => (forget s x).andThen fun s => .ok (s.becomes t (some (i, .disposed)))
    | _ => .no
  /- g_object_unref: there may be new references, after gbinder_servicemanager.c:1070-1110 -/
  | .recheck t =>
    match s.doing t with
    | some (i, .disposed) =>
      match s.sm i with
      | none => .ub
      | some x =>
        if x.refs > 1 then .ok ((s.set i (some { x with refs := x.refs - 1 })).becomes t none)
        else .ok (s.becomes t (some (i, .last)))
    | _ => .no
  /- g_object_unref: the last reference, and then gbinder_servicemanager.c:1112-1127 `gbinder_servicemanager_finalize` -/
  | .drop t =>
    match s.doing t with
    | some (i, .last) =>
      match s.sm i with
      | none => .ub
      | some x =>
        if x.refs > 1 then .ok ((s.set i (some { x with refs := x.refs - 1 })).becomes t none)
        else .ok (((s.set i none).becomes t none).see (.freed i))
    | _ => .no

end Gb.SmTable
