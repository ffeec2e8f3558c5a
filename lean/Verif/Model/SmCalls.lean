import Verif.Basic.Bytes
import Verif.Model.Async
/-
src/gbinder_servicemanager.c: gbinder_servicemanager_list, gbinder_servicemanager_get_service,
gbinder_servicemanager_add_service and gbinder_servicemanager_cancel, i.e. asynchronous calls.

Those are transactions of GBinderIpc (see `Async`) with their own data, which is accessed by the thread from the pool
(exec) and then by the main thread (done, free). The list of names, remote objects, local objects and managers are
numbered. What the methods of the class (list, get_service, add_service) do is described elsewhere, here they return
anything.
-/
set_option autoImplicit false

namespace Gb.SmCalls

/-- What has been asked for: gbinder_servicemanager.c:784-893, the arguments of gbinder_servicemanager_list,
gbinder_servicemanager_get_service and gbinder_servicemanager_add_service. -/
inductive What
  | list
  | get (name : Option Bytes)
  | add (name : Option Bytes) (obj : Option Nat)
  deriving DecidableEq, Repr

/-- Whose references are those: gbinder_servicemanager.c:189, 232-234, 276-278. -/
inductive Ref
  | sm (i : Nat)
  | loc (i : Nat)
  | rem (i : Nat)
  deriving DecidableEq, Repr

/-- What's passed to the callback: gbinder_servicemanager.c:191, 234-235, 279 (result, obj, status). -/
structure Result where
  names : Option Nat := none
  obj : Option Nat := none
  status : Int := -14
  deriving DecidableEq, Repr

/-- gbinder_servicemanager.c:188-193 GBinderServiceManagerListTxData, 231-238 GBinderServiceManagerGetServiceTxData, 275-282
GBinderServiceManagerAddServiceTxData. The names are copies. -/
structure Data where
  sm : Nat
  what : What
  res : Result := {}
  deriving DecidableEq, Repr

/-- What the method of the class returns (gbinder_servicemanager.c:202-203, 247-249, 291-292): a new list of names or NULL; an
object with a reference or NULL, and the status; the status. -/
inductive Reply
  | list (some : Bool)
  | get (obj : Option Nat) (status : Int)
  | add (status : Int)
  deriving DecidableEq, Repr

/-- What's observable of gbinder_servicemanager.c:188-316, 784-917. -/
inductive Ev
  /-- the function has returned zero -/
  | refused (w : What)
  | asked (p sm : Nat) (w : What)
  | cancelled (p : Nat)
  /-- the method of the class has been called and has returned -/
  | performed (p : Nat) (w : What) (r : Result)
  /-- the callback has been called -/
  | told (p : Nat) (r : Result)
  /-- g_strfreev -/
  | released (n : Nat)
  /-- the callback has returned TRUE -/
  | kept (n : Nat)
  | ref (r : Ref)
  | unref (r : Ref)
  /-- The data has been freed. -/
  | freed (p : Nat)
  deriving DecidableEq, Repr

/-- The transactions, their data (gbinder_servicemanager.c:188-282), lists of names which belong to the library and the
references which are held by the data. -/
structure State where
  tx : Async.State := {}
  data : Nat → Option Data := fun _ => none
  arrays : Nat → Bool := fun _ => false
  narrays : Nat := 0
  held : Ref → Nat := fun _ => 0
  log : List Ev := []

/-- gbinder_servicemanager.c:234: the reference to the remote object, unless it's NULL. -/
def objRefs : Option Nat → List Ref
  | some o => [.rem o]
  | none => []

/-- gbinder_servicemanager.c:189, 232-234, 276-278: the references which the data has. -/
def Data.holds (d : Data) : List Ref :=
  .sm d.sm ::
    ((match d.what with
      | .add _ (some o) => [.loc o]
      | _ => []) ++ objRefs d.res.obj)

/-- Adds to the log; no code in gbinder_servicemanager.c:188-316 corresponds to it. -/
def State.see (s : State) (e : List Ev) : State := { s with log := s.log ++ e }

/-- gbinder_servicemanager_ref, gbinder_local_object_ref (gbinder_servicemanager.c:794, 828, 880-881). -/
def State.take (s : State) (l : List Ref) : State :=
  { s with held := fun r => s.held r + l.count r, log := s.log ++ l.map .ref }

/-- gbinder_servicemanager_unref, gbinder_remote_object_unref, gbinder_local_object_unref (gbinder_servicemanager.c:227, 269-270,
312-313). -/
def State.drop (s : State) (l : List Ref) : Out State :=
  if ∀ r ∈ l, l.count r ≤ s.held r then
    .ok { s with held := fun r => s.held r - l.count r, log := s.log ++ l.map .unref }
  else .ub

/-- g_strfreev (gbinder_servicemanager.c:214, 226) -/
def State.release (s : State) : Option Nat → Out State
  | none => .ok s
  | some n => if s.arrays n then .ok ({ s with arrays := upd s.arrays n false }.see [.released n]) else .ub

/-- gbinder_servicemanager.c:790, 824, 876: the name is required (but the object isn't). -/
def named : What → Bool
  | .list => true
  | .get name => name.isSome
  | .add name _ => name.isSome

/-- gbinder_servicemanager.c:188-316, 784-917: what happens next, see `step`. -/
inductive Label
  | ask (self : Option Nat) (func : Bool) (w : What)
  | exec (p : Nat)
  | executed (p : Nat) (r : Reply)
  | done (p : Nat) (keep : Bool)
  | free (p : Nat)
  | cancel (id : Nat)
  | check (p : Nat)
  | post (p : Nat)
  | flush (p : Nat)
  deriving DecidableEq, Repr

/-- What's in the data after gbinder_servicemanager.c:195-204, 240-250, 284-293: the fields which aren't assigned keep
their initial values (g_slice_new0 and 832, 885). `n` is the number of the new list. The reply is that of the right
method. -/
def result (n : Nat) : What → Reply → Option Result
  | .list, .list b => some { names := if b then some n else none }
  | .get _, .get obj status => some { obj := obj, status := status }
  | .add _ _, .add status => some { status := status }
  | _, _ => none

/-- gbinder_servicemanager.c:188-316, 784-917, each step has its own lines below. -/
def step (s : State) : Label → Out State
  /- gbinder_servicemanager.c:784-804 `gbinder_servicemanager_list`, 817-840 `gbinder_servicemanager_get_service`, 868-893
  `gbinder_servicemanager_add_service` -/
  | .ask self func w =>
    match self with
    | none => .ok (s.see [.refused w])
    | some sm =>
      if func && named w then
        match Async.step s.tx .submit with
        | .no => .no
        | .ub => .ub
        | .ok tx =>
          let d : Data := { sm := sm, what := w }
          .ok ({ s.take d.holds with tx := tx, data := upd s.data s.tx.calls (some d) }.see [.asked s.tx.calls sm w])
      else .ok (s.see [.refused w])
  /- gbinder_servicemanager.c:195-204 `gbinder_servicemanager_list_tx_exec`, 240-250 `gbinder_servicemanager_get_service_tx_exec`,
  284-293 `gbinder_servicemanager_add_service_tx_exec`: the method is called -/
  | .exec p =>
    match Async.step s.tx (.exec p) with
    | .no => .no
    | .ub => .ub
    | .ok tx =>
      match s.data p with
      | none => .ub
      | some d => if ∀ r ∈ d.holds, 0 < s.held r then .ok { s with tx := tx } else .ub
  /- and returns -/
  | .executed p r =>
    match Async.step s.tx (.executed p) with
    | .no => .no
    | .ub => .ub
    | .ok tx =>
      match s.data p with
      | none => .ub
      | some d =>
        if ∀ r ∈ d.holds, 0 < s.held r then
          match result s.narrays d.what r with
          | none => .no
          | some res =>
            let s := s.take (objRefs res.obj)
            .ok ({ s with
              tx := tx
              arrays := if res.names = some s.narrays then upd s.arrays s.narrays true else s.arrays
              narrays := s.narrays + 1
              data := upd s.data p (some { d with res := res }) }.see [.performed p d.what res])
        else .ub
  /- gbinder_servicemanager.c:206-217 `gbinder_servicemanager_list_tx_done`, 252-260 `gbinder_servicemanager_get_service_tx_done`,
  295-303 `gbinder_servicemanager_add_service_tx_done` -/
  | .done p keep =>
    match Async.step s.tx (.done p) with
    | .no => .no
    | .ub => .ub
    | .ok tx =>
      match s.tx.txs p with
      | none => .ub
      | some t =>
        if t.cancelled then .ok { s with tx := tx }
        else
          match s.data p with
          | none => .ub
          | some d =>
            if ∀ r ∈ d.holds, 0 < s.held r then
              let s := { s with tx := tx }.see [.told p d.res]
              match d.res.names with
              | none => .ok s
              | some n =>
                if s.arrays n then
                  (if keep then .ok ({ s with arrays := upd s.arrays n false }.see [.kept n])
                    else s.release (some n)).andThen fun s =>
                  .ok { s with data := upd s.data p (some { d with res := { d.res with names := none } }) }
                else .ub
            else .ub
  /- gbinder_servicemanager.c:219-229 `gbinder_servicemanager_list_tx_free`, 262-273 `gbinder_servicemanager_get_service_tx_free`,
  305-316 `gbinder_servicemanager_add_service_tx_free` -/
  | .free p =>
    match Async.step s.tx (.free p) with
    | .no => .no
    | .ub => .ub
    | .ok tx =>
      match s.data p with
      | none => .ub
      | some d =>
        (s.release d.res.names).andThen fun s =>
        (s.drop d.holds).andThen fun s =>
        .ok ({ s with tx := tx, data := upd s.data p none }.see [.freed p])
  /- gbinder_servicemanager.c:909-917 `gbinder_servicemanager_cancel` -/
  | .cancel id =>
    match Async.step s.tx (.cancel id) with
    | .no => .no
    | .ub => .ub
    | .ok tx =>
      match s.tx.table.find? (fun e => e.1 = id) with
      | some (_, p) => .ok ({ s with tx := tx }.see [.cancelled p])
      | none => .ok { s with tx := tx }
  /- gbinder_ipc.c:1714, 1721, 2204-2224 -/
  | .check p =>
    match Async.step s.tx (.check p) with
    | .no => .no
    | .ub => .ub
    | .ok tx => .ok { s with tx := tx }
  | .post p =>
    match Async.step s.tx (.post p) with
    | .no => .no
    | .ub => .ub
    | .ok tx => .ok { s with tx := tx }
  | .flush p =>
    match Async.step s.tx (.flush p) with
    | .no => .no
    | .ub => .ub
    | .ok tx => .ok { s with tx := tx }

end Gb.SmCalls
