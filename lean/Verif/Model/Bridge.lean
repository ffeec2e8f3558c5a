import Verif.Basic.Bytes
import Verif.Basic.Lts
/-
src/gbinder_bridge.c: services of one binder device which are made available on another one.

All this happens on the main thread. A signal (death of a remote object, registration of a service) is a list of handlers
yet to be called. The application may have its own handlers, i.e. it may be doing something in
between, including what causes another signal to be emitted.

Objects are numbered, i.e. the memory is not reused. The references to an object are those who own them. Nobody stores
that, g_object_unref only counts.

What is modelled elsewhere: proxies (Model/Proxy), registration and lookup of services (Model/ServiceName,
Model/Services), the signals of the service manager (Model/Manager). Here a lookup returns whatever object there is.

Simplified: the main loop isn't run while a service is being looked up; src and dest are never freed, and which of
the service managers it is doesn't matter.
-/
set_option autoImplicit false

namespace Gb.Bridge

/-- Who has a reference to a remote object (gbinder_bridge.c:149, gbinder_proxy_object.c:348). -/
inductive Holder
  | iface (i : Nat)
  | proxy (p : Nat)
  | other
  deriving DecidableEq, Repr

/-- GBinderRemoteObject (gbinder_remote_object_p.h:43-49). -/
structure Remote where
  refs : List Holder
  dead : Bool := false
  deriving DecidableEq, Repr

/-- Who has a reference to a proxy (gbinder_bridge.c:154-161, gbinder_servicename.c:152). -/
inductive User
  | iface (i : Nat)
  | service (n : Nat)
  | other
  deriving DecidableEq, Repr

/-- GBinderProxyObject (gbinder_proxy_object.c:60-63). -/
structure Proxy where
  refs : List User
  remote : Nat
  deriving DecidableEq, Repr

/-- gbinder_bridge.c:51-62 GBinderBridgeInterface. The handlers are connected if and only if the identifiers aren't zero, the
identifier of the death handler isn't zero if `obj` isn't NULL. -/
structure Iface where
  /-- fqname -/
  fqname : Bytes
  /-- src_name -/
  srcName : Bytes
  /-- dest_obj -/
  obj : Option Nat := none
  /-- proxy -/
  proxy : Option Nat := none
  /-- src_service -/
  service : Option Nat := none
  deriving DecidableEq, Repr

/-- A handler to be called: gbinder_bridge.c:120-130 and 164-177. -/
inductive Call
  | death (rm i : Nat)
  | registration (i : Nat) (name : Bytes)
  deriving DecidableEq, Repr

/-- What is observable of gbinder_bridge.c:74-266. -/
inductive Ev
  /-- gbinder_bridge_new2 has been called with these names (or those which are used instead), and these are the
  interfaces -/
  | opened (b : Nat) (src dest : Bytes) (ifaces : List (Nat × Bytes))
  /-- gbinder_bridge_new2 has returned NULL -/
  | refused
  /-- gbinder_bridge_free has returned -/
  | freed (b : Nat)
  /-- a registration handler has been added to dest, and removed from there -/
  | watch (i : Nat) (name : Bytes)
  | unwatch (i : Nat)
  /-- the result of gbinder_servicemanager_get_service_sync -/
  | found (i : Nat) (name : Bytes) (rm : Option Nat)
  /-- the object isn't used any more -/
  | left (i rm : Nat)
  /-- gbinder_proxy_object_new, gbinder_local_object_drop -/
  | made (i p rm : Nat)
  | dropped (i p : Nat)
  /-- gbinder_servicename_new, gbinder_servicename_unref -/
  | published (i n p : Nat) (name : Bytes)
  | withdrawn (i n : Nat)
  /-- the remote object has died -/
  | died (rm : Nat)
  deriving DecidableEq, Repr

/-- The objects: gbinder_bridge.c:51-68 and what they refer to. -/
structure State where
  remotes : Nat := 0
  remote : Nat → Option Remote := fun _ => none
  proxies : Nat := 0
  proxy : Nat → Option Proxy := fun _ => none
  /-- GBinderServiceName: the object -/
  services : Nat := 0
  service : Nat → Option Nat := fun _ => none
  ifaces : Nat := 0
  iface : Nat → Option Iface := fun _ => none
  bridges : Nat := 0
  /-- GBinderBridge: the interfaces -/
  bridge : Nat → Option (List Nat) := fun _ => none
  calls : List Call := []
  log : List Ev := []

/-- gbinder_bridge.c:74-266: what happens next, see `step`. `look` is what the lookup made for an interface
finds. -/
inductive Label
  | newRemote
  | refRemote (rm : Nat)
  | unrefRemote (rm : Nat)
  | refProxy (p : Nat)
  | unrefProxy (p : Nat)
  | new (src dest : Option Bytes) (ifaces : List Bytes) (look : Nat → Option Nat)
  | die (rm : Nat) (is : List Nat)
  | registered (is : List Nat) (name : Bytes)
  | call (look : Nat → Option Nat)
  | free (b : Nat)

/-- Adds to the log; no code in gbinder_bridge.c:74-266 corresponds to it. -/
def State.see (s : State) (l : List Ev) : State := { s with log := s.log ++ l }

/-- Stores to the fields of GBinderRemoteObject (gbinder_remote_object_p.h:43-49). -/
def State.setRemote (s : State) (rm : Nat) (x : Option Remote) : State := { s with remote := upd s.remote rm x }

/-- Stores to the fields of GBinderProxyObject (gbinder_proxy_object.c:60-63). -/
def State.setProxy (s : State) (p : Nat) (x : Option Proxy) : State := { s with proxy := upd s.proxy p x }

/-- Stores to the fields of GBinderBridgeInterface (gbinder_bridge.c:51-62). -/
def State.setIface (s : State) (i : Nat) (x : Option Iface) : State := { s with iface := upd s.iface i x }

/-- gbinder_remote_object_ref (called at gbinder_bridge.c:149 and gbinder_proxy_object.c:348) -/
def State.remoteRef (s : State) (rm : Nat) (h : Holder) : Out State :=
  match s.remote rm with
  | none => .ub
  | some x => .ok (s.setRemote rm (some { x with refs := h :: x.refs }))

/-- gbinder_remote_object_unref (called at gbinder_bridge.c:82 and gbinder_proxy_object.c:384); it's undefined if somebody
else's reference is dropped. -/
def State.remoteUnref (s : State) (rm : Nat) (h : Holder) : Out State :=
  match s.remote rm with
  | none => .ub
  | some x =>
    if h ∈ x.refs then
      let l := x.refs.erase h
      .ok (s.setRemote rm (if l = [] then none else some { x with refs := l }))
    else .ub

/-- gbinder_local_object_unref (called at gbinder_local_object.c:477, gbinder_servicename.c:191) and
gbinder_proxy_object.c:359-386; see `remoteUnref`. -/
def State.proxyUnref (s : State) (p : Nat) (u : User) : Out State :=
  match s.proxy p with
  | none => .ub
  | some x =>
    if u ∈ x.refs then
      let l := x.refs.erase u
      if l = [] then (s.setProxy p none).remoteUnref x.remote (.proxy p)
      else .ok (s.setProxy p (some { x with refs := l }))
    else .ub

/-- gbinder_bridge.c:74-86 `gbinder_bridge_dest_drop_remote_object`. A handler which has been removed isn't called. -/
def State.dropRemote (s : State) (i : Nat) : Out State :=
  match s.iface i with
  | none => .ub
  | some x =>
    match x.obj with
    | none => .ok s
    | some rm =>
      (s.remoteUnref rm (.iface i)).andThen fun s =>
        .ok ((({ s with calls := s.calls.filter fun c => c ≠ .death rm i } : State).setIface i
          (some { x with obj := none })).see [.left i rm])

/-- gbinder_bridge.c:93-96. -/
def State.dropProxy (s : State) (i : Nat) : Out State :=
  match s.iface i with
  | none => .ub
  | some x =>
    match x.proxy with
    | none => .ok s
    | some p =>
      (s.proxyUnref p (.iface i)).andThen fun s =>
        .ok ((s.setIface i (some { x with proxy := none })).see [.dropped i p])

/-- gbinder_bridge.c:98-101, gbinder_servicename.c:179-197. -/
def State.dropService (s : State) (i : Nat) : Out State :=
  match s.iface i with
  | none => .ub
  | some x =>
    match x.service with
    | none => .ok s
    | some n =>
      match s.service n with
      | none => .ub
      | some p =>
        (({ s with service := upd s.service n none } : State).proxyUnref p (.service n)).andThen fun s =>
          .ok ((s.setIface i (some { x with service := none })).see [.withdrawn i n])

/-- gbinder_bridge.c:88-102 `gbinder_bridge_interface_deactivate` -/
def State.deactivate (s : State) (i : Nat) : Out State :=
  ((s.dropRemote i).andThen fun s => s.dropProxy i).andThen fun s => s.dropService i

/-- gbinder_bridge.c:104-118 `gbinder_bridge_interface_free` -/
def State.freeIface (s : State) (i : Nat) : Out State :=
  (s.deactivate i).andThen fun s =>
    .ok ((({ s with calls := s.calls.filter fun c => match c with
                                | .registration j _ => j ≠ i
                                | _ => true } : State).setIface i none).see [.unwatch i])

/-- gbinder_bridge.c:141-142. -/
def State.checkDead (s : State) (i : Nat) : Out State :=
  match s.iface i with
  | none => .ub
  | some x =>
    match x.obj with
    | none => .ok s
    | some rm =>
      match s.remote rm with
      | none => .ub
      | some r => if r.dead then s.dropRemote i else .ok s

/-- gbinder_bridge.c:144-153. The object which is returned is referenced by somebody else at this point
(gbinder_servicemanager.c:852-858). -/
def State.attach (s : State) (i : Nat) (found : Option Nat) : Out State :=
  match s.iface i with
  | none => .ub
  | some x =>
    match x.obj with
    | some _ => .ok s
    | none =>
      match found with
      | none => .ok (s.see [.found i x.fqname none])
      | some rm =>
        match s.remote rm with
        | none => .no
        | some _ =>
          (s.remoteRef rm (.iface i)).andThen fun s =>
            .ok ((s.setIface i (some { x with obj := some rm })).see [.found i x.fqname (some rm)])

/-- gbinder_bridge.c:154-157, gbinder_proxy_object.c:328-353. -/
def State.makeProxy (s : State) (i : Nat) : Out State :=
  match s.iface i with
  | none => .ub
  | some x =>
    match x.obj, x.proxy with
    | some rm, none =>
      (s.remoteRef rm (.proxy s.proxies)).andThen fun s =>
        .ok (((({ s with proxies := s.proxies + 1 } : State).setProxy s.proxies
          (some { refs := [.iface i], remote := rm })).setIface i (some { x with proxy := some s.proxies })).see
          [.made i s.proxies rm])
    | _, _ => .ok s

/-- gbinder_bridge.c:158-161, gbinder_servicename.c:141-164. -/
def State.publish (s : State) (i : Nat) : Out State :=
  match s.iface i with
  | none => .ub
  | some x =>
    match x.proxy, x.service with
    | some p, none =>
      match s.proxy p with
      | none => .ub
      | some y =>
        .ok (((({ s with services := s.services + 1, service := upd s.service s.services (some p) } : State).setProxy p
          (some { y with refs := .service s.services :: y.refs })).setIface i
          (some { x with service := some s.services })).see [.published i s.services p x.srcName])
    | _, _ => .ok s

/-- gbinder_bridge.c:132-162 `gbinder_bridge_interface_activate` -/
def State.activate (s : State) (i : Nat) (found : Option Nat) : Out State :=
  (((s.checkDead i).andThen fun s => s.attach i found).andThen fun s => s.makeProxy i).andThen fun s => s.publish i

/-- gbinder_bridge.c:179-200 `gbinder_bridge_interface_new` -/
def State.newIface (s : State) (src dest iface : Bytes) (look : Nat → Option Nat) : Out State :=
  let i := s.ifaces
  let fqname := iface ++ [0x2f] ++ dest
  ((({ s with ifaces := i + 1 } : State).setIface i (some { fqname, srcName := src })).see [.watch i fqname]).activate i
    (look i)

/-- gbinder_bridge.c:235-238. -/
def State.newIfaces (s : State) (src dest : Bytes) (look : Nat → Option Nat) : List Bytes → Out State
  | [] => .ok s
  | f :: l => (s.newIface src dest f look).andThen fun s => s.newIfaces src dest look l

/-- gbinder_bridge.c:255-258. -/
def State.freeIfaces (s : State) : List Nat → Out State
  | [] => .ok s
  | i :: l => (s.freeIface i).andThen fun s => s.freeIfaces l

/-- gbinder_bridge.c:222-226. -/
def names : Option Bytes → Option Bytes → Option (Bytes × Bytes)
  | none, none => none
  | none, some d => some (d, d)
  | some s, none => some (s, s)
  | some s, some d => some (s, d)

/-- The interfaces which have a death handler connected to the object (gbinder_bridge.c:150-151). -/
def State.listeners (s : State) (rm : Nat) : List Nat :=
  (List.range s.ifaces).filter fun i => (s.iface i).any fun x => x.obj == some rm

/-- gbinder_bridge.c:74-266, each step has its own lines below. -/
def step (s : State) : Label → Out State
  /- gbinder_object_registry_get_remote: it's created or found (see C29), here it's created. -/
  | .newRemote =>
    .ok (({ s with remotes := s.remotes + 1 } : State).setRemote s.remotes (some { refs := [.other] }))
  | .refRemote rm =>
    match s.remote rm with
    | none => .no
    | some _ => s.remoteRef rm .other
  | .unrefRemote rm =>
    match s.remote rm with
    | none => .no
    | some x => if .other ∈ x.refs then s.remoteUnref rm .other else .no
  | .refProxy p =>
    match s.proxy p with
    | none => .no
    | some x => .ok (s.setProxy p (some { x with refs := .other :: x.refs }))
  | .unrefProxy p =>
    match s.proxy p with
    | none => .no
    | some x => if .other ∈ x.refs then s.proxyUnref p .other else .no
  /- gbinder_bridge.c:206-246 `gbinder_bridge_new`, `gbinder_bridge_new2` -/
  | .new src dest ifaces look =>
    match names src dest with
    | none => .ok (s.see [.refused])
    | some (src, dest) =>
      if ifaces = [] then .ok (s.see [.refused])
      else
        let ids := List.range' s.ifaces ifaces.length
        ((({ s with bridges := s.bridges + 1, bridge := upd s.bridge s.bridges (some ids) } : State).see
          [.opened s.bridges src dest (ids.zip ifaces)])).newIfaces src dest look ifaces
  /- gbinder_remote_object.c:65-90, 138-161: the signal is emitted, the handlers are called in some order. -/
  | .die rm is =>
    match s.remote rm with
    | none => .no
    | some x =>
      if x.dead ∨ ¬is.isPerm (s.listeners rm) then .no
      else .ok (({ s with calls := is.map (.death rm) ++ s.calls } : State).setRemote rm (some { x with dead := true })
        |>.see [.died rm])
  /- gbinder_servicemanager.c:585-613: the signal is emitted. The handler may be called for other instances of the same
  interface, and who has which handler connected isn't a part of this model. -/
  | .registered is name =>
    if is.all fun i => (s.iface i).isSome then
      .ok { s with calls := is.map (fun i => .registration i name) ++ s.calls }
    else .no
  | .call look =>
    match s.calls with
    | [] => .no
    /- gbinder_bridge.c:120-130 `gbinder_bridge_dest_death_proc` -/
    | .death _ i :: rest => ({ s with calls := rest } : State).deactivate i
    /- gbinder_bridge.c:164-177 `gbinder_bridge_dest_registration_proc` -/
    | .registration i name :: rest =>
      match s.iface i with
      | none => .ub
      | some x =>
        if name = x.fqname then ({ s with calls := rest } : State).activate i (look i)
        else .ok { s with calls := rest }
  /- gbinder_bridge.c:248-264 `gbinder_bridge_free` -/
  | .free b =>
    match s.bridge b with
    | none => .no
    | some ids =>
      (s.freeIfaces ids).andThen fun s => .ok (({ s with bridge := upd s.bridge b none } : State).see [.freed b])

end Gb.Bridge
