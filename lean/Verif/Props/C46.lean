import Verif.Model.Client
import Verif.Spec.Codes
import Verif.Props.C22
import Verif.Props.C45
import Verif.Props.C56
/-
C46: nothing is sent to dead objects, and registration doesn't succeed by itself.
-/
set_option autoImplicit false

namespace Gb.C46

open Driver Client

/-- Nothing can be sent: there is no client, its object is dead, or there is nothing to send. -/
def Refused (c : Option Client) (code : Nat) (req : Option Writer) : Prop :=
  ∀ x, c = some x → x.dead = true ∨ (req = none ∧ ∀ r ∈ x.ranges, r.last < code)

theorem refused_request {x : Client} {code : Nat} {req : Option Writer} (h : Refused (some x) code req)
    (hd : x.dead = false) : x.request code req = none := by
  rcases h x rfl with h1 | ⟨rfl, h1⟩
  · simp [hd] at h1
  · simp [Client.request, C45.find_none.mpr h1]

/-- C46: if the object is dead, then the driver isn't called, and failure is reported; NULL instead of the
reply, a negative status (-ESTALE is -116, -EINVAL is -22), no transaction. -/
theorem C46_refused {c : Option Client} {code : Nat} {req : Option Writer} (h : Refused c code req)
    (k : Cfg) (W : World) (full : List Ev → Bool) (f : Nat) (s : St) :
    transactSyncReply k W full f c code req s = .done (false, none) s ∧
    transactSyncOneway k W f c code req s = .done (if (c.map (·.dead)) = some true then -116 else -22) s ∧
    ∀ flags, Client.transact c code flags req = none := by
  cases c with
  | none => exact ⟨rfl, rfl, fun _ => rfl⟩
  | some x =>
    cases hd : x.dead with
    | true => simp [transactSyncReply, transactSyncOneway, Client.transact, hd]
    | false =>
      have := refused_request h hd
      simp [transactSyncReply, transactSyncOneway, Client.transact, hd, this]

/-- C46: if there's no object or no name, then gbinder_servicemanager_add_service_sync doesn't call the driver. -/
theorem C46_add_null (k : Cfg) (W : World) (full : List Ev → Bool) (f : Nat) (c : Client) (kind : Kind)
    (req : Writer) (s : St) : addServiceSync k W full f c kind false req s = .done (-22) s := rfl

/-- A request was given, or there is a default one for this code. -/
def Sends (x : Client) (code : Nat) (req : Option Writer) (r : Writer) : Prop :=
  x.dead = false ∧ (req = some r ∨ req = none ∧ ∃ g, findRange x.ranges code = some g ∧ r = g.basic)

theorem sends_request {x : Client} {code : Nat} {req : Option Writer} {r : Writer} (h : Sends x code req r) :
    x.request code req = some r := by
  rcases h.2 with rfl | ⟨rfl, g, hg, rfl⟩
  · rfl
  · simp [Client.request, hg]

/-- C46: these are all the cases. -/
theorem C46_cases (c : Option Client) (code : Nat) (req : Option Writer) :
    Refused c code req ∨ ∃ x r, c = some x ∧ Sends x code req r := by
  cases c with
  | none => left; intro x h; cases h
  | some x =>
    cases hd : x.dead with
    | true => left; intro y h; cases h; exact .inl hd
    | false =>
      cases req with
      | some r => right; exact ⟨x, r, rfl, hd, .inl rfl⟩
      | none =>
        cases hf : findRange x.ranges code with
        | none => left; intro y h; cases h; exact .inr ⟨rfl, C45.find_none.mp hf⟩
        | some g => right; exact ⟨x, g.basic, rfl, hd, .inr ⟨rfl, g, hf, rfl⟩⟩

theorem bind_log {α β : Type} (r : Run α) (g : α → St → β) : (r.bind fun a s => .done (g a s) s).log = r.log := by
  cases r <;> rfl

/-- C46: the object is alive, the transaction is for its handle and for this code, the request is the given one. -/
theorem C46_sent {x : Client} {code : Nat} {req : Option Writer} {r : Writer} (h : Sends x code req r)
    (k : Cfg) (W : World) (full : List Ev → Bool) (f : Nat) :
    C56.consumed (transactSyncReply k W full f (some x) code req {}).log <+: C56.command k W x.handle code r true ∧
    C56.consumed (transactSyncOneway k W f (some x) code req {}).log <+: C56.command k W x.handle code r false ∧
    ∀ flags, ∃ t, Client.transact (some x) code flags req = some t ∧ t.flags = flags ∧
      C56.consumed (execTx k W full f t {}).log <+: C56.command k W x.handle code r (flags % 2 ≠ 1) := by
  have hr := sends_request h
  refine ⟨?_, ?_, ?_⟩
  · simp only [transactSyncReply, h.1, hr, syncReply, Bool.not_false, if_true, bind_log]
    exact C56.C56_once
  · simp only [transactSyncOneway, h.1, hr, Bool.not_false, if_true]
    exact C56.C56_once
  · intro flags
    refine ⟨⟨x.handle, code, flags, r⟩, by simp [Client.transact, h.1, hr], rfl, ?_⟩
    unfold execTx
    split
    · rename_i hf
      simp only at hf
      simp only [bind_log, hf, ne_eq, not_true_eq_false, decide_false]
      exact C56.C56_once
    · rename_i hf
      simp only at hf
      simp only [syncReply, bind_log, hf, ne_eq, not_false_eq_true, decide_true]
      exact C56.C56_once

/-- C46: and the status is what the driver says, see C22 about that; the reply is not NULL if the status is zero. -/
theorem C46_status {x : Client} {code : Nat} {req : Option Writer} {r : Writer} (h : Sends x code req r)
    {k : Cfg} {W : World} {full : List Ev → Bool} {f : Nat} {reply : Bool} {st : Option Int} {s : St}
    (hd : transactSyncReply k W full f (some x) code req {} = .done (reply, st) s) :
    ∃ v, st = some v ∧ Driver.transact k W f x.handle code r true {} = .done v s ∧ (v = 0 → reply = true) := by
  simp only [transactSyncReply, h.1, sends_request h, syncReply, Bool.not_false, if_true] at hd
  cases ht : Driver.transact k W f x.handle code r true {} with
  | stop a s' => rw [ht] at hd; simp [Run.bind] at hd
  | done v s' =>
    rw [ht] at hd
    simp only [Run.bind, Run.done.injEq, Prod.mk.injEq] at hd
    obtain ⟨⟨rfl, rfl⟩, rfl⟩ := hd
    exact ⟨v, rfl, rfl, by rintro rfl; simp⟩

/-- C46, registration: if zero is returned, then the service manager has replied to the transaction, and the status
of its reply is zero. (The code of an error is never zero.) -/
theorem C46_add {k : Cfg} {W : World} {full : List Ev → Bool} {f : Nat} {c : Client} {kind : Kind} {args : Bool}
    {req : Writer} {s : St} (h : addServiceSync k W full f c kind args req {} = .done 0 s)
    (herr : ∀ w r, Ev.ioctl w r (.err 0) ∉ s.log) :
    args = true ∧ c.dead = false ∧ (∃ x, C22.ending k true s = some x ∧ C22.peerStatus W k x 0) ∧
    C56.consumed s.log <+: C56.command k W c.handle (Codes.code kind .add) req true := by
  rw [show Codes.code kind .add = kind.addCode by cases kind <;> decide]
  cases args with
  | false => simp [addServiceSync] at h
  | true =>
    simp only [addServiceSync, addService, if_true] at h
    rcases C46_cases (some c) kind.addCode (some req) with hr | ⟨x, r, hx, hs⟩
    · rw [(C46_refused hr k W full f {}).1] at h
      simp [Run.bind] at h
    · cases hx
      have hreq : r = req := by
        rcases hs.2 with h1 | ⟨h1, _⟩
        · exact (Option.some.inj h1).symm
        · cases h1
      subst hreq
      cases ht : transactSyncReply k W full f (some c) kind.addCode (some r) {} with
      | stop a s' => rw [ht] at h; simp [Run.bind] at h
      | done v s' =>
        obtain ⟨reply, st⟩ := v
        obtain ⟨v, rfl, hv, _⟩ := C46_status hs ht
        rw [ht] at h
        simp only [Run.bind, Run.done.injEq] at h
        obtain ⟨rfl, rfl⟩ := h
        refine ⟨rfl, hs.1, ?_, ?_⟩
        · rcases (C22.C22_ok hv herr).mp rfl with ⟨hc, _⟩ | hx
          · cases hc
          · exact hx
        · have := (C46_sent hs k W full f).1
          rw [ht] at this
          exact this

/-- C46: GBINDER_STATUS_DEAD_OBJECT and GBINDER_STATUS_FAILED are returned as they are. -/
theorem C46_add_dead {k : Cfg} {W : World} {full : List Ev → Bool} {f : Nat} {c : Client} {kind : Kind}
    {req : Writer} {s : St} {st : Int} (h : addServiceSync k W full f c kind true req {} = .done st s)  :
    (st = 2 ↔ ∃ pre d, C22.ending k true s = some (pre, .cmd (BR.deadReply.code k.io) d)) ∧
    (st = 1 ↔ ∃ pre d, C22.ending k true s = some (pre, .cmd (BR.failedReply.code k.io) d)) := by
  simp only [addServiceSync, addService, if_true] at h
  rcases C46_cases (some c) kind.addCode (some req) with hr | ⟨x, r, hx, hs⟩
  · rw [(C46_refused hr k W full f {}).1] at h
    simp [Run.bind] at h
  · cases hx
    cases ht : transactSyncReply k W full f (some c) kind.addCode (some req) {} with
    | stop a s' => rw [ht] at h; simp [Run.bind] at h
    | done v s' =>
      obtain ⟨reply, st⟩ := v
      obtain ⟨v, rfl, hv, _⟩ := C46_status hs ht
      rw [ht] at h
      simp only [Run.bind, Run.done.injEq] at h
      obtain ⟨rfl, rfl⟩ := h
      exact ⟨C22.C22_dead hv, C22.C22_failed hv⟩

/-! ### Examples -/

def request : Writer := { io := .io32, protocol := .aidl, bytes := leBytes 4 1 }

def client : Client := ⟨false, 1, [⟨none, none, { io := .io32, protocol := .aidl }, 10⟩]⟩

def status {α : Type} : Run α → Option α
  | .done st _ => some st
  | _ => none

def ub {α : Type} : Run α → Bool
  | .stop (.ub _) _ => true
  | _ => false

example : Refused (some { client with dead := true }) 1 (some request) ∧ Refused (some client) 11 none ∧
    Sends client 10 none { io := .io32, protocol := .aidl } ∧ Sends client 11 (some request) request := by
  refine ⟨?_, ?_, ⟨rfl, .inr ⟨rfl, _, rfl, rfl⟩⟩, ⟨rfl, .inl rfl⟩⟩
  · intro x h; cases h; exact .inl rfl
  · intro x h; cases h
    refine .inr ⟨rfl, ?_⟩
    decide

/-- The manager replies. -/
def replied (v : Nat) : World :=
  C20.scripted .io32 [(64, leBytes 4 v)]
    [encode (BR.transactionComplete.code .io32, []),
     encode (BR.reply.code .io32, ({ dataSize := 4, buffer := 64 } : TxHeader).bytes .io32)]

/-- The manager has died. -/
def died : World :=
  C20.scripted .io32 [] [encode (BR.deadReply.code .io32, [])]

example : status (addServiceSync ⟨.io32, .aidl⟩ (replied 0) (fun _ => true) 40 client .aidl true request {}) = some 0 ∧
    status (addServiceSync ⟨.io32, .aidl⟩ died (fun _ => false) 40 client .aidl true request {}) = some 2 := by
  decide +kernel

/-- gbinder_client_transact_sync_reply leaves the status alone if it refuses to send anything: whatever was there
before the call is there after it, zero for example. -/
theorem C46_fails_status (k : Cfg) (W : World) (full : List Ev → Bool) (f : Nat) (s : St) :
    ∃ (c : Client) (req : Writer), c.dead = true ∧
      transactSyncReply k W full f (some c) 1 (some req) s = .done (false, none) s :=
  ⟨{ client with dead := true }, request, rfl, rfl⟩

/-- And those which register services return this uninitialized variable if the manager is dead. -/
theorem C46_fails_add (k : Cfg) (W : World) (full : List Ev → Bool) (f : Nat) (kind : Kind) (s : St) :
    ub (addServiceSync k W full f { client with dead := true } kind true request s) = true := by
  cases kind <;> rfl

/-- The contents of the reply are ignored: the manager says that an exception has been thrown (for example, the caller
isn't allowed to do this), gbinder_servicemanager_add_service_sync says that all is well. The same happens if
hwservicemanager returns false. -/
theorem C46_fails_exception :
    status (addServiceSync ⟨.io32, .aidl⟩ (replied (2 ^ 32 - 1)) (fun _ => true) 40 client .aidl true request {}) =
      some 0 := by
  decide +kernel

end Gb.C46
