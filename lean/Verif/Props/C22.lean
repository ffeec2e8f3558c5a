import Verif.Lemmas.Status
import Verif.Props.C20
/-
C22: how the result of gbinder_driver_transact is related to what the kernel has reported.

`track` (Spec/Status.lean) finds the step which ends the transaction, taking into account the
transactions which are received and replied to while the library is waiting. `Verdict` is what
this step means. The environment is arbitrary.
-/
set_option autoImplicit false

namespace Gb.C22
open Driver

theorem trackRev_ended {io : Io} {reply : Bool} {l : List Ev} {pre : List Ev} {e : Ev}
    (h : (trackRev io reply l).ended = some (pre, e)) : ∃ post, l.reverse = pre ++ e :: post := by
  induction l with
  | nil => cases h
  | cons a l ih =>
    simp only [trackRev] at h
    have key : (trackRev io reply l).ended = some (pre, e) ∨ (l.reverse = pre ∧ a = e) := by
      revert h
      generalize trackRev io reply l = t
      intro h
      unfold Track.step at h
      repeat' split at h
      all_goals first
        | exact .inl h
        | (simp only [Option.some.injEq, Prod.mk.injEq] at h; exact .inr h)
    rcases key with h1 | ⟨h1, h2⟩
    · obtain ⟨post, hp⟩ := ih h1
      exact ⟨post ++ [a], by simp [hp]⟩
    · subst h1 h2
      exact ⟨[], by simp⟩

theorem track_ended {io : Io} {reply : Bool} {l : List Ev} {pre : List Ev} {e : Ev}
    (h : (track io reply l).ended = some (pre, e)) : ∃ post, l = pre ++ e :: post := by
  obtain ⟨post, hp⟩ := trackRev_ended h
  exact ⟨post, by simpa using hp⟩

/-- When gbinder_driver_transact returns, the transaction has ended, all incoming transactions
received in the meantime have been dealt with, and the result is what the step which has ended the
transaction says. -/
theorem C22_verdict {k : Cfg} {W : World} {f handle code : Nat} {req : Writer} {reply : Bool}
    {s : St} {st : Int} (h : transact k W f handle code req reply {} = .done st s) :
    ∃ pre e post, s.log = pre ++ e :: post ∧
      track k.io reply s.log = { depth := 0, ended := some (pre, e) } ∧
      Verdict W k.io reply pre e st := by
  have ht := track_transact (k := k) (W := W) (f := f) (handle := handle) (code := code)
    (req := req) (reply := reply) St.fresh
  rw [h] at ht
  obtain ⟨pre, e, h1, h2⟩ := ht
  obtain ⟨post, h3⟩ := track_ended (io := k.io) (reply := reply) (by rw [h1])
  exact ⟨pre, e, post, h3, h1, h2⟩

/-- The step which has ended the transaction. -/
def ending (k : Cfg) (reply : Bool) (s : St) : Option (List Ev × Ev) := (track k.io reply s.log).ended

/-- The status chosen by the peer. -/
def peerStatus (W : World) (k : Cfg) (x : List Ev × Ev) (v : Int) : Prop :=
  ∃ d tx, x.2 = .cmd (BR.reply.code k.io) d ∧
    decodeTransactionData k.io (W.mem (x.1 ++ [.cmd (BR.reply.code k.io) d])) d = .ok tx ∧
    v = if tx.status % 2 ^ 32 < 2 ^ 31 then ((tx.status % 2 ^ 32 : Nat) : Int)
        else ((tx.status % 2 ^ 32 : Nat) : Int) - 2 ^ 32

theorem peerStatus_of {W : World} {k : Cfg} {pre : List Ev} {d : Bytes} {tx : TxData} {v : Int}
    (hd : decodeTransactionData k.io (W.mem (pre ++ [.cmd (BR.reply.code k.io) d])) d = .ok tx)
    (h1 : -2 ^ 31 ≤ v) (h2 : v < 2 ^ 31) (h3 : v % 2 ^ 32 = (tx.status : Int) % 2 ^ 32) :
    peerStatus W k (pre, .cmd (BR.reply.code k.io) d) v := by
  refine ⟨d, tx, rfl, hd, ?_⟩
  split <;> omega

/-- GBINDER_STATUS_DEAD_OBJECT (2) is returned if and only if the kernel has reported that the
target is dead; no peer can make this happen. -/
theorem C22_dead {k : Cfg} {W : World} {f handle code : Nat} {req : Writer} {reply : Bool}
    {s : St} {st : Int} (h : transact k W f handle code req reply {} = .done st s) :
    st = 2 ↔ ∃ pre d, ending k reply s = some (pre, .cmd (BR.deadReply.code k.io) d) := by
  obtain ⟨pre, e, post, _, h2, h3⟩ := C22_verdict h
  simp only [ending, h2, Option.some.injEq, Prod.mk.injEq]
  constructor
  · intro hst
    cases h3 with
    | dead => exact ⟨pre, _, rfl, rfl⟩
    | reply hd h1 h2 h3 =>
      split at hst
      · exact absurd hst (by decide)
      · rename_i hn
        exact absurd (.inr (.inr hst)) hn
    | error hn => omega
    | complete => omega
    | failed => omega
  · rintro ⟨_, d, _, rfl⟩
    generalize hc : BR.deadReply.code k.io = c at h3
    cases h3 with
    | dead => rfl
    | complete _ => exact absurd (BR.code_inj hc) (by decide)
    | failed => exact absurd (BR.code_inj hc) (by decide)
    | reply => exact absurd (BR.code_inj hc) (by decide)

/-- GBINDER_STATUS_FAILED (1) is returned if and only if the kernel has reported a failure. -/
theorem C22_failed {k : Cfg} {W : World} {f handle code : Nat} {req : Writer} {reply : Bool}
    {s : St} {st : Int} (h : transact k W f handle code req reply {} = .done st s) :
    st = 1 ↔ ∃ pre d, ending k reply s = some (pre, .cmd (BR.failedReply.code k.io) d) := by
  obtain ⟨pre, e, post, _, h2, h3⟩ := C22_verdict h
  simp only [ending, h2, Option.some.injEq, Prod.mk.injEq]
  constructor
  · intro hst
    cases h3 with
    | failed => exact ⟨pre, _, rfl, rfl⟩
    | reply hd h1 h2 h3 =>
      split at hst
      · exact absurd hst (by decide)
      · rename_i hn
        exact absurd (.inr (.inl hst)) hn
    | error hn => omega
    | complete => omega
    | dead => omega
  · rintro ⟨_, d, _, rfl⟩
    generalize hc : BR.failedReply.code k.io = c at h3
    cases h3 with
    | failed => rfl
    | complete _ => exact absurd (BR.code_inj hc) (by decide)
    | dead => exact absurd (BR.code_inj hc) (by decide)
    | reply => exact absurd (BR.code_inj hc) (by decide)

/-- Zero is returned if and only if a one-way transaction has been delivered, or a reply has been
received and its status is zero. (The code of an error is never zero.) -/
theorem C22_ok {k : Cfg} {W : World} {f handle code : Nat} {req : Writer} {reply : Bool}
    {s : St} {st : Int} (h : transact k W f handle code req reply {} = .done st s)
    (herr : ∀ w r, Ev.ioctl w r (.err 0) ∉ s.log) :
    st = 0 ↔
      (reply = false ∧ ∃ pre d, ending k reply s = some (pre, .cmd (BR.transactionComplete.code k.io) d)) ∨
      (∃ x, ending k reply s = some x ∧ peerStatus W k x 0) := by
  obtain ⟨pre, e, post, h1, h2, h3⟩ := C22_verdict h
  simp only [ending, h2, Option.some.injEq]
  constructor
  · intro hst
    cases h3 with
    | complete hr => exact .inl ⟨hr, pre, _, rfl⟩
    | failed => omega
    | dead => omega
    | @reply d tx v hd h4 h5 h6 =>
      split at hst
      · exact absurd hst (by decide)
      · subst hst
        exact .inr ⟨_, rfl, peerStatus_of hd h4 h5 h6⟩
    | @error w room n hn =>
      have : n = 0 := by omega
      subst this
      exact absurd (by rw [h1]; simp) (herr w (some room))
  · rintro (⟨hr, pre', d, he⟩ | ⟨x, rfl, d, tx, hx, hd, hv⟩)
    · simp only [Prod.mk.injEq] at he
      obtain ⟨rfl, rfl⟩ := he
      generalize hc : BR.transactionComplete.code k.io = c at h3
      cases h3 with
      | complete _ => rfl
      | dead => exact absurd (BR.code_inj hc) (by decide)
      | failed => exact absurd (BR.code_inj hc) (by decide)
      | reply => exact absurd (BR.code_inj hc) (by decide)
    · simp only at hx hd
      subst hx
      generalize hc : BR.reply.code k.io = c at h3
      cases h3 with
      | complete _ => exact absurd (BR.code_inj hc) (by decide)
      | dead => exact absurd (BR.code_inj hc) (by decide)
      | failed => exact absurd (BR.code_inj hc) (by decide)
      | @reply _ tx' v hd' h4 h5 h6 =>
        rw [hd] at hd'
        cases hd'
        have : v = 0 := by split at hv <;> omega
        subst this
        rfl

/-- Any other status is an error reported by the kernel, or it has been chosen by the peer. What the
peer has chosen is returned as it is, unless it could be mistaken for something else: for 'still
waiting' (-EAGAIN), GBINDER_STATUS_FAILED or GBINDER_STATUS_DEAD_OBJECT. These are replaced by
-EFAULT. -/
theorem C22_reply {k : Cfg} {W : World} {f handle code : Nat} {req : Writer} {reply : Bool}
    {s : St} {st : Int} (h : transact k W f handle code req reply {} = .done st s)
    {x : List Ev × Ev} (he : ending k reply s = some x) {v : Int} (hv : peerStatus W k x v) :
    st = if v = -11 ∨ v = 1 ∨ v = 2 then -14 else v := by
  obtain ⟨pre, e, post, h1, h2, h3⟩ := C22_verdict h
  simp only [ending, h2, Option.some.injEq] at he
  subst he
  obtain ⟨d, tx, hx, hd, hv⟩ := hv
  simp only at hx hd
  subst hx
  generalize hc : BR.reply.code k.io = c at h3
  cases h3 with
  | complete _ => exact absurd (BR.code_inj hc) (by decide)
  | dead => exact absurd (BR.code_inj hc) (by decide)
  | failed => exact absurd (BR.code_inj hc) (by decide)
  | @reply _ tx' v' hd' h4 h5 h6 =>
    rw [hd] at hd'
    cases hd'
    have : v' = v := by split at hv <;> omega
    subst this
    rfl

/-- All the outcomes there are. -/
theorem C22_cases {k : Cfg} {W : World} {f handle code : Nat} {req : Writer} {reply : Bool}
    {s : St} {st : Int} (h : transact k W f handle code req reply {} = .done st s) :
    ∃ pre e, ending k reply s = some (pre, e) ∧
      ((∃ d, e = .cmd (BR.transactionComplete.code k.io) d ∧ reply = false ∧ st = 0) ∨
       (∃ d, e = .cmd (BR.deadReply.code k.io) d ∧ st = 2) ∨
       (∃ d, e = .cmd (BR.failedReply.code k.io) d ∧ st = 1) ∨
       (∃ v, peerStatus W k (pre, e) v ∧ st = if v = -11 ∨ v = 1 ∨ v = 2 then -14 else v) ∨
       (∃ w room n, e = .ioctl w (some room) (.err n) ∧ st = -(n : Int))) := by
  obtain ⟨pre, e, post, h1, h2, h3⟩ := C22_verdict h
  refine ⟨pre, e, by simp only [ending, h2], ?_⟩
  cases h3 with
  | complete hr => exact .inl ⟨_, rfl, hr, rfl⟩
  | dead => exact .inr (.inl ⟨_, rfl, rfl⟩)
  | failed => exact .inr (.inr (.inl ⟨_, rfl, rfl⟩))
  | @reply d tx v hd h4 h5 h6 =>
    exact .inr (.inr (.inr (.inl ⟨v, peerStatus_of hd h4 h5 h6, rfl⟩)))
  | @error w room n hn => exact .inr (.inr (.inr (.inr ⟨w, room, n, rfl, rfl⟩)))

/-! ### Examples -/

/-- While the library is waiting for the reply, a transaction is received, for which it sends a
reply; the first BR_TRANSACTION_COMPLETE is about the outgoing transaction, BR_FAILED_REPLY is
about the reply. BR_REPLY says -EAGAIN. -/
def demoWorld (status : Nat) : World :=
  C20.scripted .io32 [(64, leBytes 4 status)]
    [encode (BR.transactionComplete.code .io32, []) ++
       encode (BR.transaction.code .io32, ({ target := 16, code := 1 } : TxHeader).bytes .io32),
     encode (BR.failedReply.code .io32, []),
     encode (BR.reply.code .io32,
       ({ flags := tfStatusCode, dataSize := 4, buffer := 64 } : TxHeader).bytes .io32)]

def demoRun (status : Nat) : Run Int :=
  transact ⟨.io32, .aidl⟩ (demoWorld status) 40 1 2 { io := .io32, protocol := .aidl } true {}

def result : Run Int → Option Int
  | .done st _ => some st
  | _ => none

example : result (demoRun (2 ^ 32 - 11)) = some (-14) := by decide +kernel
example : result (demoRun 2) = some (-14) := by decide +kernel
example : result (demoRun (2 ^ 32 - 5)) = some (-5) := by decide +kernel
example : result (demoRun 7) = some 7 := by decide +kernel
example : result (demoRun 0) = some 0 := by decide +kernel

end Gb.C22
