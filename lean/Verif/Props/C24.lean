import Verif.Lemmas.Duties
import Verif.Lemmas.Unrefs
import Verif.Lemmas.LocalObjLog
import Verif.Lemmas.RemoteObjLog
import Verif.Lemmas.RemoteObjDeath
import Verif.Model.DriverCmds
import Verif.Props.C20
/-
C24: every BR_INCREFS is answered by exactly one BC_INCREFS_DONE and every BR_ACQUIRE by exactly
one BC_ACQUIRE_DONE with the same pointer and cookie, and BR_DEAD_BINDER by exactly one
BC_DEAD_BINDER_DONE, known object or not.

The first part is about the command loops (Model/Driver.lean), with an arbitrary environment: a
call (`Call`) is gbinder_driver_read or gbinder_driver_transact, `upToCommand post` are the steps
which follow a command in the log, up to the next command. BR_ACQUIRE and BR_DEAD_BINDER for a known
object are passed to the object, the response is sent by a callback which runs on the main thread.
The second part is about those (Model/LocalObj.lean, Model/RemoteObj.lean).
-/
set_option autoImplicit false

namespace Gb.C24
open Driver

/-- The response written to the kernel (and not refused with EAGAIN). -/
def response? (io : Io) : Ev → Option Bytes
  | .ioctl w none (.err e) => if e ≠ EAGAIN ∧ isResponse io w then some w else none
  | .ioctl w none (.ok _ _) => if isResponse io w then some w else none
  | _ => none

/-- The responses written to the kernel. -/
def written (io : Io) (l : List Ev) : List Bytes := l.filterMap (response? io)

theorem written_acts (io : Io) (l : List Ev) : written io (acts io l) = written io l := by
  unfold written acts
  rw [List.filterMap_filter]
  congr 1
  funext e
  cases h : isAct io e
  · simp only [Bool.false_eq_true, if_false]
    unfold isAct at h
    unfold response?
    split at h
    · simp only [decide_eq_false_iff_not] at h; simp only [if_neg h]
    · simp only [h, Bool.false_eq_true, if_false]
    all_goals first | (cases h; done) | rfl | skip
    split <;> simp_all
  · simp

theorem written_ack {io : Io} {b : BC} {d : Bytes} {res : KRes} (hr : res ≠ .err EAGAIN)
    (hb : b = .increfsDone ∨ b = .acquireDone ∨ b = .deadBinderDone) :
    response? io (.ioctl (leBytes 4 (b.code io) ++ d) none res) = some (encode (b.code io, d)) := by
  have hx : isResponse io (leBytes 4 (b.code io) ++ d) = true := by
    rcases hb with rfl | rfl | rfl <;> simp [isResponse, word_append]
  cases res with
  | err e =>
    have : e ≠ EAGAIN := fun h1 => hr (by rw [h1])
    simp [response?, this, hx, encode]
  | ok n rd => simp [response?, hx, encode]

/-- BR_INCREFS is answered right away, whether or not there is such an object. -/
theorem C24_increfs {k : Cfg} {W : World} {f : Nat} {x : Call} {pre post : List Ev} {d : Bytes}
    (hl : (x.run k W f).log = pre ++ .cmd (BR.increfs.code k.io) d :: post)
    (hr : (x.run k W f).Returned ∨ ∃ e ∈ post, e.command ≠ none) :
    written k.io (upToCommand post) = [encode (BC.increfsDone.code k.io, d)] := by
  have h := call_response hl hr
  rw [← written_acts]
  revert h
  generalize acts k.io (upToCommand post) = a
  intro h
  cases h with
  | oneway hc _ _ _ => exact absurd (BR.code_inj hc) (by decide)
  | twoway hc _ _ _ _ => exact absurd (BR.code_inj hc) (by decide)
  | increfs hc h1 =>
    have h2 : response? k.io (.increfs (target k.io d)) = none := rfl
    simp [written, written_ack h1, h2]
  | increfsUnknown hc h1 => simp [written, written_ack h1]
  | acquire hc => exact absurd (BR.code_inj hc) (by decide)
  | acquireUnknown hc _ => exact absurd (BR.code_inj hc) (by decide)
  | death hc => exact absurd (BR.code_inj hc) (by decide)
  | deathUnknown hc _ => exact absurd (BR.code_inj hc) (by decide)
  | other _ hc _ _ => exact absurd rfl hc

/-- BR_ACQUIRE is either passed to the object with that pointer, or answered if there is none. -/
theorem C24_acquire {k : Cfg} {W : World} {f : Nat} {x : Call} {pre post : List Ev} {d : Bytes}
    (hl : (x.run k W f).log = pre ++ .cmd (BR.acquire.code k.io) d :: post)
    (hr : (x.run k W f).Returned ∨ ∃ e ∈ post, e.command ≠ none) :
    (written k.io (upToCommand post) = [encode (BC.acquireDone.code k.io, d)] ∧
      ∀ p, .acquire p ∉ upToCommand post) ∨
    (written k.io (upToCommand post) = [] ∧
      acts k.io (upToCommand post) = [.acquire (target k.io d)]) := by
  have h := call_response hl hr
  rw [← written_acts]
  have hm : ∀ p, .acquire p ∈ upToCommand post → .acquire p ∈ acts k.io (upToCommand post) :=
    fun p hp => List.mem_filter.2 ⟨hp, rfl⟩
  revert h hm
  generalize acts k.io (upToCommand post) = a
  intro h hm
  cases h with
  | oneway hc _ _ _ => exact absurd (BR.code_inj hc) (by decide)
  | twoway hc _ _ _ _ => exact absurd (BR.code_inj hc) (by decide)
  | increfs hc h1 => exact absurd (BR.code_inj hc) (by decide)
  | increfsUnknown hc h1 => exact absurd (BR.code_inj hc) (by decide)
  | acquire hc => exact .inr ⟨rfl, rfl⟩
  | acquireUnknown hc h1 =>
    left
    refine ⟨by simp [written, written_ack h1], fun p hp => ?_⟩
    have := hm p hp
    simp at this
  | death hc => exact absurd (BR.code_inj hc) (by decide)
  | deathUnknown hc _ => exact absurd (BR.code_inj hc) (by decide)
  | other _ _ hc _ => exact absurd rfl hc

/-- BR_DEAD_BINDER is either passed to the object with that handle, or answered if there is none. -/
theorem C24_deadBinder {k : Cfg} {W : World} {f : Nat} {x : Call} {pre post : List Ev} {d : Bytes}
    (hl : (x.run k W f).log = pre ++ .cmd (BR.deadBinder.code k.io) d :: post)
    (hr : (x.run k W f).Returned ∨ ∃ e ∈ post, e.command ≠ none) :
    (written k.io (upToCommand post) = [encode (BC.deadBinderDone.code k.io, d)] ∧
      ∀ p, .death p ∉ upToCommand post) ∨
    (written k.io (upToCommand post) = [] ∧
      acts k.io (upToCommand post) = [.death (target k.io d % 2 ^ 32)]) := by
  have h := call_response hl hr
  rw [← written_acts]
  have hm : ∀ p, .death p ∈ upToCommand post → .death p ∈ acts k.io (upToCommand post) :=
    fun p hp => List.mem_filter.2 ⟨hp, rfl⟩
  revert h hm
  generalize acts k.io (upToCommand post) = a
  intro h hm
  cases h with
  | oneway hc _ _ _ => exact absurd (BR.code_inj hc) (by decide)
  | twoway hc _ _ _ _ => exact absurd (BR.code_inj hc) (by decide)
  | increfs hc h1 => exact absurd (BR.code_inj hc) (by decide)
  | increfsUnknown hc h1 => exact absurd (BR.code_inj hc) (by decide)
  | acquire hc => exact absurd (BR.code_inj hc) (by decide)
  | acquireUnknown hc h1 => exact absurd (BR.code_inj hc) (by decide)
  | death hc => exact .inr ⟨rfl, rfl⟩
  | deathUnknown hc h1 =>
    left
    refine ⟨by simp [written, written_ack h1], fun p hp => ?_⟩
    have := hm p hp
    simp at this
  | other _ _ _ hc => exact absurd rfl hc

/-- And nothing else is answered like that (see C21 for BR_TRANSACTION). -/
theorem C24_other {k : Cfg} {W : World} {f : Nat} {x : Call} {pre post : List Ev} {c : Nat} {d : Bytes}
    (hl : (x.run k W f).log = pre ++ .cmd c d :: post)
    (hr : (x.run k W f).Returned ∨ ∃ e ∈ post, e.command ≠ none)
    (h1 : c ≠ BR.transaction.code k.io) (h2 : c ≠ BR.increfs.code k.io)
    (h3 : c ≠ BR.acquire.code k.io) (h4 : c ≠ BR.deadBinder.code k.io) :
    written k.io (upToCommand post) = [] := by
  have h := call_response hl hr
  rw [← written_acts]
  revert h
  generalize acts k.io (upToCommand post) = a
  intro h
  cases h <;> first | contradiction | rfl

/-- BR_RELEASE and BR_DECREFS aren't answered. The references are dropped when the call is over, after
everything else (so that an object isn't gone before the transactions which come with these commands
have been handled): one for each command which names an object that exists, in the order of the
commands, and no others. -/
theorem C24_dropped {k : Cfg} {W : World} {f : Nat} {x : Call} (hr : (x.run k W f).Returned) :
    ∃ l, (x.run k W f).log = l ++ (dues W k.io l).map dropped ∧ ∀ e ∈ l, e.drops = false := by
  have h := call_paid (c := k) (W := W) x f
  revert h hr
  cases x.run k W f with
  | done a s => exact fun _ h => h
  | stop w s => exact fun hr _ => hr.elim

/-- And an unfinished call hasn't dropped any. -/
theorem C24_not_yet {k : Cfg} {W : World} {f : Nat} {x : Call} (hr : ¬(x.run k W f).Returned) :
    ∀ e ∈ (x.run k W f).log, e.drops = false := by
  have h := call_paid (c := k) (W := W) x f
  revert h hr
  cases x.run k W f with
  | done a s => exact fun hr => absurd trivial hr
  | stop w s => exact fun _ h => h

/-! ### Objects -/

/-- Each BR_ACQUIRE passed to a local object is acknowledged once, or will be as soon as the
callbacks scheduled on the main thread have been called: the number of BC_ACQUIRE_DONE sent and the
number of callbacks still waiting add up to the number of BR_ACQUIRE. -/
theorem C24_local {s : LocalObj.State} (h : Reach LocalObj.step {} s) (q : Nat) :
    LocalObj.count (.handled .acquire q) s.log = LocalObj.count (.ack q) s.log +
      s.tasks.countP (fun t => decide (t.kind = .acquire ∧ t.obj = q)) :=
  (LocalObj.log_reach h q).acks

/-- The acknowledgement has the pointer and the cookie which the kernel has sent (the kernel knows
the object by its address and zero cookie, see C19). -/
theorem C24_same (io : Io) (obj : Nat) (d : Bytes)
    (hd : d = leBytes io.ptrSize obj ++ leBytes io.ptrSize 0) :
    acquireDoneCommand io obj = encode (BC.acquireDone.code io, d) := by
  subst hd; rfl

/-- Each BR_DEAD_BINDER passed to a remote object is acknowledged once, or will be as soon as the
callbacks scheduled on the main thread have been called, unless the callback finds out that the
object is already dead. -/
theorem C24_remote_partial {s : RemoteObj.State} (h : Reach RemoteObj.step {} s) (q : Nat) :
    RemoteObj.count (.handled q) s.log =
      RemoteObj.sent q .deadDone s.log + RemoteObj.count (.skipped q) s.log +
      s.tasks.countP (fun t => decide (t = ⟨q, false⟩)) +
      s.killing.countP (fun t => decide (t = ⟨q, true⟩)) :=
  (RemoteObj.log_reach h q).notif

/-- No notification gets lost on its way to the objects: the number of notifications sent by the kernel
is the number of those which haven't been handled yet, those for which the object has been found, those
acknowledged because there's no object, and those passed to an object (`C24_remote_partial`). -/
theorem C24_delivered {s : RemoteObj.State} {ls : List RemoteObj.Label}
    (h : exec RemoteObj.step {} ls = .ok s) :
    ls.countP (fun | .deadBinder _ => true | _ => false) = s.incoming.length + s.found.length +
      s.log.countP (fun | .unknown _ => true | .handled _ => true | _ => false) := by
  have := RemoteObj.deaths_exec h
  have h1 : RemoteObj.State.deaths {} = 0 := rfl
  rw [h1, Nat.zero_add] at this
  exact this.symm

example : (exec RemoteObj.step {} [.lookup 5 .acquired 7, .deadBinder 5, .unref 7, .dispose 7, .settle 7,
    .invalidate 7, .free 7, .deliver 5 7]).holds (fun s => s.log.contains (.unknown 5)) = true := by decide +kernel

/-- The cookie is the handle, which is what was registered. -/
theorem C24_same_remote (io : Io) (h : Nat) (d : Bytes) (hd : d = leBytes io.ptrSize h) :
    deadBinderDoneCommand io h = encode (BC.deadBinderDone.code io, d) := by
  subst hd; rfl

/-- There is no BC_DEAD_BINDER_DONE if the object commits suicide (because a transaction has failed
with BR_DEAD_REPLY) before the callback is called. The kernel keeps the notification in its list of
delivered notifications then. -/
theorem C24_fails : (exec RemoteObj.step {} [.lookup 5 .acquired 7, .deadBinder 5, .deliver 5 7,
    .notify 7, .suicide 7, .vanish 7, .run 7, .done 7]).holds (fun s =>
      RemoteObj.count (.handled 7) s.log == 1 && RemoteObj.sent 7 .deadDone s.log == 0 &&
      s.tasks == [] && s.killing == []) = true := by decide +kernel

/-! ### Examples -/

/-- Increfs and acquire for an existing object (16) and for one which doesn't exist (20), the death
of something unknown, split across reads. -/
def demo : List (Nat × Bytes) :=
  [(BR.increfs.code .io32, leBytes 4 16 ++ leBytes 4 0),
   (BR.acquire.code .io32, leBytes 4 16 ++ leBytes 4 0),
   (BR.increfs.code .io32, leBytes 4 20 ++ leBytes 4 0),
   (BR.acquire.code .io32, leBytes 4 20 ++ leBytes 4 0),
   (BR.deadBinder.code .io32, leBytes 4 3)]

def demoRun : Run Unit :=
  let b := demo.flatMap encode
  Call.read.run ⟨.io32, .aidl⟩ (C20.scripted .io32 [] [b.take 30, b.drop 30]) 40

example : (match demoRun with | .done _ _ => true | _ => false) = true ∧
    commands demoRun.log = demo ∧ written .io32 demoRun.log =
      [encode (BC.increfsDone.code .io32, leBytes 4 16 ++ leBytes 4 0),
       encode (BC.increfsDone.code .io32, leBytes 4 20 ++ leBytes 4 0),
       encode (BC.acquireDone.code .io32, leBytes 4 20 ++ leBytes 4 0),
       encode (BC.deadBinderDone.code .io32, leBytes 4 3)] := by decide +kernel

/-- The references to an existing object (16) are dropped at the end. -/
example : let b := [(BR.release.code .io32, leBytes 4 16 ++ leBytes 4 0),
      (BR.release.code .io32, leBytes 4 20 ++ leBytes 4 0),
      (BR.decrefs.code .io32, leBytes 4 16 ++ leBytes 4 0),
      (BR.increfs.code .io32, leBytes 4 16 ++ leBytes 4 0)].flatMap encode
    let r := Call.read.run ⟨.io32, .aidl⟩ (C20.scripted .io32 [] [b.take 20, b.drop 20]) 40
    (match r with | .done _ _ => true | _ => false) = true ∧
    r.log.filter Ev.drops = [.release 16, .decrefs 16] ∧
    r.log.drop (r.log.length - 2) = [.release 16, .decrefs 16] := by decide +kernel

/-- A call which doesn't return because the kernel has nothing for it. -/
example : ¬(Call.read.run ⟨.io32, .aidl⟩ (C20.scripted .io32 [] []) 40).Returned := by
  have h : (match Call.read.run ⟨.io32, .aidl⟩ (C20.scripted .io32 [] []) 40 with
    | .done _ _ => false | _ => true) = true := by decide +kernel
  revert h
  cases Call.read.run ⟨.io32, .aidl⟩ (C20.scripted .io32 [] []) 40 <;> simp [Run.Returned]

/-- An object acquired twice. -/
example : (exec LocalObj.step {} [.new 7, .getLocal 7, .handle .acquire 7, .put 7, .getLocal 7,
    .handle .acquire 7, .put 7, .run ⟨.acquire, 7, false⟩, .done ⟨.acquire, 7, true⟩]).holds (fun s =>
      LocalObj.count (.handled .acquire 7) s.log == 2 && LocalObj.count (.ack 7) s.log == 1 &&
      s.tasks.length == 1) = true := by decide +kernel

/-- The notification has been handled and acknowledged. -/
example : (exec RemoteObj.step {} [.lookup 5 .acquired 7, .deadBinder 5, .deliver 5 7,
    .notify 7, .run 7, .bury 7, .done 7]).holds (fun s =>
      RemoteObj.count (.handled 7) s.log == 1 && RemoteObj.sent 7 .deadDone s.log == 1 &&
      RemoteObj.count (.skipped 7) s.log == 0) = true := by decide +kernel

end Gb.C24
