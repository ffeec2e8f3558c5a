import Verif.Model.Nested
import Verif.Lemmas.Duties
import Verif.Lemmas.DriverStream
/-
C90. What a thread does about commands of the kernel in Model/Nested (where they are about calls) is what it does in Model/Driver
(where they consist of bytes).
-/
set_option autoImplicit false

namespace Gb.C90
open Nested

/-- The command of the kernel. -/
def IsCode (io : Io) : Work → Nat → Prop
  | .complete, c => c = Driver.BR.transactionComplete.code io
  | .transaction _, c => c = Driver.BR.transaction.code io
  | .reply _, c => c = Driver.BR.reply.code io
  | .error _, c => c = Driver.BR.deadReply.code io ∨ c = Driver.BR.failedReply.code io

/-- Whether gbinder_driver_txstatus is called with a reply by the thread which is waiting. -/
def waiting : Frame → Option Bool
  | .call _ => some true
  | .oneway | .replied => some false
  | .handle _ => none

/-- The status with which waiting ends: it isn't the one which means that there's more to wait for. -/
def Ended (r : Driver.Run Int) : Prop := ∀ st s, r = .done st s → st ≠ -(Driver.EAGAIN : Int)

theorem freeBuffer_ended {c : Driver.Cfg} {W : Driver.World} {f a n : Nat} {p : Prop} [Decidable p] {s s1 : Driver.St} :
    Ended ((if p then .done () s1 else Driver.freeBuffer W c.io f a s).bind fun _ s =>
      .done (Driver.filterStatus n) (Driver.compact s)) := by
  intro st s' h
  generalize (if p then Driver.Run.done () s1 else Driver.freeBuffer W c.io f a s) = r at h
  cases r with
  | done a s2 =>
    simp only [Driver.Run.bind, Driver.Run.done.injEq] at h
    rw [← h.1]
    exact (Driver.filterStatus_ne n).1
  | stop w s2 => simp [Driver.Run.bind] at h

/-- C90: Model/Nested and Model/Driver agree about the next command which a waiting thread gets. Either that's what it has been
waiting for; or it handles the transaction, and then goes on waiting; or it just goes on waiting. -/
theorem C90_driver (c : Driver.Cfg) (W : Driver.World) (t n : Nat) (s : Driver.St) {fr : Frame} {fs : List Frame} {w : Work}
    {reply : Bool} {cmd : Nat} {data : Bytes} (hw : waiting fr = some reply) (hn : Driver.nextCommand s = some (cmd, data))
    (hc : IsCode c.io w cmd) :
    ((react t (fr :: fs) w).1 = fs ∧ Ended (Driver.txstatus c W (n + 1) reply s)) ∨
    (∃ i, (react t (fr :: fs) w).1 = .handle i :: fr :: fs ∧ w = .transaction i ∧
      Driver.txstatus c W (n + 2) reply s = (Driver.handleTransaction c W n data (s.swallow cmd data)).bind
        fun _ s => Driver.txstatus c W (n + 1) reply s) ∨
    ((react t (fr :: fs) w).1 = fr :: fs ∧ w = .complete ∧
      Driver.txstatus c W (n + 1) reply s = Driver.txstatus c W n reply (s.swallow cmd data)) := by
  have ne {a b : Driver.BR} (h : a ≠ b) : ¬ a.code c.io = b.code c.io := Driver.BR.code_ne h
  cases w with
  | complete =>
    simp only [IsCode] at hc
    subst hc
    cases fr with
    | handle i => cases hw
    | call k =>
      simp only [waiting, Option.some.injEq] at hw
      subst hw
      exact .inr (.inr ⟨rfl, rfl, by rw [Driver.txstatus, hn]; simp⟩)
    | oneway | replied =>
      simp only [waiting, Option.some.injEq] at hw
      subst hw
      refine .inl ⟨rfl, ?_⟩
      intro st s' h
      rw [Driver.txstatus, hn] at h
      simp only [↓reduceIte, Bool.false_eq_true, Driver.Run.done.injEq] at h
      rw [← h.1]
      decide
  | error i =>
    refine .inl ⟨by (cases fr <;> first | rfl | cases hw), ?_⟩
    intro st s' h
    rw [Driver.txstatus, hn] at h
    rcases hc with hc | hc <;> subst hc <;>
      simp [ne (a := .deadReply) (b := .transactionComplete) (by decide), ne (a := .failedReply) (b := .transactionComplete) (by decide),
        ne (a := .failedReply) (b := .deadReply) (by decide)] at h <;> rw [← h.1] <;> decide
  | reply i =>
    refine .inl ⟨by (cases fr <;> first | rfl | cases hw), ?_⟩
    simp only [IsCode] at hc
    subst hc
    rw [Driver.txstatus, hn]
    simp only [ne (a := .reply) (b := .transactionComplete) (by decide), ne (a := .reply) (b := .deadReply) (by decide),
      ne (a := .reply) (b := .failedReply) (by decide), if_false, if_true]
    split
    · intro st s' h; cases h
    · exact freeBuffer_ended
  | transaction i =>
    refine .inr (.inl ⟨i, by (cases fr <;> first | rfl | cases hw), rfl, ?_⟩)
    simp only [IsCode] at hc
    subst hc
    rw [Driver.txstatus, hn]
    simp only [ne (a := .transaction) (b := .transactionComplete) (by decide), ne (a := .transaction) (b := .deadReply) (by decide),
      ne (a := .transaction) (b := .failedReply) (by decide), ne (a := .transaction) (b := .reply) (by decide), if_false]
    rw [Driver.handleCommand]
    simp only [ne (a := .transaction) (b := .increfs) (by decide), ne (a := .transaction) (b := .decrefs) (by decide),
      ne (a := .transaction) (b := .acquire) (by decide), ne (a := .transaction) (b := .release) (by decide), if_false, if_true]

theorem handleCommand_other {c : Driver.Cfg} {W : Driver.World} {n : Nat} {s : Driver.St} {cmd : Nat} {data : Bytes}
    (h : ∀ b ∈ [Driver.BR.increfs, .decrefs, .acquire, .release, .transaction, .deadBinder], cmd ≠ b.code c.io) :
    Driver.handleCommand c W (n + 1) cmd data s = .done () s := by
  rw [Driver.handleCommand, if_neg (h .increfs (by decide)), if_neg (h .decrefs (by decide)), if_neg (h .acquire (by decide)),
    if_neg (h .release (by decide)), if_neg (h .transaction (by decide)), if_neg (h .deadBinder (by decide))]

theorem handleCommand_transaction {c : Driver.Cfg} {W : Driver.World} {n : Nat} {s : Driver.St} {data : Bytes} :
    Driver.handleCommand c W (n + 1) (Driver.BR.transaction.code c.io) data s = Driver.handleTransaction c W n data s := by
  rw [Driver.handleCommand, if_neg (Driver.BR.code_ne (by decide)), if_neg (Driver.BR.code_ne (by decide)),
    if_neg (Driver.BR.code_ne (by decide)), if_neg (Driver.BR.code_ne (by decide)), if_pos rfl]

theorem handleCommands_next {c : Driver.Cfg} {W : Driver.World} {n : Nat} {s : Driver.St} {cmd : Nat} {data : Bytes}
    (hn : Driver.nextCommand s = some (cmd, data)) :
    Driver.handleCommands c W (n + 1) s = (Driver.handleCommand c W n cmd data (s.swallow cmd data)).bind
      fun _ s => Driver.handleCommands c W n s := by
  rw [Driver.handleCommands, hn]

/-- C90: the same for a thread which isn't waiting for anything: transactions are handled, other commands about calls are ignored. -/
theorem C90_driver_idle (c : Driver.Cfg) (W : Driver.World) (t n : Nat) (s : Driver.St) {w : Work} {cmd : Nat} {data : Bytes}
    (hn : Driver.nextCommand s = some (cmd, data)) (hc : IsCode c.io w cmd) :
    (∃ i, (react t [] w).1 = [.handle i] ∧ w = .transaction i ∧
      Driver.handleCommands c W (n + 2) s = (Driver.handleTransaction c W n data (s.swallow cmd data)).bind
        fun _ s => Driver.handleCommands c W (n + 1) s) ∨
    ((react t [] w).1 = [] ∧ Driver.handleCommands c W (n + 2) s = Driver.handleCommands c W (n + 1) (s.swallow cmd data)) := by
  have other {b : Driver.BR} (h : cmd = b.code c.io) (hb : b ∈ [Driver.BR.transactionComplete, .reply, .deadReply, .failedReply]) :
      Driver.handleCommands c W (n + 2) s = Driver.handleCommands c W (n + 1) (s.swallow cmd data) := by
    rw [handleCommands_next hn, handleCommand_other, Driver.Run.bind]
    intro a ha he
    have := Driver.BR.code_inj (h.symm.trans he)
    subst this
    revert ha hb
    clear h he
    cases b <;> decide
  cases w with
  | complete => exact .inr ⟨rfl, other hc (by decide)⟩
  | reply i => exact .inr ⟨rfl, other hc (by decide)⟩
  | error i => exact .inr ⟨rfl, hc.elim (fun h => other h (by decide)) fun h => other h (by decide)⟩
  | transaction i =>
    refine .inl ⟨i, rfl, rfl, ?_⟩
    rw [handleCommands_next hn, hc, handleCommand_transaction]

/-- There are such commands: what the kernel has stored is BR_TRANSACTION_COMPLETE (of either size of pointers) or BR_DEAD_REPLY. -/
example : Driver.nextCommand { buf := leBytes 4 0x7206 } = some (0x7206, []) ∧ IsCode .io64 .complete 0x7206 ∧
    IsCode .io32 .complete 0x7206 ∧ Driver.nextCommand { buf := leBytes 4 0x7205 } = some (0x7205, []) ∧
    IsCode .io64 (.error (some 1)) 0x7205 ∧ waiting (.call 1) = some true := by
  unfold IsCode Driver.nextCommand Driver.iocSize Driver.BR.code
  decide +kernel

end Gb.C90
