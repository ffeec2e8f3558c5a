import Verif.Lemmas.Waits
import Verif.Props.C20
/-
C72. Calls return.

A call which sends a transaction returns when the kernel has said how the transaction has ended; a call which reads commands
returns when those which have been delivered are handled. In between they wait for the kernel, and don't go on and on without
it. `track` (Spec/Status.lean) finds out how the transaction has ended, and whether one of the transactions which have been
received in the meantime is being replied to.
-/
set_option autoImplicit false

namespace Gb.C72
open Driver

theorem whole_of {s : St} (hs : Stream s) (hn : nextCommand s = none) {cmds : List (Nat × Bytes)}
    (hc : ∀ x ∈ cmds, WellFormed x) (hd : delivered s.log = cmds.flatMap encode) :
    commands s.log = cmds ∧ s.buf.drop s.off = [] := by
  have h1 := all_of_none hs hn hc (by rw [hd]; exact List.prefix_refl _)
  have h2 := hs.prefix hc (by rw [hd]; exact List.prefix_refl _)
  have h3 := List.IsPrefix.eq_of_length h2 (Nat.le_antisymm h2.length_le h1.length_le)
  refine ⟨h3, ?_⟩
  have h4 := hs.eq
  rw [hd, h3] at h4
  exact List.append_cancel_left (by rw [List.append_nil]; exact h4.symm)

/-- gbinder_driver_transact waits for the kernel, but not until a reply of its own is handled. Then everything that the
kernel has delivered has been acted upon, and the kernel hasn't said how the transaction has ended. Proved for the answers
which the library knows of; there are others, see `C72_fails_frozen` and `C72_fails_error`. -/
theorem C72_waits_partial {k : Cfg} {W : World} (hW : W.Prompt) {f handle code : Nat} {req : Writer} {reply : Bool} {s : St}
    (h : transact k W f handle code req reply {} = .stop .blocked s) (h0 : (track k.io reply s.log).depth = 0)
    {cmds : List (Nat × Bytes)} (hc : ∀ x ∈ cmds, WellFormed x) (hd : delivered s.log = cmds.flatMap encode) :
    commands s.log = cmds ∧ (track k.io reply s.log).ended = none := by
  have h1 := blk_transact hW (k := k) (f := f) (handle := handle) (code := code) (req := req) (reply := reply) St.fresh
  have h2 := transact_judged (c := k) (W := W) (f := f) (handle := handle) (code := code) (req := req) (reply := reply) St.fresh
  rw [h] at h1 h2
  rcases h1 with h1 | ⟨hn, h1⟩
  · exact absurd h1 (by unfold Nested; omega)
  · obtain ⟨h3, h4⟩ := whole_of h2 hn hc hd
    refine ⟨h3, ?_⟩
    rcases h1 with h1 | ⟨_, hb, ho⟩
    · rw [h1]
    · rw [ho] at h4
      exact absurd h4 hb

/-- gbinder_driver_read waits for the kernel, but not until a reply is handled. Then the kernel hasn't delivered anything
yet. -/
theorem C72_idle {k : Cfg} {W : World} (hW : W.Prompt) {f : Nat} {s : St}
    (h : Driver.read k W f {} = .stop .blocked s) (h0 : (track k.io false s.log).depth = 0)
    {cmds : List (Nat × Bytes)} (hc : ∀ x ∈ cmds, WellFormed x) (hd : delivered s.log = cmds.flatMap encode) :
    cmds = [] := by
  have h1 := blk_read hW (k := k) (f := f) St.fresh
  have h2 := read_drained (c := k) (W := W) (f := f) St.fresh
  rw [h] at h1 h2
  rcases h1 with h1 | ⟨hn, ho, h1⟩
  · exact absurd h1 (by unfold Nested; omega)
  · obtain ⟨h3, h4⟩ := whole_of h2 hn hc hd
    rcases h1 with h1 | h1
    · rw [h1] at hd
      cases cmds with
      | nil => rfl
      | cons x xs => simp [encode, leBytes] at hd
    · rw [ho] at h4
      exact absurd h4 h1

theorem not_spins {α : Type} {r : Run α} (h : r.Fuelled) : r.spins = false := by
  cases r with
  | done a s => rfl
  | stop w s => cases w <;> first | rfl | exact h.elim

/-- If the kernel has something to say no more than `n` times then the call either returns or waits for the kernel: the library doesn't
go on and on without it. -/
theorem C72_transact_steps {k : Cfg} {W : World} {n m : Nat} (hW : W.Stops n m) {f handle code : Nat} {req : Writer} {reply : Bool}
    (hf : 200 * n + m + 4 ≤ f) : (transact k W f handle code req reply {}).spins = false :=
  not_spins (fuelled_transact (n := (n, m)) hW St.fresh hf)

theorem C72_read_steps {k : Cfg} {W : World} {n m : Nat} (hW : W.Stops n m) {f : Nat} (hf : 200 * n + m + 4 ≤ f) :
    (Driver.read k W f {}).spins = false :=
  not_spins (fuelled_read (n := (n, m)) hW St.fresh hf)

/-- Together: if the kernel has delivered a number of commands, and these say how the transaction has ended and that the
replies which have been sent have been handled, then the call has returned (unless the kernel has delivered garbage). -/
theorem C72_returns_partial {k : Cfg} {W : World} (hW : W.Prompt) {n m : Nat} (hn : W.Stops n m) {f handle code : Nat}
    {req : Writer} {reply : Bool} (hf : 200 * n + m + 4 ≤ f) {cmds : List (Nat × Bytes)} (hc : ∀ x ∈ cmds, WellFormed x)
    (hd : delivered (transact k W f handle code req reply {}).log = cmds.flatMap encode)
    {x : List Ev × Ev} (ht : track k.io reply (transact k W f handle code req reply {}).log = { ended := some x }) :
    (∃ st s, transact k W f handle code req reply {} = .done st s) ∨
    ∃ e s, transact k W f handle code req reply {} = .stop (.ub e) s := by
  have h1 := C72_transact_steps (k := k) hn (handle := handle) (code := code) (req := req) (reply := reply) hf
  cases hr : transact k W f handle code req reply {} with
  | done st s => exact .inl ⟨st, s, rfl⟩
  | stop w s =>
    cases w with
    | ub e => exact .inr ⟨e, s, rfl⟩
    | fuel => rw [hr] at h1; cases h1
    | blocked =>
      rw [hr] at hd ht
      simp only [Run.log] at hd ht
      have := (C72_waits_partial hW hr (by rw [ht]) hc hd).2
      rw [ht] at this
      cases this

/-- The same for gbinder_driver_read: it returns once something has been delivered, and replies have been handled. -/
theorem C72_read_returns {k : Cfg} {W : World} (hW : W.Prompt) {n m : Nat} (hn : W.Stops n m) {f : Nat}
    (hf : 200 * n + m + 4 ≤ f) {cmds : List (Nat × Bytes)} (hc : ∀ x ∈ cmds, WellFormed x) (hne : cmds ≠ [])
    (hd : delivered (Driver.read k W f {}).log = cmds.flatMap encode)
    (ht : (track k.io false (Driver.read k W f {}).log).depth = 0) :
    (∃ r s, Driver.read k W f {} = .done r s) ∨ ∃ e s, Driver.read k W f {} = .stop (.ub e) s := by
  have h1 := C72_read_steps (k := k) hn hf
  cases hr : Driver.read k W f {} with
  | done st s => exact .inl ⟨st, s, rfl⟩
  | stop w s =>
    cases w with
    | ub e => exact .inr ⟨e, s, rfl⟩
    | fuel => rw [hr] at h1; cases h1
    | blocked =>
      rw [hr] at hd ht
      simp only [Run.log] at hd ht
      exact absurd (C72_idle hW hr ht hc hd) hne

/-! ### Examples -/

theorem scripted_prompt {io : Io} {m : Mem} {reads : List Bytes} : (C20.scripted io m reads).Prompt := by
  intro l w h
  simp [C20.scripted] at h

theorem scripted_stops {io : Io} {m : Mem} {reads : List Bytes} : (C20.scripted io m reads).Stops reads.length 0 := by
  refine ⟨fun l w r h => ?_, fun l w _ h => by simp [C20.scripted] at h⟩
  simp only [Driver.reads, List.countP_eq_length_filter] at h
  have h1 := List.getElem?_eq_none h
  show Option.map _ reads[_]? = none
  exact Option.map_eq_none_iff.2 h1

/-- BR_TRANSACTION_COMPLETE and an incoming transaction; what follows is about the reply; the transaction itself has failed. -/
def answers : List (Nat × Bytes) :=
  [(BR.transactionComplete.code .io32, []),
   (BR.transaction.code .io32, ({ target := 16, code := 1 } : TxHeader).bytes .io32),
   (BR.transactionComplete.code .io32, []),
   (BR.failedReply.code .io32, [])]

/-- The first reads give that much of the commands. -/
def reading (cmds : List (Nat × Bytes)) : List (List (Nat × Bytes)) → World := fun parts =>
  C20.scripted .io32 [] ((parts ++ [cmds]).map fun p => p.flatMap encode)

/-- At first it waits for the end of the transaction, then it returns. -/
example : (transact ⟨.io32, .aidl⟩ (reading [] []) 60 1 2 { io := .io32, protocol := .aidl } true {}).waits ∧
    (transact ⟨.io32, .aidl⟩ (reading (answers.take 1) []) 60 1 2 { io := .io32, protocol := .aidl } true {}).waits ∧
    (transact ⟨.io32, .aidl⟩ (reading ((answers.drop 2).take 1) [answers.take 2]) 60 1 2
      { io := .io32, protocol := .aidl } true {}).waits ∧
    ¬(transact ⟨.io32, .aidl⟩ (reading (answers.drop 2) [answers.take 2]) 60 1 2
      { io := .io32, protocol := .aidl } true {}).waits := by
  decide +kernel

example : ∃ s, transact ⟨.io32, .aidl⟩ (reading ((answers.drop 2).take 1) [answers.take 2]) 60 1 2
      { io := .io32, protocol := .aidl } true {} = .stop .blocked s ∧ (track .io32 true s.log).depth = 0 ∧
      delivered s.log = (answers.take 3).flatMap encode ∧ (∀ x ∈ answers.take 3, WellFormed x) := by
  refine ⟨(match transact ⟨.io32, .aidl⟩ (reading ((answers.drop 2).take 1) [answers.take 2]) 60 1 2
      { io := .io32, protocol := .aidl } true {} with
      | .done _ s => s | .stop _ s => s), ?_⟩
  decide +kernel

example : ∃ s, Driver.read ⟨.io32, .aidl⟩ (C20.scripted .io32 [] []) 60 {} = .stop .blocked s ∧
    (track .io32 false s.log).depth = 0 ∧ delivered s.log = ([] : List (Nat × Bytes)).flatMap encode := by
  refine ⟨(match Driver.read ⟨.io32, .aidl⟩ (C20.scripted .io32 [] []) 60 {} with
      | .done _ s => s | .stop _ s => s), ?_⟩
  decide +kernel

/-- The hypotheses of `C72_returns_partial`. -/
example : ∃ (W : World) (n m f : Nat) (x : List Ev × Ev), W.Prompt ∧ W.Stops n m ∧ 200 * n + m + 4 ≤ f ∧
    (∀ x ∈ answers, WellFormed x) ∧
    delivered (transact ⟨.io32, .aidl⟩ W f 1 2 { io := .io32, protocol := .aidl } true {}).log = answers.flatMap encode ∧
    track .io32 true (transact ⟨.io32, .aidl⟩ W f 1 2 { io := .io32, protocol := .aidl } true {}).log = { ended := some x } := by
  refine ⟨reading (answers.drop 2) [answers.take 2], 2, 0, 404,
    (track .io32 true (transact ⟨.io32, .aidl⟩ (reading (answers.drop 2) [answers.take 2]) 404 1 2
      { io := .io32, protocol := .aidl } true {}).log).ended.getD ([], .own 0), scripted_prompt, scripted_stops,
    by decide, by decide +kernel, by decide +kernel, by decide +kernel⟩

/-- The hypotheses of `C72_read_returns`. -/
example : ∃ (W : World) (n m f : Nat), W.Prompt ∧ W.Stops n m ∧ 200 * n + m + 4 ≤ f ∧
    (∀ x ∈ answers.take 3, WellFormed x) ∧
    delivered (Driver.read ⟨.io32, .aidl⟩ W f {}).log = (answers.take 3).flatMap encode ∧
    (track .io32 false (Driver.read ⟨.io32, .aidl⟩ W f {}).log).depth = 0 := by
  refine ⟨reading ((answers.drop 2).take 1) [answers.take 2], 2, 0, 404, scripted_prompt, scripted_stops,
    by decide, by decide +kernel, by decide +kernel, by decide +kernel⟩

/-! ### Answers which aren't recognised -/

/-- BR_FROZEN_REPLY of include/uapi/linux/android/binder.h, `_IO('r', 18)`: the target is frozen. The transaction hasn't been
delivered. -/
def frozenReply : Nat := ioc 0 0x72 18 0

/-- BR_TRANSACTION_PENDING_FROZEN, `_IO('r', 20)`: the same for one-way transactions, which will be delivered later. It comes
instead of BR_TRANSACTION_COMPLETE. -/
def pendingFrozen : Nat := ioc 0 0x72 20 0

/-- The kernel has said that the target is frozen; the library goes on waiting for the reply. -/
theorem C72_fails_frozen : ∃ (W : World) (s : St), W.Prompt ∧
    transact ⟨.io32, .aidl⟩ W 60 1 2 { io := .io32, protocol := .aidl } true {} = .stop .blocked s ∧
    commands s.log = [(frozenReply, [])] ∧ delivered s.log = encode (frozenReply, []) := by
  refine ⟨C20.scripted .io32 [] [encode (frozenReply, [])],
    (match transact ⟨.io32, .aidl⟩ (C20.scripted .io32 [] [encode (frozenReply, [])]) 60 1 2
      { io := .io32, protocol := .aidl } true {} with
      | .done _ s => s | .stop _ s => s), scripted_prompt, ?_⟩
  decide +kernel

/-- The same for one-way transactions. -/
theorem C72_fails_pending : ∃ (W : World) (s : St), W.Prompt ∧
    transact ⟨.io32, .aidl⟩ W 60 1 2 { io := .io32, protocol := .aidl } false {} = .stop .blocked s ∧
    commands s.log = [(pendingFrozen, [])] ∧ delivered s.log = encode (pendingFrozen, []) := by
  refine ⟨C20.scripted .io32 [] [encode (pendingFrozen, [])],
    (match transact ⟨.io32, .aidl⟩ (C20.scripted .io32 [] [encode (pendingFrozen, [])]) 60 1 2
      { io := .io32, protocol := .aidl } false {} with
      | .done _ s => s | .stop _ s => s), scripted_prompt, ?_⟩
  decide +kernel

/-- BR_ERROR is among the commands which the library knows of (binder.h:160), but it's ignored. -/
theorem C72_fails_error : ∃ (W : World) (s : St), W.Prompt ∧
    transact ⟨.io32, .aidl⟩ W 60 1 2 { io := .io32, protocol := .aidl } true {} = .stop .blocked s ∧
    commands s.log = [(BR.error.code .io32, leBytes 4 22)] := by
  refine ⟨C20.scripted .io32 [] [encode (BR.error.code .io32, leBytes 4 22)],
    (match transact ⟨.io32, .aidl⟩ (C20.scripted .io32 [] [encode (BR.error.code .io32, leBytes 4 22)]) 60 1 2
      { io := .io32, protocol := .aidl } true {} with
      | .done _ s => s | .stop _ s => s), scripted_prompt, ?_⟩
  decide +kernel

end Gb.C72
