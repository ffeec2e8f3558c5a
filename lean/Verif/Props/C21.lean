import Verif.Lemmas.Duties
import Verif.Lemmas.TxFlags
import Verif.Props.C20
/-
C21: for each incoming transaction without the ONEWAY flag exactly one reply is sent, and it is the
one which the handler has come up with; for a ONEWAY transaction none is sent.

A call (`Call`) is gbinder_driver_read or gbinder_driver_transact; the environment is arbitrary,
including what the handlers return and what the kernel does. `upToCommand post` are the steps
which follow a command in the log, up to the next command.
-/
set_option autoImplicit false

namespace Gb.C21
open Driver

/-- A reply has been written to the kernel (not refused with EAGAIN). -/
def isReply (io : Io) : Ev → Bool
  | .ioctl w none (.err e) =>
    e ≠ EAGAIN ∧ (word w = BC.reply.code io ∨ word w = BC.replySg.code io)
  | .ioctl w none (.ok _ _) => word w = BC.reply.code io ∨ word w = BC.replySg.code io
  | _ => false

/-- The replies sent. -/
def replies (io : Io) (l : List Ev) : List Ev := l.filter (isReply io)

/-- The sender waits for a reply. -/
def wantsReply (io : Io) (x : Nat × Bytes) : Bool :=
  x.1 = BR.transaction.code io ∧ txFlags io x.2 % 2 ≠ tfOneWay

/-- The TF_STATUS_CODE flag. -/
def hasStatusCode (io : Io) (x : Nat × Bytes) : Bool :=
  x.1 = BR.transaction.code io ∧ txFlags io x.2 / tfStatusCode % 2 = 1

theorem isAct_of_isReply {io : Io} {e : Ev} (h : isReply io e = true) : isAct io e = true := by
  cases e with
  | ioctl w r res =>
    cases r with
    | some r => cases res <;> cases h
    | none =>
      cases res with
      | err n =>
        simp only [isReply, isAct, isResponse, decide_eq_true_eq] at h ⊢
        refine ⟨h.1, ?_⟩
        rcases h.2 with h | h
        · exact .inl h
        · exact .inr (.inl h)
      | ok n rd =>
        simp only [isReply, isAct, isResponse, decide_eq_true_eq] at h ⊢
        rcases h with h | h
        · exact .inl h
        · exact .inr (.inl h)
  | _ => cases h

theorem replies_acts (io : Io) (l : List Ev) : replies io (acts io l) = replies io l := by
  unfold replies acts
  rw [List.filter_filter]
  congr 1
  funext e
  cases h : isReply io e
  · simp
  · simp [isAct_of_isReply h]

theorem reply_isReply {io : Io} {w : Writer} {pl offs : Nat} {res : KRes} (h : res ≠ .err EAGAIN) :
    isReply io (.ioctl (replyCommand io w pl offs).1 none res) = true := by
  have hw : word (replyCommand io w pl offs).1 = BC.reply.code io ∨
      word (replyCommand io w pl offs).1 = BC.replySg.code io := by
    unfold replyCommand
    simp only []
    split
    · exact .inr (word_append _ _ _)
    · exact .inl (word_append _ _ _)
  cases res with
  | err e =>
    have : e ≠ EAGAIN := fun h1 => h (by rw [h1])
    simp [isReply, this, hw]
  | ok n rd => simp [isReply, hw]

theorem status_isReply {io : Io} {st : Nat} {res : KRes} (h : res ≠ .err EAGAIN) :
    isReply io (.ioctl (statusReplyCommand io st) none res) = true := by
  have hw : word (statusReplyCommand io st) = BC.reply.code io := word_append _ _ _
  cases res with
  | err e =>
    have : e ≠ EAGAIN := fun h1 => h (by rw [h1])
    simp [isReply, this, hw]
  | ok n rd => simp [isReply, hw]

theorem ack_not_reply {io : Io} {b : BC} {d : Bytes} {res : KRes}
    (h1 : b.code io ≠ BC.reply.code io) (h2 : b.code io ≠ BC.replySg.code io) :
    isReply io (.ioctl (leBytes 4 (b.code io) ++ d) none res) = false := by
  cases res <;> simp [isReply, word_append, h1, h2]

theorem acks_differ (io : Io) (b : BC) (hb : b = .increfsDone ∨ b = .acquireDone ∨ b = .deadBinderDone) :
    b.code io ≠ BC.reply.code io ∧ b.code io ≠ BC.replySg.code io := by
  rcases hb with rfl | rfl | rfl <;> cases io <;> decide

theorem replies_replyActs {io : Io} {reply : Option Writer} {status : Int} {pl offs st : Nat}
    {res : KRes} (h : res ≠ .err EAGAIN) :
    (replies io (replyActs io reply status pl offs st res)).length = 1 := by
  cases reply with
  | some w =>
    simp only [replyActs, replies, List.filter_cons, List.filter_nil, reply_isReply h, if_true]
    rfl
  | none =>
    simp only [replyActs, replies, List.filter_cons, List.filter_nil, status_isReply h, if_true]
    rfl

/-- How many replies are a part of the response to a command. -/
theorem count_response {W : World} {io : Io} {c : Nat} {d : Bytes} {a : List Ev}
    (h : Response W io c d a) (hs : hasStatusCode io (c, d) = false) :
    (replies io a).length = if wantsReply io (c, d) then 1 else 0 := by
  have other : ∀ b : BR, b ≠ .transaction → c = b.code io → wantsReply io (c, d) = false := by
    intro b hb hc
    simp only [wantsReply, hc, decide_eq_false_iff_not, not_and]
    intro h1
    exact absurd (BR.code_inj h1) hb
  cases h with
  | oneway hc hd ho ha =>
    rw [decoded_oneway hd] at ho
    simp only [Bool.and_eq_true, decide_eq_true_eq] at ho
    have : wantsReply io (c, d) = false := by simp [wantsReply, ho.2]
    rw [this]; rfl
  | twoway hc hd ho ha hr =>
    rw [decoded_oneway hd] at ho
    simp only [hasStatusCode, hc, true_and, decide_eq_false_iff_not] at hs
    simp only [hs, ne_eq, not_false_eq_true, decide_true, Bool.true_and,
      decide_eq_false_iff_not] at ho
    have : wantsReply io (c, d) = true := by simp [wantsReply, ho, hc]
    rw [this]
    have h2 : ∀ (e : Ev) (l : List Ev), isReply io e = false → replies io (e :: l) = replies io l := by
      intro e l he; simp [replies, he]
    rw [h2 _ _ rfl, replies_replyActs hr]; rfl
  | increfs hc hr =>
    have h3 := acks_differ io .increfsDone (by simp)
    rw [other .increfs (by decide) hc]
    have h4 : isReply io (.increfs (target io d)) = false := rfl
    simp [replies, ack_not_reply h3.1 h3.2, h4]
  | increfsUnknown hc hr =>
    have h3 := acks_differ io .increfsDone (by simp)
    rw [other .increfs (by decide) hc]
    simp [replies, ack_not_reply h3.1 h3.2]
  | acquire hc => rw [other .acquire (by decide) hc]; rfl
  | acquireUnknown hc hr =>
    have h3 := acks_differ io .acquireDone (by simp)
    rw [other .acquire (by decide) hc]
    simp [replies, ack_not_reply h3.1 h3.2]
  | death hc => rw [other .deadBinder (by decide) hc]; rfl
  | deathUnknown hc hr =>
    have h3 := acks_differ io .deadBinderDone (by simp)
    rw [other .deadBinder (by decide) hc]
    simp [replies, ack_not_reply h3.1 h3.2]
  | other hc _ _ _ =>
    have : wantsReply io (c, d) = false := by simp [wantsReply, hc]
    rw [this]; rfl

theorem commands_none {l : List Ev} (h : ∀ e ∈ l, e.command = none) : commands l = [] := by
  unfold commands
  rw [List.filterMap_eq_nil_iff]
  exact h

theorem count_settled {W : World} {io : Io} {l : List Ev} (h : Settled W io l)
    (hs : ∀ x ∈ commands l, hasStatusCode io x = false) :
    (replies io l).length = ((commands l).filter (wantsReply io)).length := by
  induction h with
  | @start l h1 h2 =>
    rw [commands_none h1, ← replies_acts]
    have : replies io (acts io l) = [] := by
      unfold replies
      rw [List.filter_eq_nil_iff]
      intro e he
      obtain ⟨a, b, rfl⟩ := h2 e he
      simp [isReply]
    rw [this]; rfl
  | @seg l seg c d h1 h2 h3 ih =>
    have hc : commands (l ++ .cmd c d :: seg) = commands l ++ [(c, d)] := by
      have := commands_none h2
      unfold commands at this ⊢
      rw [List.filterMap_append, List.filterMap_cons, this]
      rfl
    rw [hc] at hs ⊢
    have ih := ih fun x hx => hs x (by simp [hx])
    have hseg := count_response h3 (hs (c, d) (by simp))
    rw [replies_acts] at hseg
    have h4 : replies io (l ++ .cmd c d :: seg) = replies io l ++ replies io seg := by
      simp [replies, List.filter_append, isReply]
    rw [h4, List.length_append, List.filter_append, List.length_append, ih, hseg]
    congr 1
    cases hw : wantsReply io (c, d) <;> simp [hw]

/-! ### The properties -/

/-- What happens between an incoming transaction and the next command: it is passed to the object
it is addressed to (`Answered`: if there is such an object and it supports the transaction,
otherwise the status is -EBADMSG). If it's a one-way transaction, then that's all; otherwise there
is exactly one reply, and it is made of what the object has returned: the data of the reply if
there is one, otherwise the status. -/
theorem C21_transaction_partial {k : Cfg} {W : World} {f : Nat} {x : Call} {pre post : List Ev}
    {d : Bytes} (hl : (x.run k W f).log = pre ++ .cmd (BR.transaction.code k.io) d :: post)
    (hr : (x.run k W f).Returned ∨ ∃ e ∈ post, e.command ≠ none)
    (hs : hasStatusCode k.io (BR.transaction.code k.io, d) = false) :
    ∃ known tx iface reply status, Answered W known tx iface reply status ∧
      if wantsReply k.io (BR.transaction.code k.io, d) then
        ∃ pl offs st res, res ≠ .err EAGAIN ∧
          acts k.io (upToCommand post) = .answer known tx iface reply status ::
            replyActs k.io reply status pl offs st res
      else acts k.io (upToCommand post) = [.answer known tx iface reply status] := by
  have h := call_response hl hr
  revert h
  generalize acts k.io (upToCommand post) = a
  intro h
  cases h with
  | @oneway m known tx iface reply status hc hd ho ha =>
    refine ⟨known, tx, iface, reply, status, ha, ?_⟩
    rw [decoded_oneway hd] at ho
    simp only [Bool.and_eq_true, decide_eq_true_eq] at ho
    rw [if_neg (by simp [wantsReply, ho.2])]
  | @twoway m known tx iface reply status pl offs st res hc hd ho ha hres =>
    refine ⟨known, tx, iface, reply, status, ha, ?_⟩
    rw [decoded_oneway hd] at ho
    simp only [hasStatusCode, true_and, decide_eq_false_iff_not] at hs
    simp only [hs, ne_eq, not_false_eq_true, decide_true, Bool.true_and,
      decide_eq_false_iff_not] at ho
    rw [if_pos (by simp [wantsReply, ho])]
    exact ⟨pl, offs, st, res, hres, rfl⟩
  | increfs hc _ => exact absurd (BR.code_inj hc) (by decide)
  | increfsUnknown hc _ => exact absurd (BR.code_inj hc) (by decide)
  | acquire hc => exact absurd (BR.code_inj hc) (by decide)
  | acquireUnknown hc _ => exact absurd (BR.code_inj hc) (by decide)
  | death hc => exact absurd (BR.code_inj hc) (by decide)
  | deathUnknown hc _ => exact absurd (BR.code_inj hc) (by decide)
  | other hc _ _ _ => exact absurd rfl hc

/-- In total, there are as many replies as there are transactions which require one. -/
theorem C21_count_partial {k : Cfg} {W : World} {f : Nat} {x : Call}
    (hr : (x.run k W f).Returned)
    (hs : ∀ y ∈ commands (x.run k W f).log, hasStatusCode k.io y = false) :
    (replies k.io (x.run k W f).log).length =
      ((commands (x.run k W f).log).filter (wantsReply k.io)).length := by
  have h := call_settled (k := k) (W := W) (f := f) x
  revert h hr hs
  generalize x.run k W f = r
  intro hr hs h
  cases r with
  | done a s => exact count_settled h hs
  | stop w s => cases hr

/-- Also if the call never returns, or has not returned yet, at most one reply is sent before the
next command is looked at, and none at all in response to anything but a transaction which
requires one. -/
theorem C21_atmost_partial {k : Cfg} {W : World} {f : Nat} {x : Call} {pre post : List Ev}
    {c : Nat} {d : Bytes} (hl : (x.run k W f).log = pre ++ .cmd c d :: post)
    (hs : hasStatusCode k.io (c, d) = false) :
    (replies k.io (upToCommand post)).length ≤ if wantsReply k.io (c, d) then 1 else 0 := by
  rcases call_started hl with h | ⟨b, h⟩
  · rw [← replies_acts, h]
    exact Nat.zero_le _
  · rw [← count_response h hs, ← replies_acts, replies, replies, List.filter_append,
      List.length_append]
    exact Nat.le_add_right _ _

/-! ### Examples -/

/-- A one-way and a two-way transaction for an existing object (16), a two-way transaction for one
which doesn't exist. -/
def demo : List (Nat × Bytes) :=
  [(BR.transaction.code .io32, ({ target := 16, code := 1, flags := 1 } : TxHeader).bytes .io32),
   (BR.transaction.code .io32, ({ target := 16, code := 1 } : TxHeader).bytes .io32),
   (BR.transactionComplete.code .io32, []),
   (BR.transaction.code .io32, ({ target := 20, code := 1 } : TxHeader).bytes .io32),
   (BR.transactionComplete.code .io32, [])]

def demoWorld : World :=
  let b := demo.flatMap encode
  C20.scripted .io32 [] [b.take 88, (b.drop 88).take 24, (b.drop 112).take 24, b.drop 136]

def demoRun : Run Unit := Call.read.run ⟨.io32, .aidl⟩ demoWorld 40

/-- The hypotheses of the theorems are satisfied, and two replies have been sent. -/
example : (match demoRun with | .done _ _ => true | _ => false) = true ∧
    commands demoRun.log = demo ∧ (∀ y ∈ commands demoRun.log, hasStatusCode .io32 y = false) ∧
    ((commands demoRun.log).filter (wantsReply .io32)).length = 2 ∧
    (replies .io32 demoRun.log).length = 2 := by decide +kernel

/-- A one-way transaction which has the TF_STATUS_CODE flag too (flags set by the sender are passed
by the kernel to the recipient) is replied to. -/
theorem C21_fails : ∃ (W : World),
    (match Call.read.run ⟨.io32, .aidl⟩ W 40 with | .done _ _ => true | _ => false) = true ∧
    ((commands (Call.read.run ⟨.io32, .aidl⟩ W 40).log).filter (wantsReply .io32)).length = 0 ∧
    (replies .io32 (Call.read.run ⟨.io32, .aidl⟩ W 40).log).length = 1 := by
  refine ⟨C20.scripted .io32 [(64, [0, 0, 0, 0])]
    [encode (BR.transaction.code .io32,
      ({ target := 16, code := 1, flags := 9, dataSize := 4, buffer := 64 } : TxHeader).bytes .io32),
     encode (BR.failedReply.code .io32, [])], ?_⟩
  decide +kernel

end Gb.C21
