import Verif.Spec.Custody
import Verif.Lemmas.Duties
import Verif.Lemmas.TxFlags
import Verif.Lemmas.DriverStream
/- Buffers are taken care of in all runs. -/
set_option autoImplicit false

namespace Gb.Driver

theorem txBuffer_eq {io : Io} {d : Bytes} {t : TxHeader} (h : decodeTxHeader io d = some t) :
    t.buffer = txBuffer io d ∧ t.dataSize = txDataSize io d := by
  simp only [decodeTxHeader, Option.bind_eq_bind, Option.bind_eq_some_iff] at h
  obtain ⟨_, _, _, _, _, _, _, _, _, _, _, _, ds, hds, _, _, bu, hbu, _, _, h⟩ := h
  cases h
  simp only [uptrAt, Option.map_eq_some_iff] at hds hbu
  obtain ⟨x, h1, h2⟩ := hds
  obtain ⟨y, h3, h4⟩ := hbu
  rw [slice_eq_some_iff] at h1 h3
  rw [← h2, ← h1.2, ← h4, ← h3.2]
  exact ⟨rfl, rfl⟩

theorem decoded_buffer {io : Io} {m : Mem} {d : Bytes} {tx : TxData} (h : decodeTransactionData io m d = .ok tx) :
    tx.data = txBuffer io d ∧ tx.size = if txFlags io d / 8 % 2 = 0 then txDataSize io d else 0 := by
  unfold decodeTransactionData at h
  split at h
  · cases h
  · rename_i t ht
    rw [← txFlags_eq ht, ← (txBuffer_eq ht).1, ← (txBuffer_eq ht).2]
    simp only [] at h
    split at h
    · rename_i hf
      obtain ⟨st, _, h2⟩ := bind_ok h
      cases h2
      exact ⟨rfl, by rw [if_neg (by omega)]⟩
    · rename_i hf
      obtain ⟨st, _, h2⟩ := bind_ok h
      cases h2
      refine ⟨rfl, ?_⟩
      have h0 : t.flags / 8 % 2 = 0 := by omega
      rw [if_pos h0]

/-- What's due, in terms of what has been decoded. -/
theorem dueFor_eq {io : Io} {m : Mem} {d : Bytes} {tx : TxData} (h : decodeTransactionData io m d = .ok tx) (w : Bool) :
    dueFor io w d = if tx.data = 0 then .nothing else if w = true ∧ tx.size ≠ 0 then .keep tx.data else .free tx.data := by
  obtain ⟨h1, h2⟩ := decoded_buffer h
  unfold dueFor
  rw [h1, h2]
  by_cases hf : txFlags io d / 8 % 2 = 0
  · simp [hf]
  · simp [hf]

theorem custody_append (io : Io) (s : Custody) (a b : List Ev) :
    custody io s (a ++ b) = (custody io s a).bind fun s => custody io s b := by
  induction a generalizing s with
  | nil => rfl
  | cons e a ih =>
    simp only [List.cons_append, custody]
    cases s.step io e with
    | none => rfl
    | some s => exact ih s

theorem custody_snoc {io : Io} {s s1 s2 : Custody} {l : List Ev} {e : Ev} (h : custody io s l = some s1)
    (h1 : s1.step io e = some s2) : custody io s (l ++ [e]) = some s2 := by
  rw [custody_append, h]
  simp [custody, h1]

/-- The state of custody in `s`. -/
abbrev Holds (io : Io) (i : Custody) (ws : List Bool) (due : Due) (s : St) : Prop :=
  custody io i s.log = some { waits := ws, due }

/-- Nothing has gone wrong. -/
abbrev Fine (io : Io) (i : Custody) (s : St) : Prop := (custody io i s.log).isSome = true

theorem Holds.fine {io : Io} {i : Custody} {ws : List Bool} {due : Due} {s : St} (h : Holds io i ws due s) : Fine io i s := by
  simp only [Fine, h, Option.isSome_some]

abbrev CPost {α : Type} (io : Io) (i : Custody) (Q : α → St → Prop) (r : Run α) : Prop := r.Post Q (Fine io i)

variable {io : Io} {i : Custody} {ws : List Bool} {W : World}

theorem Holds.add {due due' : Due} {ws' : List Bool} {s : St} (h : Holds io i ws due s) {e : Ev}
    (h1 : Custody.step io { waits := ws, due } e = some { waits := ws', due := due' }) : Holds io i ws' due' (s.add e) :=
  custody_snoc h h1

theorem write_quiet {f : Nat} {b : Bytes} {s : St} (hb : word b ≠ BC.freeBuffer.code io) (h : Holds io i ws .nothing s) :
    CPost io i (fun _ => Holds io i ws .nothing) (write W f b s) := by
  have st : ∀ res, Custody.step io { waits := ws, due := .nothing } (.ioctl b none res) =
      some { waits := ws, due := .nothing } := by
    intro res
    simp only [Custody.step]
    exact if_neg hb
  induction f generalizing s with
  | zero => exact Holds.fine h
  | succ f ih =>
    rw [write]
    split
    · exact Holds.fine h
    · split
      · exact ih (Holds.add h (st _))
      · exact Holds.add h (st _)
    · exact Holds.add h (st _)

theorem write_free {f a : Nat} {s : St} (h : Holds io i ws (.free a) s) :
    CPost io i (fun _ => Holds io i ws .nothing) (write W f (freeCommand io a) s) := by
  induction f generalizing s with
  | zero => exact Holds.fine h
  | succ f ih =>
    rw [write]
    split
    · exact Holds.fine h
    · rename_i e _
      split
      · rename_i he
        exact ih (Holds.add h (by simp [Custody.step, he]))
      · rename_i he
        exact Holds.add h (by simp [Custody.step, he])
    · exact Holds.add h (by simp [Custody.step])

theorem writeRead_holds {f : Nat} {w : Bytes} {s : St} (h : Holds io i ws .nothing s) :
    CPost io i (fun r => Holds io i (if r.1.isSome then ws.tail else ws) .nothing) (writeRead W f w s) := by
  induction f generalizing s with
  | zero => exact Holds.fine h
  | succ f ih =>
    rw [writeRead]
    simp only []
    split
    · exact Holds.fine h
    · split
      · rename_i he
        exact ih (Holds.add h (by simp [Custody.step, he]))
      · rename_i he
        exact Holds.add h (by simp [Custody.step, he])
    · exact Holds.add (e := .ioctl w (some (readBufferSize - s.buf.length)) (.ok _ _)) h rfl

theorem freeBuffer_holds {f a : Nat} {s : St} (h : Holds io i ws (if a = 0 then .nothing else .free a) s) :
    CPost io i (fun _ => Holds io i ws .nothing) (freeBuffer W io f a s) := by
  unfold freeBuffer
  by_cases ha : a = 0
  · rw [if_neg (by simpa using ha)]
    rw [if_pos ha] at h
    exact h
  · rw [if_pos ha]
    rw [if_neg ha] at h
    exact Run.Post.bind (write_free h) fun _ _ h => h

theorem writeCmdData_holds {f c n : Nat} {d : Bytes} {s : St} (hc : ∀ x, word (leBytes 4 c ++ x) ≠ BC.freeBuffer.code io)
    (h : Holds io i ws .nothing s) :
    CPost io i (fun _ => Holds io i ws .nothing) (writeCmdData W f c n d s) := by
  unfold writeCmdData
  split
  · exact Holds.fine h
  · exact Run.Post.bind (write_quiet (hc _) h) fun _ _ h => h

theorem BC.nr_inj {a b : BC} (h : a.nr = b.nr) : a = b := by
  revert h
  cases a <;> cases b <;> decide

theorem BC.code_mod (io : Io) (a : BC) : a.code io % 256 = a.nr := by
  cases io <;> cases a <;> rfl

theorem BC.code_ne {io : Io} {a b : BC} (h : a ≠ b) : a.code io ≠ b.code io := fun e =>
  h (BC.nr_inj (by rw [← BC.code_mod io a, ← BC.code_mod io b, e]))

theorem cmdData_holds {f : Nat} {c : BC} {d : Bytes} {s : St} (hc : c ≠ .freeBuffer) (h : Holds io i ws .nothing s) :
    CPost io i (fun _ => Holds io i ws .nothing) (cmdData W io f c d s) :=
  writeCmdData_holds (fun x => by rw [word_append]; exact BC.code_ne hc) h

theorem not_free {b : Bytes} (h : isResponse io b = true) : word b ≠ BC.freeBuffer.code io := by
  simp only [isResponse, decide_eq_true_eq] at h
  rcases h with h | h | h | h | h <;> (rw [h]; exact BC.code_ne (by decide))

theorem takeRequest_holds {k : Cfg} {f : Nat} {tx : TxData} {s : St}
    (h : Holds k.io i ws (if tx.data = 0 then .nothing else if tx.size ≠ 0 then .keep tx.data else .free tx.data) s) :
    CPost k.io i (fun _ => Holds k.io i ws .nothing) (takeRequest k W f tx s) := by
  unfold takeRequest
  split
  · rename_i h1
    rw [if_neg h1.1, if_pos h1.2] at h
    have h2 := Holds.add (e := .own tx.data) h (ws' := ws) (due' := .nothing) (by simp [Custody.step])
    simp only []
    split
    · exact Holds.fine h2
    · split
      · exact Holds.fine h2
      · exact h2
  · rename_i h1
    refine Run.Post.bind (freeBuffer_holds (ws := ws) ?_) fun _ _ h => h
    by_cases ha : tx.data = 0
    · rw [if_pos ha] at h ⊢
      exact h
    · rw [if_neg ha] at h ⊢
      rw [if_neg (fun h2 => h1 ⟨ha, h2⟩)] at h
      exact h

theorem sendReply_holds {k : Cfg} {f : Nat} {r : Option Writer} {st : Int} {s : St} (h : Holds k.io i ws .nothing s) :
    CPost k.io i (fun _ => Holds k.io i ws .nothing) (sendReply k W f r st s) := by
  unfold sendReply
  simp only []
  split
  · refine Run.Post.bind (write_quiet ?_ ?_) fun _ _ h => h
    · exact not_free (replyCommand_response _ _ _ _)
    · exact Holds.add (Holds.add h rfl) rfl
  · refine Run.Post.bind (write_quiet ?_ ?_) fun _ _ h => h
    · exact not_free (statusReply_response _ _)
    · exact Holds.add h rfl

/-- What the command has left to be done. -/
abbrev Taken (io : Io) (i : Custody) (ws : List Bool) (c : Nat) (d : Bytes) (s : St) : Prop :=
  if c = BR.transaction.code io then Holds io i (if repliedTo io c d then false :: ws else ws) (dueFor io true d) s
  else Holds io i ws .nothing s

theorem handleCommand_holds {k : Cfg} {f : Nat} {c : Nat} {d : Bytes} {s : St}
    (hT : ∀ s, Taken k.io i ws c d s → c = BR.transaction.code k.io →
      CPost k.io i (fun _ => Holds k.io i ws .nothing) (handleTransaction k W f d s))
    (h : Taken k.io i ws c d s) :
    CPost k.io i (fun _ => Holds k.io i ws .nothing) (handleCommand k W (f + 1) c d s) := by
  have other : c ≠ BR.transaction.code k.io → Holds k.io i ws .nothing s := fun hc => by
    simp only [Taken] at h
    rwa [if_neg hc] at h
  rw [handleCommand]
  split
  · rename_i hc
    have h := other (by rw [hc]; exact BR.code_ne (by decide))
    split
    · exact Holds.fine h
    · refine cmdData_holds (by decide) ?_
      split
      · exact Holds.add h rfl
      · exact h
  split
  · rename_i hc
    have h := other (by rw [hc]; exact BR.code_ne (by decide))
    split
    · exact Holds.fine h
    · simp only [Run.Post]
      split <;> exact h
  split
  · rename_i hc
    have h := other (by rw [hc]; exact BR.code_ne (by decide))
    split
    · exact Holds.fine h
    · split
      · exact Holds.add h rfl
      · exact cmdData_holds (by decide) h
  split
  · rename_i hc
    have h := other (by rw [hc]; exact BR.code_ne (by decide))
    split
    · exact Holds.fine h
    · simp only [Run.Post]
      split <;> exact h
  split
  · rename_i hc
    exact hT s h hc
  rename_i hn
  have h := other hn
  split
  · split
    · exact Holds.fine h
    · split
      · exact Holds.add h rfl
      · exact cmdData_holds (by decide) h
  · exact h

theorem Taken.fine {c : Nat} {d : Bytes} {s : St} (h : Taken io i ws c d s) : Fine io i s := by
  simp only [Taken] at h
  split at h <;> exact Holds.fine h

theorem swallow_custody {c : Nat} {d : Bytes} {s : St} (h : Holds io i ws .nothing s) :
    custody io i (s.swallow c d).log = some (Custody.command io { waits := ws } c d) :=
  custody_snoc (e := .cmd c d) h rfl

/-- A command which isn't a report somebody is waiting for. -/
theorem swallow_taken {c : Nat} {d : Bytes} {s : St} (h : Holds io i ws .nothing s) (hr : isReport io c = true → ws = []) :
    Taken io i ws c d (s.swallow c d) := by
  have h1 := swallow_custody (c := c) (d := d) h
  simp only [Taken]
  split
  · rename_i hc
    simpa only [Custody.command, if_pos hc] using h1
  · rename_i hc
    simp only [Custody.command, if_neg hc] at h1
    split at h1
    · rename_i h2
      have := hr h2
      subst this
      exact h1
    · exact h1

theorem holds_mutual {k : Cfg} (f : Nat) :
    (∀ ws d s, Taken k.io i ws (BR.transaction.code k.io) d s →
      CPost k.io i (fun _ => Holds k.io i ws .nothing) (handleTransaction k W f d s)) ∧
    (∀ ws s, Holds k.io i (false :: ws) .nothing s →
      CPost k.io i (fun _ => Holds k.io i ws .nothing) (waitReplied k W f s)) ∧
    (∀ ws c d s, Taken k.io i ws c d s →
      CPost k.io i (fun _ => Holds k.io i ws .nothing) (handleCommand k W f c d s)) ∧
    (∀ ws reply s, Holds k.io i (reply :: ws) .nothing s →
      CPost k.io i (fun st => Holds k.io i (if st = -(EAGAIN : Int) then reply :: ws else ws) .nothing)
        (txstatus k W f reply s)) := by
  induction f with
  | zero =>
    refine ⟨?_, ?_, ?_, ?_⟩
    · intro ws d s h
      simp only [handleTransaction]
      exact Taken.fine h
    · intro ws s h
      simp only [waitReplied]
      exact Holds.fine h
    · intro ws c d s h
      simp only [handleCommand]
      exact Taken.fine h
    · intro ws r s h
      simp only [txstatus]
      exact Holds.fine h
  | succ f ih =>
    obtain ⟨ih1, ih2, ih3, ih4⟩ := ih
    refine ⟨?_, ?_, ?_, ?_⟩
    · intro ws d s h
      rw [handleTransaction]
      split
      · exact Taken.fine h
      · rename_i tx hd
        simp only [Taken, if_true] at h
        generalize W.getLocal s.log tx.target = known
        simp only []
        rw [dueFor_eq hd] at h
        simp only [true_and] at h
        refine Run.Post.bind (takeRequest_holds h) fun iface s h => ?_
        generalize dispatch W known tx iface s = r
        obtain ⟨reply, status⟩ := r
        simp only []
        have h1 := Holds.add (e := .answer known tx iface reply status) h rfl
        have ho := decoded_oneway hd
        have hr : repliedTo k.io (BR.transaction.code k.io) d = !tx.oneway := by
          rw [ho]
          simp only [repliedTo]
          by_cases ha : txFlags k.io d / tfStatusCode % 2 = 1 <;> by_cases hb : txFlags k.io d % 2 = tfOneWay <;>
            simp [ha, hb]
        rw [hr] at h1
        split
        · rename_i hone
          rw [hone] at h1
          exact h1
        · rename_i hone
          rw [if_pos (by simpa using hone)] at h1
          exact Run.Post.bind (sendReply_holds h1) fun _ s h => ih2 _ s h
    · intro ws s h
      rw [waitReplied]
      refine Run.Post.bind (writeRead_holds h) fun r s h => ?_
      split
      · rename_i hr
        simp only [hr, Option.isSome_some, if_true, List.tail_cons] at h
        exact h
      · rename_i hr
        simp only [hr, Option.isSome_none, Bool.false_eq_true, if_false] at h
        refine Run.Post.bind (ih4 _ _ _ h) fun st s h => ?_
        split
        · rename_i hst
          rw [if_pos hst] at h
          exact ih2 _ _ h
        · rename_i hst
          rw [if_neg hst] at h
          exact h
    · intro ws c d s h
      refine handleCommand_holds (fun s hs hc => ?_) h
      subst hc
      exact ih1 _ d s hs
    · intro ws reply s h
      rw [txstatus]
      split
      · simp only [Run.Post, if_true]
        exact h
      · rename_i cmd data hn
        have h1 := swallow_custody (c := cmd) (d := data) h
        simp only []
        have rep : ∀ b : BR, cmd = b.code k.io → b ≠ .transaction → isReport k.io (b.code k.io) = true →
            ¬(b = .transactionComplete ∧ reply = true) →
            Holds k.io i ws (if b = .reply then dueFor k.io reply data else .nothing) (s.swallow cmd data) := by
          intro b hb n1 n2 n3
          simp only [Custody.command] at h1
          rw [if_neg (by rw [hb]; exact BR.code_ne n1), if_pos (by rw [hb]; exact n2)] at h1
          rw [if_neg (by rw [hb]; exact fun h => n3 ⟨BR.code_inj h.1, h.2⟩)] at h1
          by_cases e : b = .reply
          · rw [if_pos e]
            rw [if_pos (by rw [hb, e])] at h1
            exact h1
          · rw [if_neg e]
            rw [if_neg (by rw [hb]; exact BR.code_ne e)] at h1
            exact h1
        split
        · rename_i hc
          split
          · rename_i hr
            refine ih4 _ _ _ ?_
            simp only [Custody.command] at h1
            rw [if_neg (by rw [hc]; exact BR.code_ne (by decide)), if_pos (by rw [hc]; simp [isReport]),
              if_pos ⟨hc, hr⟩] at h1
            exact h1
          · rename_i hr
            have := rep _ hc (by decide) (by simp [isReport]) (fun h => hr h.2)
            simp only [Run.Post]
            exact this
        split
        · rename_i hc
          exact rep _ hc (by decide) (by simp [isReport]) (by simp)
        split
        · rename_i hc
          exact rep _ hc (by decide) (by simp [isReport]) (by simp)
        split
        · rename_i hc
          have h2 := rep _ hc (by decide) (by simp [isReport]) (by simp)
          simp only [if_true] at h2
          split
          · exact Holds.fine h2
          · rename_i tx hd
            rw [dueFor_eq hd] at h2
            refine Run.Post.bind (Q := fun _ s => Holds k.io i ws .nothing s) ?_ fun _ _ h => ?_
            · split
              · rename_i h3
                rw [if_neg h3.1, if_pos ⟨h3.2.2, h3.2.1⟩] at h2
                exact Holds.add h2 (by simp [Custody.step])
              · rename_i h3
                refine freeBuffer_holds ?_
                by_cases ha : tx.data = 0
                · rw [if_pos ha] at h2 ⊢
                  exact h2
                · rw [if_neg ha] at h2 ⊢
                  rw [if_neg (fun h4 => h3 ⟨ha, h4.2, h4.1⟩)] at h2
                  exact h2
            · simp only [Run.Post]
              rw [if_neg (filterStatus_ne _).1]
              exact h
        · rename_i n1 n2 n3 n4
          have hr : isReport k.io cmd = false := by simp [isReport, n1, n2, n3, n4]
          refine Run.Post.bind (ih3 _ _ _ _ (swallow_taken h (fun h => by rw [hr] at h; cases h))) fun _ s h => ih4 _ _ _ h

theorem handleCommands_holds {k : Cfg} {f : Nat} {s : St} (h : Holds k.io i [] .nothing s) :
    CPost k.io i (fun _ => Holds k.io i [] .nothing) (handleCommands k W f s) := by
  induction f generalizing s with
  | zero => exact Holds.fine h
  | succ f ih =>
    rw [handleCommands]
    split
    · exact h
    · exact Run.Post.bind ((holds_mutual f).2.2.1 _ _ _ _ (swallow_taken h fun _ => rfl)) fun _ _ h => ih h

theorem readLoop_holds {k : Cfg} {f : Nat} {s : St} (h : Holds k.io i [] .nothing s) :
    CPost k.io i (fun _ => Holds k.io i [] .nothing) (readLoop k W f s) := by
  induction f generalizing s with
  | zero => exact Holds.fine h
  | succ f ih =>
    rw [readLoop]
    split
    · refine Run.Post.bind (writeRead_holds h) fun r s h => ?_
      simp only [List.tail_nil, ite_self] at h
      split
      · exact h
      · exact Run.Post.bind (handleCommands_holds h) fun _ _ h => ih h
    · exact h

theorem cleanup_holds {s : St} (h : Holds io i ws .nothing s) : Holds io i ws .nothing (cleanupContext s) := by
  simp only [Holds, cleanupContext, custody_append, h, Option.bind_some]
  generalize s.unrefs = u
  induction u with
  | nil => rfl
  | cons a u ih =>
    simp only [List.map_cons, custody]
    split <;> simpa only [Custody.step, Option.bind_some] using ih

theorem read_holds {k : Cfg} {f : Nat} {s : St} (h : Holds k.io i [] .nothing s) :
    CPost k.io i (fun _ => Holds k.io i [] .nothing) (read k W f s) := by
  unfold read
  refine Run.Post.bind (writeRead_holds h) fun r s h => ?_
  simp only [List.tail_nil, ite_self] at h
  split
  · exact cleanup_holds h
  · refine Run.Post.bind (handleCommands_holds h) fun _ s h => ?_
    exact Run.Post.bind (readLoop_holds h) fun _ s h => cleanup_holds h

theorem transactLoop_holds {k : Cfg} {f : Nat} {reply : Bool} {w : Bytes} {s : St} (h : Holds k.io i [reply] .nothing s) :
    CPost k.io i (fun _ => Holds k.io i [] .nothing) (transactLoop k W reply f w s) := by
  induction f generalizing s w with
  | zero => exact Holds.fine h
  | succ f ih =>
    rw [transactLoop]
    refine Run.Post.bind (writeRead_holds h) fun r s h => ?_
    split
    · rename_i hr
      simp only [hr, Option.isSome_some, if_true, List.tail_cons] at h
      exact h
    · rename_i hr
      simp only [hr, Option.isSome_none, Bool.false_eq_true, if_false] at h
      refine Run.Post.bind ((holds_mutual f).2.2.2 _ _ _ h) fun st s h => ?_
      split
      · rename_i hst
        rw [if_pos hst] at h
        exact ih h
      · rename_i hst
        rw [if_neg hst] at h
        exact h

theorem finishLoop_holds {k : Cfg} {f : Nat} {st : Int} {s : St} (h : Holds k.io i [] .nothing s) :
    CPost k.io i (fun _ => Holds k.io i [] .nothing) (finishLoop k W f st s) := by
  induction f generalizing s with
  | zero => exact Holds.fine h
  | succ f ih =>
    rw [finishLoop]
    split
    · refine Run.Post.bind (writeRead_holds h) fun r s h => ?_
      simp only [List.tail_nil, ite_self] at h
      split
      · exact h
      · exact Run.Post.bind (handleCommands_holds h) fun _ _ h => ih h
    · exact h

theorem transact_holds {k : Cfg} {f handle code : Nat} {req : Writer} {reply : Bool} {s : St}
    (h : Holds k.io i [reply] .nothing s) :
    CPost k.io i (fun _ => Holds k.io i [] .nothing) (transact k W f handle code req reply s) := by
  unfold transact
  simp only []
  refine Run.Post.bind (transactLoop_holds (Holds.add (Holds.add h rfl) rfl)) fun st s h => ?_
  split
  · refine Run.Post.bind (handleCommands_holds h) fun _ s h => ?_
    exact Run.Post.bind (finishLoop_holds h) fun _ s h => cleanup_holds h
  · exact cleanup_holds h

theorem call_holds {k : Cfg} {W : World} {f : Nat} (x : Call) :
    CPost k.io { waits := x.waits } (fun _ => Holds k.io { waits := x.waits } [] .nothing) (x.run k W f) := by
  cases x with
  | read => exact Run.Post.bind (read_holds (s := {}) rfl) fun _ _ h => h
  | transact handle code req reply => exact Run.Post.bind (transact_holds (s := {}) rfl) fun _ _ h => h

end Gb.Driver
