import Verif.Spec.Commands
import Verif.Lemmas.Duties
/- The commands which are written while commands are being handled. -/
set_option autoImplicit false

namespace Gb.Driver

theorem TxHeader.length (io : Io) (t : TxHeader) : (t.bytes io).length = io.txDataSize := by
  unfold TxHeader.bytes
  cases io <;> simp [Io.txDataSize, Io.ptrSize]

theorem code_ne_zero (io : Io) (c : BC) : BC.code io c ≠ 0 := by
  cases io <;> cases c <;> decide

theorem command_intro {io : Io} {c : BC} {d : Bytes} (h : d.length = c.size io) :
    IsCommand io (leBytes 4 (c.code io) ++ d) := by
  have h1 := code_ne_zero io c
  have h2 := BC.code_lt io c
  have h3 : d.length = iocSize (c.code io) := by rw [iocSize_code]; exact h
  unfold IsCommand
  refine ⟨c, d, ?_, ?_⟩
  · unfold WellFormed
    exact ⟨h1, h2, h3⟩
  · unfold encode
    rfl

/-- The log has grown, and only with what's proper. -/
def Ext (io : Io) (l0 : List Ev) (s : St) : Prop := ∃ l, s.log = l0 ++ l ∧ ∀ e ∈ l, e.Proper io

variable {io : Io} {l0 : List Ev}

theorem Ext.refl (s : St) : Ext io s.log s := ⟨[], by simp, by simp⟩

theorem Ext.add {s : St} (h : Ext io l0 s) {e : Ev} (he : e.Proper io) : Ext io l0 (s.add e) := by
  obtain ⟨l, h1, h2⟩ := h
  refine ⟨l ++ [e], by simp [St.add, h1], ?_⟩
  intro x hx
  simp only [List.mem_append, List.mem_singleton] at hx
  rcases hx with hx | rfl
  · exact h2 x hx
  · exact he

theorem Ext.state {s s' : St} (h : Ext io l0 s) (he : s'.log = s.log) : Ext io l0 s' := by
  obtain ⟨l, h1, h2⟩ := h
  exact ⟨l, he.trans h1, h2⟩

theorem Ext.write {W : World} {f : Nat} {b : Bytes} {s : St} (h : Ext io l0 s) (hb : IsCommand io b) :
    (write W f b s).Post (fun _ => Ext io l0) (Ext io l0) := by
  induction f generalizing s with
  | zero => exact h
  | succ f ih =>
    rw [Driver.write]
    split
    · exact h
    · split
      · exact ih (h.add hb)
      · exact h.add hb
    · exact h.add hb

theorem Ext.writeRead {W : World} {f : Nat} {s : St} (h : Ext io l0 s) :
    (writeRead W f [] s).Post (fun _ => Ext io l0) (Ext io l0) := by
  induction f generalizing s with
  | zero => exact h
  | succ f ih =>
    rw [Driver.writeRead]
    generalize readBufferSize - s.buf.length = room
    simp only []
    split
    · exact h
    · split
      · exact ih (h.add rfl)
      · exact h.add rfl
    · exact (h.add (e := .ioctl [] (some room) _) rfl).state rfl

theorem slice_length {b s : Bytes} {n : Nat} (h : slice b 0 n = some s) : s.length = n := by
  obtain ⟨h1, h2⟩ := slice_eq_some_iff.1 h
  rw [← h2, List.length_take, List.length_drop]
  omega

theorem Ext.writeCmdData {W : World} {f cmd n : Nat} {data : Bytes} {s : St}
    (h : Ext io l0 s) (hc : ∀ d : Bytes, d.length = n → IsCommand io (leBytes 4 cmd ++ d)) :
    (writeCmdData W f cmd n data s).Post (fun _ => Ext io l0) (Ext io l0) := by
  unfold Driver.writeCmdData
  split
  · exact h
  · rename_i d hd
    exact (h.write (hc d (slice_length hd))).bind fun _ _ h => h

theorem Ext.cmdData {W : World} {f : Nat} {c : BC} {data : Bytes} {s : St}
    (h : Ext io l0 s) : (cmdData W io f c data s).Post (fun _ => Ext io l0) (Ext io l0) :=
  h.writeCmdData fun d hd => command_intro (by rw [hd, iocSize_code])

theorem Ext.freeBuffer {W : World} {f a : Nat} {s : St}
    (h : Ext io l0 s) : (freeBuffer W io f a s).Post (fun _ => Ext io l0) (Ext io l0) := by
  unfold Driver.freeBuffer
  split
  · refine (h.write (command_intro ?_)).bind fun _ _ h => h
    simp [BC.size]
  · exact h

theorem Ext.takeRequest {c : Cfg} {W : World} {f : Nat} {tx : TxData} {s : St}
    (h : Ext c.io l0 s) : (takeRequest c W f tx s).Post (fun _ => Ext c.io l0) (Ext c.io l0) := by
  unfold Driver.takeRequest
  have h1 : Ext c.io l0 (s.add (.own tx.data)) := h.add trivial
  split
  · simp only []
    split
    · exact h1
    · split
      · exact h1
      · exact h1
  · exact h.freeBuffer.bind fun _ _ h => h

theorem reply_command (io : Io) (w : Writer) (b o : Nat) : IsCommand io (replyCommand io w b o).1 := by
  unfold replyCommand
  simp only []
  split
  · exact command_intro (by simp [TxHeader.length, BC.size, Io.txDataSgSize])
  · exact command_intro (by simp [TxHeader.length, BC.size])

theorem status_command (io : Io) (p : Nat) : IsCommand io (statusReplyCommand io p) := by
  unfold statusReplyCommand
  exact command_intro (by simp [TxHeader.length, BC.size])

theorem transaction_command (io : Io) (w : Writer) (h c : Nat) (ow : Bool) (b o : Nat) :
    IsCommand io (transactionCommand io w h c ow b o).1 := by
  unfold transactionCommand
  simp only []
  split
  · exact command_intro (by simp [TxHeader.length, BC.size, Io.txDataSgSize])
  · exact command_intro (by simp [TxHeader.length, BC.size])

theorem Ext.sendReply {c : Cfg} {W : World} {f : Nat} {r : Option Writer} {st : Int} {s : St}
    (h : Ext c.io l0 s) : (sendReply c W f r st s).Post (fun _ => Ext c.io l0) (Ext c.io l0) := by
  unfold Driver.sendReply
  simp only []
  split
  · refine Run.Post.bind (Ext.write ?_ (reply_command _ _ _ _)) fun _ _ h => h
    exact Ext.add (Ext.add h (e := .holds _ _) trivial) (e := .holds _ _) trivial
  · refine Run.Post.bind (Ext.write ?_ (status_command _ _)) fun _ _ h => h
    exact h.add trivial

theorem Ext.mutual {c : Cfg} {W : World} (f : Nat) :
    (∀ data s, Ext c.io l0 s → (handleTransaction c W f data s).Post (fun _ => Ext c.io l0) (Ext c.io l0)) ∧
    (∀ s, Ext c.io l0 s → (waitReplied c W f s).Post (fun _ => Ext c.io l0) (Ext c.io l0)) ∧
    (∀ cmd data s, Ext c.io l0 s → (handleCommand c W f cmd data s).Post (fun _ => Ext c.io l0) (Ext c.io l0)) ∧
    (∀ reply s, Ext c.io l0 s → (txstatus c W f reply s).Post (fun _ => Ext c.io l0) (Ext c.io l0)) := by
  induction f with
  | zero =>
    refine ⟨?_, ?_, ?_, ?_⟩ <;> intros <;>
      simp only [handleTransaction, waitReplied, handleCommand, txstatus] <;> assumption
  | succ f ih =>
    obtain ⟨ih1, ih2, ih3, ih4⟩ := ih
    refine ⟨?_, ?_, ?_, ?_⟩
    · intro data s h
      rw [handleTransaction]
      split
      · exact h
      · simp only []
        refine h.takeRequest.bind fun _ s h => ?_
        split
        · exact h.add trivial
        · exact (Ext.sendReply (h.add (e := .answer _ _ _ _ _) trivial)).bind fun _ s h => ih2 s h
    · intro s h
      rw [waitReplied]
      refine h.writeRead.bind fun r s h => ?_
      split
      · exact h
      · refine (ih4 _ _ h).bind fun st s h => ?_
        split
        · exact ih2 _ h
        · exact h
    · intro cmd data s h
      rw [handleCommand]
      split
      · split
        · exact h
        · refine Ext.cmdData ?_
          split
          · exact h.add trivial
          · exact h
      split
      · split
        · exact h
        · simp only [Run.Post]
          split
          · exact h.state rfl
          · exact h
      split
      · split
        · exact h
        · split
          · exact h.add trivial
          · exact h.cmdData
      split
      · split
        · exact h
        · simp only [Run.Post]
          split
          · exact h.state rfl
          · exact h
      split
      · exact ih1 _ _ h
      split
      · split
        · exact h
        · split
          · exact h.add trivial
          · exact h.cmdData
      exact h
    · intro reply s h
      rw [txstatus]
      split
      · exact h.state rfl
      · rename_i cmd data hn
        have h1 : Ext c.io l0 (s.swallow cmd data) := (h.add (e := .cmd cmd data) trivial).state rfl
        simp only []
        split
        · split
          · exact ih4 _ _ h1
          · exact h1.state rfl
        split
        · exact h1.state rfl
        split
        · exact h1.state rfl
        split
        · split
          · exact h1
          · refine Run.Post.bind (Q := fun _ => Ext c.io l0) ?_ fun _ _ h => h.state rfl
            split
            · exact h1.add trivial
            · exact h1.freeBuffer
        · exact (ih3 _ _ _ h1).bind fun _ s h => ih4 _ _ h

theorem Ext.handleCommands {c : Cfg} {W : World} {f : Nat} {s : St} (h : Ext c.io l0 s) :
    (handleCommands c W f s).Post (fun _ => Ext c.io l0) (Ext c.io l0) := by
  induction f generalizing s with
  | zero => exact h
  | succ f ih =>
    rw [Driver.handleCommands]
    split
    · exact h.state rfl
    · rename_i cmd data hn
      have h1 : Ext c.io l0 (s.swallow cmd data) := (h.add (e := .cmd cmd data) trivial).state rfl
      exact ((Ext.mutual f).2.2.1 _ _ _ h1).bind fun _ _ h => ih h

theorem Ext.cleanup {s : St} (h : Ext io l0 s) : Ext io l0 (cleanupContext s) := by
  obtain ⟨l, h1, h2⟩ := h
  refine ⟨l ++ s.unrefs.map fun x => if x.1 then Ev.release x.2 else Ev.decrefs x.2, ?_, ?_⟩
  · simp [cleanupContext, h1]
  · intro e he
    simp only [List.mem_append, List.mem_map] at he
    rcases he with he | ⟨x, _, rfl⟩
    · exact h2 e he
    · split <;> trivial

theorem Ext.readLoop {c : Cfg} {W : World} {f : Nat} {s : St} (h : Ext c.io l0 s) :
    (readLoop c W f s).Post (fun _ => Ext c.io l0) (Ext c.io l0) := by
  induction f generalizing s with
  | zero => exact h
  | succ f ih =>
    rw [Driver.readLoop]
    split
    · refine h.writeRead.bind fun r s h => ?_
      split
      · exact h
      · exact h.handleCommands.bind fun _ _ h => ih h
    · exact h

theorem Ext.read {c : Cfg} {W : World} {f : Nat} {s : St} (h : Ext c.io l0 s) :
    (Driver.read c W f s).Post (fun _ => Ext c.io l0) (Ext c.io l0) := by
  unfold Driver.read
  refine h.writeRead.bind fun r s h => ?_
  split
  · exact h.cleanup
  · exact h.handleCommands.bind fun _ _ h => h.readLoop.bind fun _ _ h => h.cleanup

theorem Ext.finishLoop {c : Cfg} {W : World} {f : Nat} {st : Int} {s : St} (h : Ext c.io l0 s) :
    (finishLoop c W f st s).Post (fun _ => Ext c.io l0) (Ext c.io l0) := by
  induction f generalizing s with
  | zero => exact h
  | succ f ih =>
    rw [Driver.finishLoop]
    split
    · refine h.writeRead.bind fun r s h => ?_
      split
      · exact h
      · exact h.handleCommands.bind fun _ _ h => ih h
    · exact h

/-! ### BC_TRANSACTION -/

/-- The command `b` is being sent: it's written as far as it hasn't been consumed, along with
reading. Everything else is proper. -/
def Sending (io : Io) (b : Bytes) (l : List Ev) : Prop :=
  ∀ pre e post, l = pre ++ e :: post → e.Proper io ∨
    ∃ r res, e = .ioctl (b.drop (taken pre)) (some r) res

theorem taken_append (a b : List Ev) : taken (a ++ b) = taken a + taken b := by
  simp [taken]

theorem taken_proper {l : List Ev} (h : ∀ e ∈ l, e.Proper io) : taken l = 0 := by
  induction l with
  | nil => rfl
  | cons e l ih =>
    have h1 : e.taken = 0 := by
      have := h e (by simp)
      cases e with
      | ioctl w r res =>
        cases r with
        | none => cases res <;> rfl
        | some r =>
          cases res with
          | err e => rfl
          | ok n rd =>
            have hw : w = [] := this
            subst hw
            simp [Ev.taken]
      | _ => rfl
    simp only [taken, List.map_cons, List.sum_cons, h1]
    have := ih (fun e he => h e (List.mem_cons_of_mem _ he))
    simp only [taken] at this
    omega

theorem Sending.nil {b : Bytes} : Sending io b [] := by
  intro pre e post h
  simp at h

theorem Sending.append {b : Bytes} {l l' : List Ev} (h : Sending io b l)
    (h' : ∀ pre e post, l' = pre ++ e :: post → e.Proper io ∨
      ∃ r res, e = .ioctl (b.drop (taken (l ++ pre))) (some r) res) : Sending io b (l ++ l') := by
  intro pre e post he
  rw [List.append_eq_append_iff] at he
  rcases he with ⟨a, h1, h2⟩ | ⟨a, h1, h2⟩
  · subst h1
    exact h' a e post h2
  · cases a with
    | nil =>
      simp only [List.append_nil, List.nil_append] at h1 h2
      subst h1
      have := h' [] e post h2.symm
      simpa using this
    | cons x a =>
      simp only [List.cons_append, List.cons.injEq] at h2
      obtain ⟨rfl, rfl⟩ := h2
      exact h pre e a h1

theorem Sending.ext {b : Bytes} {s : St} {l0 : List Ev} (h : Sending io b l0) (he : Ext io l0 s) :
    Sending io b s.log ∧ taken s.log = taken l0 := by
  obtain ⟨l, h1, h2⟩ := he
  rw [h1]
  refine ⟨h.append fun pre e post h3 => .inl (h2 e (by rw [h3]; simp)), ?_⟩
  rw [taken_append, taken_proper h2, Nat.add_zero]

theorem Sending.one {b : Bytes} {l : List Ev} (h : Sending io b l) (r : Nat) (res : KRes) :
    Sending io b (l ++ [.ioctl (b.drop (taken l)) (some r) res]) := by
  refine h.append ?_
  intro pre e post he
  cases pre with
  | nil =>
    simp only [List.nil_append, List.cons.injEq] at he
    exact .inr ⟨r, res, by rw [← he.1]; simp⟩
  | cons x pre => simp at he

/-- Writing the rest of the command. -/
theorem Sending.writeRead {b : Bytes} {W : World} {f : Nat} {s : St} (h : Sending io b s.log) :
    (writeRead W f (b.drop (taken s.log)) s).Post
      (fun r s' => Sending io b s'.log ∧ r.2 = b.drop (taken s'.log)) (fun s' => Sending io b s'.log) := by
  induction f generalizing s with
  | zero => exact h
  | succ f ih =>
    rw [Driver.writeRead]
    generalize readBufferSize - s.buf.length = room
    simp only []
    split
    · exact h
    · rename_i e _
      have h1 : Sending io b (s.add (.ioctl (b.drop (taken s.log)) (some room) (.err e))).log := h.one room _
      have h2 : taken (s.add (.ioctl (b.drop (taken s.log)) (some room) (.err e))).log = taken s.log := by
        simp [St.add, taken, Ev.taken]
      split
      · rw [← h2] at h1 ⊢
        have := ih (s := s.add (.ioctl (b.drop (taken s.log)) (some room) (.err e))) (by rw [h2] at h1; exact h1)
        rw [h2] at this ⊢
        exact this
      · refine ⟨h1, ?_⟩
        rw [h2]
    · rename_i n rd _
      refine ⟨h.one room _, ?_⟩
      simp only [St.add, taken, List.map_append, List.map_cons, List.map_nil, List.sum_append, List.sum_cons,
        List.sum_nil, Ev.taken, Nat.add_zero, List.drop_drop, List.length_drop]
      rcases Nat.le_total n (b.length - (List.map Ev.taken s.log).sum) with hn | hn
      · rw [Nat.min_eq_left hn]
      · rw [Nat.min_eq_right hn, List.drop_eq_nil_of_le (by omega), List.drop_eq_nil_of_le (by omega)]

theorem Sending.transactLoop {c : Cfg} {b : Bytes} {W : World} {reply : Bool} {f : Nat} {s : St}
    (h : Sending c.io b s.log) :
    (transactLoop c W reply f (b.drop (taken s.log)) s).Post
      (fun _ s' => Sending c.io b s'.log) (fun s' => Sending c.io b s'.log) := by
  induction f generalizing s with
  | zero => exact h
  | succ f ih =>
    rw [Driver.transactLoop]
    refine h.writeRead.bind fun r s h => ?_
    obtain ⟨h, hr⟩ := h
    split
    · exact h
    · refine Run.Post.bind (Q := fun _ s' => Sending c.io b s'.log ∧ taken s'.log = taken s.log) ?_ fun st s' h' => ?_
      · exact ((Ext.mutual f).2.2.2 _ _ (Ext.refl s)).mono (fun _ s' he => h.ext he) (fun s' he => (h.ext he).1)
      · split
        · rw [hr, ← h'.2]
          exact ih h'.1
        · exact h'.1

theorem Sending.transact {c : Cfg} {W : World} {f handle code : Nat} {req : Writer} {reply : Bool} {s : St}
    (hs : s.log = []) :
    (transact c W f handle code req reply s).Post
      (fun _ s' => Sending c.io (transactionCommand c.io req handle code (!reply) (W.place []).1 (W.place []).2.1).1 s'.log)
      (fun s' => Sending c.io (transactionCommand c.io req handle code (!reply) (W.place []).1 (W.place []).2.1).1 s'.log) := by
  unfold Driver.transact
  simp only [hs]
  generalize (transactionCommand c.io req handle code (!reply) (W.place []).1 (W.place []).2.1).1 = b
  generalize (transactionCommand c.io req handle code (!reply) (W.place []).1 (W.place []).2.1).2 = o
  have h0 : ∀ x y : Ev, x.Proper c.io → y.Proper c.io → Sending c.io b ((s.add x).add y).log ∧
      taken ((s.add x).add y).log = 0 := by
    intro x y hx hy
    have h1 : Ext c.io s.log ((s.add x).add y) := ((Ext.refl s).add hx).add hy
    have h2 : Sending c.io b s.log := by rw [hs]; exact Sending.nil
    have h3 := h2.ext h1
    rw [hs] at h3
    exact h3
  obtain ⟨h1, h2⟩ := h0 (.holds (W.place []).1 req.bytes) (.holds (W.place []).2.1 o) trivial trivial
  have h3 := h1.transactLoop (W := W) (reply := reply) (f := f)
  rw [h2, List.drop_zero] at h3
  refine h3.bind fun st s h => ?_
  split
  · refine Run.Post.bind (Q := fun _ s' => Sending c.io b s'.log)
      ((Ext.handleCommands (Ext.refl s)).mono (fun _ _ he => (h.ext he).1) (fun _ he => (h.ext he).1)) fun _ s h => ?_
    refine Run.Post.bind (Q := fun _ s' => Sending c.io b s'.log)
      ((Ext.finishLoop (Ext.refl s)).mono (fun _ _ he => (h.ext he).1) (fun _ he => (h.ext he).1)) fun _ s h => ?_
    exact (h.ext (Ext.refl s).cleanup).1
  · exact (h.ext (Ext.refl s).cleanup).1

end Gb.Driver
