import Verif.Spec.Unrefs
import Verif.Lemmas.Commands
/- References are dropped at the end of a call. -/
set_option autoImplicit false

namespace Gb.Driver

variable {c : Cfg} {W : World}

theorem duesFrom_snoc (io : Io) (pre l : List Ev) (e : Ev) :
    duesFrom W io pre (l ++ [e]) = duesFrom W io pre l ++ due W io (pre ++ l ++ [e]) e := by
  induction l generalizing pre with
  | nil => simp [duesFrom]
  | cons a l ih => simp [duesFrom, ih]

theorem dues_snoc (io : Io) (l : List Ev) (e : Ev) :
    dues W io (l ++ [e]) = dues W io l ++ due W io (l ++ [e]) e := by
  simpa [dues] using duesFrom_snoc (W := W) io [] l e

/-- Nothing has been dropped. -/
def Quiet (s : St) : Prop := ∀ e ∈ s.log, e.drops = false

/-- What is due is in the list of things to be done when the call is over, but for `x`. -/
def Owes (c : Cfg) (W : World) (x : List (Bool × Nat)) (s : St) : Prop :=
  dues W c.io s.log = s.unrefs ++ x ∧ ∀ e ∈ s.log, e.drops = false

/-- Neither a command nor a reference dropped. -/
def Ev.plain : Ev → Bool
  | .cmd _ _ => false
  | .release _ | .decrefs _ => false
  | _ => true

theorem Owes.add {x : List (Bool × Nat)} {s : St} (h : Owes c W x s) {e : Ev} (he : e.plain = true) :
    Owes c W x (s.add e) := by
  refine ⟨?_, ?_⟩
  · have : due W c.io (s.log ++ [e]) e = [] := by cases e <;> first | rfl | cases he
    show dues W c.io (s.log ++ [e]) = _
    rw [dues_snoc, this, List.append_nil]
    exact h.1
  · intro a ha
    rcases List.mem_append.1 ha with ha | ha
    · exact h.2 a ha
    · cases List.mem_singleton.1 ha
      cases e <;> first | rfl | cases he

theorem Owes.state {x : List (Bool × Nat)} {s s' : St} (h : Owes c W x s) (h1 : s'.log = s.log)
    (h2 : s'.unrefs = s.unrefs) : Owes c W x s' := by
  unfold Owes; rw [h1, h2]; exact h

theorem Owes.swallow {s : St} (h : Owes c W [] s) (cmd : Nat) (data : Bytes) :
    Owes c W (due W c.io (s.swallow cmd data).log (.cmd cmd data)) (s.swallow cmd data) := by
  refine ⟨?_, ?_⟩
  · show dues W c.io (s.log ++ [.cmd cmd data]) = s.unrefs ++ _
    rw [dues_snoc, h.1, List.append_nil]
    rfl
  · intro a ha
    rcases List.mem_append.1 ha with ha | ha
    · exact h.2 a ha
    · cases List.mem_singleton.1 ha; rfl

theorem due_other {io : Io} {log : List Ev} {cmd : Nat} {d : Bytes} (h1 : cmd ≠ BR.release.code io)
    (h2 : cmd ≠ BR.decrefs.code io) : due W io log (.cmd cmd d) = [] := by
  simp only [due, if_neg h1, if_neg h2]
  split
  · rfl
  · split <;> rfl

variable {x : List (Bool × Nat)}

theorem Owes.write {f : Nat} {b : Bytes} {s : St} (h : Owes c W x s) :
    (write W f b s).Post (fun _ => Owes c W x) Quiet := by
  induction f generalizing s b with
  | zero => exact h.2
  | succ f ih =>
    rw [Driver.write]
    split
    · exact h.2
    · split
      · exact ih (h.add rfl)
      · exact h.add rfl
    · exact h.add rfl

theorem Owes.writeRead {f : Nat} {b : Bytes} {s : St} (h : Owes c W x s) :
    (writeRead W f b s).Post (fun _ => Owes c W x) Quiet := by
  induction f generalizing s b with
  | zero => exact h.2
  | succ f ih =>
    rw [Driver.writeRead]
    generalize readBufferSize - s.buf.length = room
    simp only []
    split
    · exact h.2
    · split
      · exact ih (h.add rfl)
      · exact h.add rfl
    · exact (h.add (e := .ioctl _ (some room) _) rfl).state rfl rfl

theorem Owes.writeCmdData {f cmd n : Nat} {data : Bytes} {s : St}
    (h : Owes c W x s) :
    (writeCmdData W f cmd n data s).Post (fun _ => Owes c W x) Quiet := by
  unfold Driver.writeCmdData
  split
  · exact h.2
  · exact h.write.bind fun _ _ h => h

theorem Owes.cmdData {io : Io} {f : Nat} {b : BC} {data : Bytes} {s : St}
    (h : Owes c W x s) : (cmdData W io f b data s).Post (fun _ => Owes c W x) Quiet :=
  h.writeCmdData

theorem Owes.freeBuffer {io : Io} {f a : Nat} {s : St}
    (h : Owes c W x s) : (freeBuffer W io f a s).Post (fun _ => Owes c W x) Quiet := by
  unfold Driver.freeBuffer
  split
  · exact h.write.bind fun _ _ h => h
  · exact h

theorem Owes.takeRequest {f : Nat} {tx : TxData} {s : St}
    (h : Owes c W x s) : (takeRequest c W f tx s).Post (fun _ => Owes c W x) Quiet := by
  unfold Driver.takeRequest
  have h1 : Owes c W x (s.add (.own tx.data)) := h.add rfl
  split
  · simp only []
    split
    · exact h1.2
    · split
      · exact h1.2
      · exact h1
  · exact h.freeBuffer.bind fun _ _ h => h

theorem Owes.sendReply {f : Nat} {r : Option Writer} {st : Int} {s : St}
    (h : Owes c W x s) : (sendReply c W f r st s).Post (fun _ => Owes c W x) Quiet := by
  unfold Driver.sendReply
  simp only []
  split
  · refine Run.Post.bind (Owes.write ?_) fun _ _ h => h
    exact Owes.add (Owes.add h (e := .holds _ _) rfl) (e := .holds _ _) rfl
  · refine Run.Post.bind (Owes.write ?_) fun _ _ h => h
    exact h.add rfl

theorem Owes.mutual (f : Nat) :
    (∀ data s, Owes c W [] s →
      (handleTransaction c W f data s).Post (fun _ => Owes c W []) Quiet) ∧
    (∀ s, Owes c W [] s → (waitReplied c W f s).Post (fun _ => Owes c W []) Quiet) ∧
    (∀ cmd data s, Owes c W (due W c.io s.log (.cmd cmd data)) s →
      (handleCommand c W f cmd data s).Post (fun _ => Owes c W []) Quiet) ∧
    (∀ reply s, Owes c W [] s →
      (txstatus c W f reply s).Post (fun _ => Owes c W []) Quiet) := by
  induction f with
  | zero =>
    refine ⟨?_, ?_, ?_, ?_⟩ <;> intros <;>
      simp only [handleTransaction, waitReplied, handleCommand, txstatus] <;> exact And.right (by assumption)
  | succ f ih =>
    obtain ⟨ih1, ih2, ih3, ih4⟩ := ih
    refine ⟨?_, ?_, ?_, ?_⟩
    · intro data s h
      rw [handleTransaction]
      split
      · exact h.2
      · simp only []
        refine h.takeRequest.bind fun _ s h => ?_
        split
        · exact h.add rfl
        · exact (Owes.sendReply (h.add (e := .answer _ _ _ _ _) rfl)).bind fun _ s h => ih2 s h
    · intro s h
      rw [waitReplied]
      refine h.writeRead.bind fun r s h => ?_
      split
      · exact h
      · refine (ih4 _ _ h).bind fun st s h => ?_
        split
        · exact ih2 _ h
        · exact h
    · intro cmd data s h
      rw [handleCommand]
      split
      · rename_i hc
        rw [due_other (by rw [hc]; exact fun he => absurd (BR.code_inj he) (by decide))
          (by rw [hc]; exact fun he => absurd (BR.code_inj he) (by decide))] at h
        split
        · exact h.2
        · refine Owes.cmdData ?_
          split
          · exact h.add rfl
          · exact h
      split
      · rename_i hc
        have hn : BR.decrefs.code c.io ≠ BR.release.code c.io :=
          fun he => absurd (BR.code_inj he) (by decide)
        cases hp : decodePtr c.io data with
        | none => exact h.2
        | some p =>
          simp only [due, hp, hc, if_neg hn, if_true] at h
          simp only [Run.Post]
          by_cases hl : W.getLocal s.log p
          · rw [if_pos hl] at h ⊢
            exact ⟨by simpa using h.1, h.2⟩
          · rw [if_neg hl] at h ⊢
            exact h
      split
      · rename_i hc
        rw [due_other (by rw [hc]; exact fun he => absurd (BR.code_inj he) (by decide))
          (by rw [hc]; exact fun he => absurd (BR.code_inj he) (by decide))] at h
        split
        · exact h.2
        · split
          · exact h.add rfl
          · exact h.cmdData
      split
      · rename_i hc
        cases hp : decodePtr c.io data with
        | none => exact h.2
        | some p =>
          simp only [due, hp, hc, if_true] at h
          simp only [Run.Post]
          by_cases hl : W.getLocal s.log p
          · rw [if_pos hl] at h ⊢
            exact ⟨by simpa using h.1, h.2⟩
          · rw [if_neg hl] at h ⊢
            exact h
      rename_i h1 h2
      rw [due_other h2 (by assumption)] at h
      split
      · exact ih1 _ _ h
      split
      · split
        · exact h.2
        · split
          · exact h.add rfl
          · exact h.cmdData
      exact h
    · intro reply s h
      rw [txstatus]
      split
      · exact h.state rfl rfl
      · rename_i cmd data hn
        have h1 := h.swallow cmd data
        have hb : ∀ b : BR, cmd = b.code c.io → b ≠ .release → b ≠ .decrefs →
            Owes c W [] (s.swallow cmd data) := by
          intro b hb hb1 hb2
          rw [due_other (by rw [hb]; exact fun he => hb1 (BR.code_inj he))
            (by rw [hb]; exact fun he => hb2 (BR.code_inj he))] at h1
          exact h1
        simp only []
        split
        · rename_i hc
          have h1 := hb _ hc (by decide) (by decide)
          split
          · exact ih4 _ _ h1
          · exact h1.state rfl rfl
        split
        · rename_i hc
          exact (hb _ hc (by decide) (by decide)).state rfl rfl
        split
        · rename_i hc
          exact (hb _ hc (by decide) (by decide)).state rfl rfl
        split
        · rename_i hc
          have h1 := hb _ hc (by decide) (by decide)
          split
          · exact h1.2
          · refine Run.Post.bind (Q := fun _ => Owes c W []) ?_ fun _ _ h => h.state rfl rfl
            split
            · exact h1.add rfl
            · exact h1.freeBuffer
        exact (ih3 _ _ _ h1).bind fun _ s h => ih4 _ _ h

theorem Owes.handleCommands {f : Nat} {s : St} (h : Owes c W [] s) :
    (handleCommands c W f s).Post (fun _ => Owes c W []) Quiet := by
  induction f generalizing s with
  | zero => exact h.2
  | succ f ih =>
    rw [Driver.handleCommands]
    split
    · exact h.state rfl rfl
    · rename_i cmd data _
      exact ((Owes.mutual f).2.2.1 _ _ _ (h.swallow cmd data)).bind fun _ s h => ih h

/-- Everything has been done that was due, after everything else. -/
def Paid (c : Cfg) (W : World) (s : St) : Prop :=
  ∃ l, s.log = l ++ (dues W c.io l).map dropped ∧ ∀ e ∈ l, e.drops = false

theorem Owes.cleanup {s : St} (h : Owes c W [] s) : Paid c W (cleanupContext s) := by
  refine ⟨s.log, ?_, h.2⟩
  have h1 := h.1
  rw [List.append_nil] at h1
  unfold cleanupContext
  rw [h1]
  simp only [List.append_cancel_left_eq]
  apply List.map_congr_left
  rintro ⟨b, p⟩ _
  cases b <;> rfl

theorem Owes.readLoop {f : Nat} {s : St} (h : Owes c W [] s) :
    (readLoop c W f s).Post (fun _ => Owes c W []) Quiet := by
  induction f generalizing s with
  | zero => exact h.2
  | succ f ih =>
    rw [Driver.readLoop]
    split
    · refine h.writeRead.bind fun r s h => ?_
      split
      · exact h
      · exact h.handleCommands.bind fun _ s h => ih h
    · exact h

theorem Owes.transactLoop {f : Nat} {reply : Bool} {w : Bytes} {s : St} (h : Owes c W [] s) :
    (transactLoop c W reply f w s).Post (fun _ => Owes c W []) Quiet := by
  induction f generalizing s w with
  | zero => exact h.2
  | succ f ih =>
    rw [Driver.transactLoop]
    refine h.writeRead.bind fun r s h => ?_
    split
    · exact h
    · refine ((Owes.mutual f).2.2.2 _ _ h).bind fun st s h => ?_
      split
      · exact ih h
      · exact h

theorem Owes.finishLoop {f : Nat} {st : Int} {s : St} (h : Owes c W [] s) :
    (finishLoop c W f st s).Post (fun _ => Owes c W []) Quiet := by
  induction f generalizing s with
  | zero => exact h.2
  | succ f ih =>
    rw [Driver.finishLoop]
    split
    · refine h.writeRead.bind fun r s h => ?_
      split
      · exact h
      · exact h.handleCommands.bind fun _ s h => ih h
    · exact h

theorem owes_init : Owes c W [] {} := ⟨rfl, fun _ h => nomatch h⟩

theorem call_paid (x : Call) (f : Nat) : (x.run c W f).Post (fun _ => Paid c W) Quiet := by
  cases x with
  | read =>
    refine Run.Post.bind (Q := fun _ => Paid c W) ?_ fun _ _ h => h
    unfold Driver.read
    refine (owes_init (c := c)).writeRead.bind fun r s h => ?_
    split
    · exact h.cleanup
    · exact h.handleCommands.bind fun _ s h => h.readLoop.bind fun _ s h => h.cleanup
  | transact hd code req reply =>
    refine Run.Post.bind (Q := fun _ => Paid c W) ?_ fun _ _ h => h
    unfold Driver.transact
    simp only []
    refine Run.Post.bind (Owes.transactLoop ?_) fun st s h => ?_
    · exact Owes.add (Owes.add (owes_init (c := c)) (e := .holds _ _) rfl) (e := .holds _ _) rfl
    · split
      · exact h.handleCommands.bind fun _ s h => h.finishLoop.bind fun _ s h => h.cleanup
      · exact h.cleanup

end Gb.Driver
