import Verif.Spec.Driver
/- The read buffer holds what has been delivered and not acted upon yet. -/
set_option autoImplicit false

namespace Gb.Driver

/-- A property of the state a run ends in, wherever it ends. -/
def Run.All {α : Type} (P : St → Prop) : Run α → Prop
  | .done _ s => P s
  | .stop _ s => P s

/-- A property of the result and the state a run returns in, and one of the state in which it
does not return. -/
def Run.Post {α : Type} (Q : α → St → Prop) (P : St → Prop) : Run α → Prop
  | .done a s => Q a s
  | .stop _ s => P s

theorem Run.Post.bind {α β : Type} {Q : α → St → Prop} {P : St → Prop} {Q' : β → St → Prop}
    {r : Run α} {k : α → St → Run β} (h : r.Post Q P) (hk : ∀ a s, Q a s → (k a s).Post Q' P) :
    (r.bind k).Post Q' P := by
  cases r with
  | done a s => exact hk a s h
  | stop w s => exact h

theorem Run.Post.mono {α : Type} {Q Q' : α → St → Prop} {P P' : St → Prop} {r : Run α}
    (h : r.Post Q P) (hq : ∀ a s, Q a s → Q' a s) (hp : ∀ s, P s → P' s) : r.Post Q' P' := by
  cases r with
  | done a s => exact hq a s h
  | stop w s => exact hp s h

/-- The commands acted upon and the rest of the buffer make up what has been delivered. -/
structure Stream (s : St) : Prop where
  off : s.off ≤ s.buf.length
  eq : delivered s.log = (commands s.log).flatMap encode ++ s.buf.drop s.off
  wf : ∀ c ∈ commands s.log, WellFormed c

/-- An event which neither delivers anything nor is a command. -/
def Ev.Quiet (e : Ev) : Prop := e.delivered = [] ∧ e.command = none

theorem Stream.quiet {s : St} (h : Stream s) {e : Ev} (he : e.Quiet) : Stream (s.add e) := by
  obtain ⟨h1, h2⟩ := he
  constructor
  · exact h.off
  · simp only [St.add, delivered, commands, List.flatMap_append, List.filterMap_append,
      List.flatMap_cons, List.flatMap_nil, List.filterMap_cons, List.filterMap_nil, h1, h2,
      List.append_nil]
    exact h.eq
  · simp only [St.add, commands, List.filterMap_append, List.filterMap_cons, List.filterMap_nil, h2,
      List.append_nil]
    exact h.wf

theorem Stream.unrefs {s : St} (h : Stream s) (u : List (Bool × Nat)) :
    Stream { s with unrefs := u } := ⟨h.off, h.eq, h.wf⟩

theorem Stream.compact {s : St} (h : Stream s) : Stream (compact s) := by
  refine ⟨Nat.zero_le _, ?_, h.wf⟩
  simp only [Driver.compact, List.drop_zero]
  exact h.eq

theorem nextCommand_some {s : St} {c : Nat × Bytes} (h : nextCommand s = some c) :
    WellFormed c ∧ ∃ rest, s.buf.drop s.off = encode c ++ rest ∧
      s.off + (4 + iocSize c.1) ≤ s.buf.length ∧ s.buf.drop (s.off + (4 + iocSize c.1)) = rest := by
  unfold nextCommand at h
  generalize hr : s.buf.drop s.off = r at h
  simp only [] at h
  have hl : r.length = s.buf.length - s.off := by rw [← hr, List.length_drop]
  split at h
  · rename_i h4
    split at h
    · rename_i hn
      cases h
      have h4l : (r.take 4).length = 4 := by rw [List.length_take]; omega
      refine ⟨⟨hn.2, ?_, ?_⟩, (r.drop 4).drop (iocSize (leVal (r.take 4))), ?_, ?_, ?_⟩
      · have := leVal_lt (r.take 4)
        rw [h4l] at this
        simpa using this
      · simp only [List.length_take, List.length_drop]
        omega
      · have h5 : leBytes 4 (leVal (r.take 4)) = r.take 4 := by
          have := leBytes_leVal (r.take 4)
          rwa [h4l] at this
        simp only [encode, h5, List.append_assoc, List.take_append_drop]
      · simp only []; omega
      · rw [← hr, List.drop_drop, List.drop_drop]
        simp only [Nat.add_assoc]
    · cases h
  · cases h

theorem Stream.swallow {s : St} (h : Stream s) {cmd : Nat} {data : Bytes}
    (hn : nextCommand s = some (cmd, data)) : Stream (s.swallow cmd data) := by
  obtain ⟨hw, rest, h1, h2, h3⟩ := nextCommand_some hn
  constructor
  · exact h2
  · simp only [St.swallow, St.add, delivered, commands, List.flatMap_append, List.filterMap_append,
      List.flatMap_cons, List.flatMap_nil, List.filterMap_cons, List.filterMap_nil, Ev.delivered,
      Ev.command, List.append_nil]
    rw [h3, List.append_assoc, ← h1]
    exact h.eq
  · intro c hc
    simp only [St.swallow, St.add, commands, List.filterMap_append, List.filterMap_cons,
      List.filterMap_nil, Ev.command, List.mem_append, List.mem_singleton] at hc
    rcases hc with hc | rfl
    · exact h.wf c hc
    · exact hw

theorem Stream.write {W : World} {f : Nat} {b : Bytes} {s : St} (h : Stream s) :
    (write W f b s).Post (fun _ => Stream) Stream := by
  induction f generalizing s with
  | zero => exact h
  | succ f ih =>
    rw [Driver.write]
    split
    · exact h
    · split
      · exact ih (h.quiet ⟨rfl, rfl⟩)
      · exact h.quiet ⟨rfl, rfl⟩
    · exact h.quiet ⟨rfl, rfl⟩

theorem Stream.deliver {s : St} (h : Stream s) {w : Bytes} {room n : Nat} {rd : Bytes} :
    Stream { s.add (.ioctl w (some room) (.ok n rd)) with buf := s.buf ++ rd } := by
  constructor
  · have := h.off
    simp only [St.add, List.length_append]
    omega
  · simp only [St.add, delivered, commands, List.flatMap_append, List.filterMap_append,
      List.flatMap_cons, List.flatMap_nil, List.filterMap_cons, List.filterMap_nil, Ev.delivered,
      Ev.command, List.append_nil]
    rw [List.drop_append_of_le_length h.off, ← List.append_assoc]
    congr 1
    exact h.eq
  · simp only [St.add, commands, List.filterMap_append, List.filterMap_cons, List.filterMap_nil,
      Ev.command, List.append_nil]
    exact h.wf

theorem quiet_err (w : Bytes) (r : Option Nat) (e : Nat) : (Ev.ioctl w r (.err e)).Quiet := by
  cases r <;> exact ⟨rfl, rfl⟩

theorem Stream.writeRead {W : World} {f : Nat} {w : Bytes} {s : St} (h : Stream s) :
    (writeRead W f w s).Post (fun _ => Stream) Stream := by
  induction f generalizing s with
  | zero => exact h
  | succ f ih =>
    rw [Driver.writeRead]
    generalize readBufferSize - s.buf.length = room
    simp only []
    split
    · exact h
    · split
      · exact ih (h.quiet (quiet_err _ _ _))
      · exact h.quiet (quiet_err _ _ _)
    · exact h.deliver

theorem Stream.writeCmdData {W : World} {f : Nat} {c n : Nat} {data : Bytes} {s : St}
    (h : Stream s) : (writeCmdData W f c n data s).Post (fun _ => Stream) Stream := by
  unfold Driver.writeCmdData
  split
  · exact h
  · exact h.write.bind fun _ _ h => h

theorem Stream.cmdData {W : World} {io : Io} {f : Nat} {c : BC} {data : Bytes} {s : St}
    (h : Stream s) : (cmdData W io f c data s).Post (fun _ => Stream) Stream := h.writeCmdData

theorem Stream.freeBuffer {W : World} {io : Io} {f a : Nat} {s : St}
    (h : Stream s) : (freeBuffer W io f a s).Post (fun _ => Stream) Stream := by
  unfold Driver.freeBuffer
  split
  · exact h.write.bind fun _ _ h => h
  · exact h

theorem Stream.takeRequest {c : Cfg} {W : World} {f : Nat} {tx : TxData} {s : St}
    (h : Stream s) : (takeRequest c W f tx s).Post (fun _ => Stream) Stream := by
  unfold Driver.takeRequest
  have h1 : Stream (s.add (.own tx.data)) := h.quiet ⟨rfl, rfl⟩
  split
  · simp only []
    split
    · exact h1
    · split
      · exact h1
      · exact h1
  · exact h.freeBuffer.bind fun _ _ h => h

theorem Stream.sendReply {c : Cfg} {W : World} {f : Nat} {r : Option Writer} {st : Int} {s : St}
    (h : Stream s) : (sendReply c W f r st s).Post (fun _ => Stream) Stream := by
  unfold Driver.sendReply
  simp only []
  split
  · refine Run.Post.bind (Stream.write ?_) fun _ _ h => h
    exact (h.quiet ⟨rfl, rfl⟩).quiet ⟨rfl, rfl⟩
  · refine Run.Post.bind (Stream.write ?_) fun _ _ h => h
    exact h.quiet ⟨rfl, rfl⟩

theorem Stream.mutual {c : Cfg} {W : World} (f : Nat) :
    (∀ data s, Stream s → (handleTransaction c W f data s).Post (fun _ => Stream) Stream) ∧
    (∀ s, Stream s → (waitReplied c W f s).Post (fun _ => Stream) Stream) ∧
    (∀ cmd data s, Stream s → (handleCommand c W f cmd data s).Post (fun _ => Stream) Stream) ∧
    (∀ reply s, Stream s → (txstatus c W f reply s).Post (fun _ => Stream) Stream) := by
  induction f with
  | zero =>
    refine ⟨?_, ?_, ?_, ?_⟩ <;> intros <;>
      simp only [handleTransaction, waitReplied, handleCommand, txstatus] <;> assumption
  | succ f ih =>
    obtain ⟨ih1, ih2, ih3, ih4⟩ := ih
    refine ⟨?_, ?_, ?_, ?_⟩
    · intro data s h
      rw [handleTransaction]
      split
      · exact h
      · simp only []
        refine h.takeRequest.bind fun _ s h => ?_
        split
        · exact h.quiet ⟨rfl, rfl⟩
        · exact (Stream.sendReply (h.quiet ⟨rfl, rfl⟩)).bind fun _ s h => ih2 s h
    · intro s h
      rw [waitReplied]
      refine h.writeRead.bind fun r s h => ?_
      split
      · exact h
      · refine (ih4 _ _ h).bind fun st s h => ?_
        split
        · exact ih2 _ h
        · exact h
    · intro cmd data s h
      rw [handleCommand]
      split
      · split
        · exact h
        · refine Stream.cmdData ?_
          split
          · exact h.quiet ⟨rfl, rfl⟩
          · exact h
      split
      · split
        · exact h
        · simp only [Run.Post]
          split
          · exact h.unrefs _
          · exact h
      split
      · split
        · exact h
        · split
          · exact h.quiet ⟨rfl, rfl⟩
          · exact h.cmdData
      split
      · split
        · exact h
        · simp only [Run.Post]
          split
          · exact h.unrefs _
          · exact h
      split
      · exact ih1 _ _ h
      split
      · split
        · exact h
        · split
          · exact h.quiet ⟨rfl, rfl⟩
          · exact h.cmdData
      exact h
    · intro reply s h
      rw [txstatus]
      split
      · exact h.compact
      · rename_i cmd data hn
        have h1 := h.swallow hn
        simp only []
        split
        · split
          · exact ih4 _ _ h1
          · exact h1.compact
        split
        · exact h1.compact
        split
        · exact h1.compact
        split
        · split
          · exact h1
          · refine Run.Post.bind (Q := fun _ => Stream) ?_ fun _ _ h => h.compact
            split
            · exact h1.quiet ⟨rfl, rfl⟩
            · exact h1.freeBuffer
        · exact (ih3 _ _ _ h1).bind fun _ s h => ih4 _ _ h

end Gb.Driver
