import Verif.Spec.Status
import Verif.Lemmas.Duties
import Verif.Lemmas.TxFlags
import Verif.Lemmas.DriverStream
/- The waiting loops follow the specification of the status. -/
set_option autoImplicit false

namespace Gb.Driver

theorem track_add {io : Io} {reply : Bool} (l : List Ev) (e : Ev) :
    track io reply (l ++ [e]) = (track io reply l).step io reply l e := by
  simp [track, trackRev]

/-- An event which has no influence. -/
def Ev.Mute : Ev → Prop
  | .cmd .. => False
  | .ioctl _ (some _) (.err n) => n = EAGAIN
  | _ => True

theorem track_mute {io : Io} {reply : Bool} {l : List Ev} {e : Ev} (h : e.Mute) :
    track io reply (l ++ [e]) = track io reply l := by
  rw [track_add]
  cases e with
  | cmd c d => cases h
  | ioctl w r res =>
    cases r with
    | none => cases res <;> rfl
    | some r =>
      cases res with
      | ok n rd => rfl
      | err n =>
        simp only [Ev.Mute] at h
        simp [Track.step, h]
  | _ => rfl

theorem repliedTo_not_report {io : Io} {c : Nat} {d : Bytes} (h : repliedTo io c d = true) :
    isReport io c = false := by
  simp only [repliedTo, decide_eq_true_eq] at h
  rw [h.1]
  simp only [isReport, decide_eq_false_iff_not, not_or]
  refine ⟨?_, ?_, ?_, ?_⟩ <;> exact BR.code_ne (by decide)

theorem report_not_replied {io : Io} {c : Nat} {d : Bytes} (h : isReport io c = true) :
    repliedTo io c d = false := by
  cases hr : repliedTo io c d
  · rfl
  · rw [repliedTo_not_report hr] at h; cases h

abbrev Tk (io : Io) (reply : Bool) (t : Track) (s : St) : Prop := track io reply s.log = t

theorem Tk.add {io : Io} {reply : Bool} {t : Track} {s : St} (h : Tk io reply t s) {e : Ev}
    (he : e.Mute) : Tk io reply t (s.add e) := (track_mute he).trans h

abbrev Tp {α : Type} (io : Io) (reply : Bool) (t : Track) (r : Run α) : Prop :=
  r.Post (fun _ => Tk io reply t) (fun _ => True)

theorem Tk.write {io : Io} {reply : Bool} {t : Track} {W : World} {f : Nat} {b : Bytes} {s : St}
    (h : Tk io reply t s) : Tp io reply t (write W f b s) := by
  induction f generalizing s with
  | zero => trivial
  | succ f ih =>
    rw [Driver.write]
    split
    · trivial
    · split
      · exact ih (h.add (by trivial))
      · exact h.add (by trivial)
    · exact h.add (by trivial)

/-- Reading either succeeds, which does not change anything, or fails. -/
theorem Tk.writeRead {io : Io} {reply : Bool} {t : Track} {W : World} {f : Nat} {w : Bytes} {s : St}
    (h : Tk io reply t s) :
    (writeRead W f w s).Post (fun r s => match r.1 with
      | none => Tk io reply t s
      | some n => n ≠ EAGAIN ∧ ∃ w room l, s.log = l ++ [.ioctl w (some room) (.err n)] ∧
          track io reply l = t) (fun _ => True) := by
  induction f generalizing s with
  | zero => trivial
  | succ f ih =>
    rw [Driver.writeRead]
    generalize readBufferSize - s.buf.length = room
    simp only []
    split
    · trivial
    · split
      · rename_i hn
        exact ih (h.add (by simp only [Ev.Mute]; exact hn))
      · rename_i hn
        exact ⟨hn, w, room, s.log, rfl, h⟩
    · exact h.add (by trivial)

theorem Tk.freeBuffer {io io' : Io} {reply : Bool} {t : Track} {W : World} {f a : Nat} {s : St}
    (h : Tk io reply t s) : Tp io reply t (freeBuffer W io' f a s) := by
  unfold Driver.freeBuffer
  split
  · exact h.write.bind fun _ _ h => h
  · exact h

theorem Tk.takeRequest {io : Io} {reply : Bool} {t : Track} {k : Cfg} {W : World} {f : Nat}
    {tx : TxData} {s : St} (h : Tk io reply t s) : Tp io reply t (takeRequest k W f tx s) := by
  unfold Driver.takeRequest
  have h1 : Tk io reply t (s.add (.own tx.data)) := h.add (by trivial)
  split
  · simp only []
    split
    · trivial
    · split
      · trivial
      · exact h1
  · exact h.freeBuffer.bind fun _ _ h => h

theorem Tk.sendReply {io : Io} {reply : Bool} {t : Track} {k : Cfg} {W : World} {f : Nat}
    {r : Option Writer} {st : Int} {s : St} (h : Tk io reply t s) :
    Tp io reply t (sendReply k W f r st s) := by
  unfold Driver.sendReply
  simp only []
  split
  · exact (Tk.write ((h.add (by trivial)).add (by trivial))).bind fun _ _ h => h
  · exact (Tk.write (h.add (by trivial))).bind fun _ _ h => h

theorem Tk.writeCmdData {io : Io} {reply : Bool} {t : Track} {W : World} {f c n : Nat} {data : Bytes}
    {s : St} (h : Tk io reply t s) : Tp io reply t (writeCmdData W f c n data s) := by
  unfold Driver.writeCmdData
  split
  · trivial
  · exact h.write.bind fun _ _ h => h

theorem Tk.cmdData {io io' : Io} {reply : Bool} {t : Track} {W : World} {f : Nat} {c : BC}
    {data : Bytes} {s : St} (h : Tk io reply t s) : Tp io reply t (cmdData W io' f c data s) :=
  h.writeCmdData

/-- One more reply is being waited for. -/
def Track.up (t : Track) : Track := { t with depth := t.depth + 1 }

def Track.upIf (t : Track) (b : Bool) : Track := if b then t.up else t

theorem step_down {io : Io} {reply : Bool} {t : Track} {pre : List Ev} {w : Bytes} {room n : Nat}
    (h : n ≠ EAGAIN) : (t.up).step io reply pre (.ioctl w (some room) (.err n)) = t := by
  simp [Track.step, Track.up, h]

theorem step_report {io : Io} {reply : Bool} {t : Track} {pre : List Ev} {c : Nat} {d : Bytes}
    (h : isReport io c = true) : (t.up).step io reply pre (.cmd c d) = t := by
  simp [Track.step, Track.up, h, report_not_replied h]

theorem step_other {io : Io} {reply : Bool} {t : Track} {pre : List Ev} {c : Nat} {d : Bytes}
    (h : isReport io c = false) : t.step io reply pre (.cmd c d) = t.upIf (repliedTo io c d) := by
  simp only [Track.step, h, Track.upIf, Track.up]
  split <;> rfl

theorem not_report {io : Io} {c : Nat} (h1 : c ≠ BR.transactionComplete.code io)
    (h2 : c ≠ BR.deadReply.code io) (h3 : c ≠ BR.failedReply.code io) (h4 : c ≠ BR.reply.code io) :
    isReport io c = false := by simp [isReport, h1, h2, h3, h4]

theorem track_mutual {k : Cfg} {W : World} {reply : Bool} (f : Nat) :
    (∀ t d s, Tk k.io reply (t.upIf (repliedTo k.io (BR.transaction.code k.io) d)) s →
      Tp k.io reply t (handleTransaction k W f d s)) ∧
    (∀ t s, Tk k.io reply t.up s → Tp k.io reply t (waitReplied k W f s)) ∧
    (∀ t c d s, Tk k.io reply (t.upIf (repliedTo k.io c d)) s →
      Tp k.io reply t (handleCommand k W f c d s)) ∧
    (∀ t s, Tk k.io reply t.up s → (txstatus k W f false s).Post
      (fun st s => Tk k.io reply (if st = -(EAGAIN : Int) then t.up else t) s) (fun _ => True)) := by
  induction f with
  | zero =>
    refine ⟨?_, ?_, ?_, ?_⟩ <;> intros <;>
      simp only [handleTransaction, waitReplied, handleCommand, txstatus] <;> trivial
  | succ f ih =>
    obtain ⟨ih1, ih2, ih3, ih4⟩ := ih
    refine ⟨?_, ?_, ?_, ?_⟩
    · intro t d s h
      rw [handleTransaction]
      split
      · trivial
      · rename_i tx hd
        simp only []
        refine h.takeRequest.bind fun iface s h => ?_
        have ho := decoded_oneway hd
        split
        · rename_i hone
          rw [hone] at ho
          have : repliedTo k.io (BR.transaction.code k.io) d = false := by
            simp only [Bool.true_eq, Bool.and_eq_true, decide_eq_true_eq] at ho
            simp [repliedTo, ho.1, ho.2]
          rw [this] at h
          exact h.add (by trivial)
        · rename_i hone
          have hone' : tx.oneway = false := by simpa using hone
          rw [hone'] at ho
          have : repliedTo k.io (BR.transaction.code k.io) d = true := by
            simp only [repliedTo, true_and, decide_eq_true_eq]
            by_cases h1 : txFlags k.io d / tfStatusCode % 2 = 1
            · exact .inl h1
            · simp only [h1, ne_eq, not_false_eq_true, decide_true, Bool.true_and, Bool.false_eq,
                decide_eq_false_iff_not] at ho
              exact .inr ho
          rw [this] at h
          exact (Tk.sendReply (h.add (by trivial))).bind fun _ s h => ih2 t s h
    · intro t s h
      rw [waitReplied]
      refine h.writeRead.bind fun r s h => ?_
      split
      · rename_i n hn
        rw [hn] at h
        obtain ⟨h1, w, room, l, h2, h3⟩ := h
        simp only [Run.Post, Tk, h2]
        rw [track_add, h3, step_down h1]
      · rename_i hn
        rw [hn] at h
        refine (ih4 t _ h).bind fun st s h => ?_
        split
        · rename_i hs
          rw [if_pos hs] at h
          exact ih2 t _ h
        · rename_i hs
          rw [if_neg hs] at h
          exact h
    · intro t c d s h
      have hno : ∀ b : BR, b ≠ .transaction → c = b.code k.io → Tk k.io reply t s := by
        intro b hb hc
        have : repliedTo k.io c d = false := by
          simp only [repliedTo, hc, decide_eq_false_iff_not, not_and]
          intro h1
          exact absurd (BR.code_inj h1) hb
        rw [this] at h
        exact h
      rw [handleCommand]
      split
      · rename_i hc
        have h := hno _ (by decide) hc
        split
        · trivial
        · refine Tk.cmdData ?_
          split
          · exact h.add (by trivial)
          · exact h
      split
      · rename_i hc
        have h := hno _ (by decide) hc
        split
        · trivial
        · simp only [Run.Post]
          split <;> exact h
      split
      · rename_i hc
        have h := hno _ (by decide) hc
        split
        · trivial
        · split
          · exact h.add (by trivial)
          · exact h.cmdData
      split
      · rename_i hc
        have h := hno _ (by decide) hc
        split
        · trivial
        · simp only [Run.Post]
          split <;> exact h
      split
      · rename_i hc
        rw [hc] at h
        exact ih1 t _ _ h
      rename_i hnt
      split
      · rename_i hc
        have h := hno _ (by decide) hc
        split
        · trivial
        · split
          · exact h.add (by trivial)
          · exact h.cmdData
      have : repliedTo k.io c d = false := by simp [repliedTo, hnt]
      rw [this] at h
      exact h
    · intro t s h
      rw [txstatus]
      split
      · exact h
      · rename_i cmd data hn
        have hsw : track k.io reply (s.swallow cmd data).log =
            (t.up).step k.io reply s.log (.cmd cmd data) := by
          simp only [St.swallow, St.add]
          rw [track_add, h]
        have hrep : isReport k.io cmd = true → Tk k.io reply t (s.swallow cmd data) := by
          intro hr
          rw [step_report hr] at hsw
          exact hsw
        simp only []
        split
        · rename_i hc
          have h1 := hrep (by simp [isReport, hc])
          exact h1
        rename_i n1
        split
        · rename_i hc
          have h1 := hrep (by simp [isReport, hc])
          exact h1
        rename_i n2
        split
        · rename_i hc
          have h1 := hrep (by simp [isReport, hc])
          exact h1
        rename_i n3
        split
        · rename_i hc
          have h1 := hrep (by simp [isReport, hc])
          split
          · trivial
          · rename_i tx _
            refine Run.Post.bind (Q := fun _ => Tk k.io reply t) ?_ fun _ s h => ?_
            · split
              · exact h1.add (by trivial)
              · exact h1.freeBuffer
            · simp only [Run.Post]
              rw [if_neg (filterStatus_ne _).1]
              exact h
        · rename_i n4
          have hnr := not_report n1 n2 n3 n4
          rw [step_other hnr] at hsw
          exact (ih3 t.up _ _ _ hsw).bind fun _ s h => ih4 t _ h

/-- The wait of the transaction itself. -/
def Ended (W : World) (io : Io) (reply : Bool) (st : Int) (s : St) : Prop :=
  ∃ pre e, track io reply s.log = { ended := some (pre, e) } ∧ Verdict W io reply pre e st

theorem verdict_reply {W : World} {io : Io} {reply : Bool} {pre : List Ev} {d : Bytes} {tx : TxData}
    (h : decodeTransactionData io (W.mem (pre ++ [.cmd (BR.reply.code io) d])) d = .ok tx) :
    Verdict W io reply pre (.cmd (BR.reply.code io) d) (filterStatus tx.status) := by
  refine .reply (v := signed32 tx.status) h ?_ ?_ ?_ <;> unfold signed32 <;> split <;> omega

theorem track_txstatus {k : Cfg} {W : World} {reply : Bool} {f : Nat} {s : St}
    (h : Tk k.io reply {} s) : (txstatus k W f reply s).Post
      (fun st s => if st = -(EAGAIN : Int) then Tk k.io reply {} s else Ended W k.io reply st s)
      (fun _ => True) := by
  induction f generalizing s with
  | zero => simp only [txstatus]; trivial
  | succ f ih =>
    rw [txstatus]
    split
    · exact h
    · rename_i cmd data hn
      have hsw : track k.io reply (s.swallow cmd data).log =
          ({} : Track).step k.io reply s.log (.cmd cmd data) := by
        simp only [St.swallow, St.add]
        rw [track_add, h]
      have hend : ∀ st : Int, isReport k.io cmd = true →
          ¬(cmd = BR.transactionComplete.code k.io ∧ reply) →
          Verdict W k.io reply s.log (.cmd cmd data) st →
          ∀ s', track k.io reply s'.log = track k.io reply (s.swallow cmd data).log →
          Ended W k.io reply st s' := by
        intro st hr hc hv s' hs'
        refine ⟨s.log, .cmd cmd data, ?_, hv⟩
        rw [hs', hsw]
        simp [Track.step, hr, report_not_replied hr, hc]
      simp only []
      split
      · rename_i hc
        have hr : isReport k.io cmd = true := by simp [isReport, hc]
        split
        · rename_i hrep
          refine ih ?_
          rw [Tk, hsw]
          have hx := report_not_replied (d := data) hr
          simp only [Track.step, hr, hx, Bool.false_eq_true, if_false, if_true, ne_eq,
            not_true_eq_false]
          rw [if_pos ⟨hc, hrep⟩]
        · rename_i hrep
          refine hend 0 hr (by simp [hrep]) ?_ _ rfl
          rw [hc]
          exact .complete (by simpa using hrep)
      rename_i n1
      split
      · rename_i hc
        have hr : isReport k.io cmd = true := by simp [isReport, hc]
        refine hend 2 hr (fun h => n1 h.1) ?_ _ rfl
        rw [hc]
        exact .dead
      rename_i n2
      split
      · rename_i hc
        have hr : isReport k.io cmd = true := by simp [isReport, hc]
        refine hend 1 hr (fun h => n1 h.1) ?_ _ rfl
        rw [hc]
        exact .failed
      rename_i n3
      split
      · rename_i hc
        have hr : isReport k.io cmd = true := by simp [isReport, hc]
        split
        · trivial
        · rename_i tx htx
          refine Run.Post.bind (Q := fun _ =>
            Tk k.io reply (track k.io reply (s.swallow cmd data).log)) ?_ fun _ s' hs' => ?_
          · split
            · exact Tk.add rfl (by trivial)
            · exact Tk.freeBuffer rfl
          · simp only [Run.Post]
            rw [if_neg (filterStatus_ne _).1]
            refine hend _ hr (fun h => n1 h.1) ?_ _ hs'
            subst hc
            exact verdict_reply htx
      · rename_i n4
        have hnr := not_report n1 n2 n3 n4
        rw [step_other hnr] at hsw
        exact ((track_mutual f).2.2.1 {} _ _ _ hsw).bind fun _ s h => ih h

/-- Commands which are left after the transaction has ended. -/
theorem track_handleCommands {k : Cfg} {W : World} {reply : Bool} {f : Nat} {x : List Ev × Ev}
    {s : St} (h : Tk k.io reply { ended := some x } s) :
    Tp k.io reply { ended := some x } (handleCommands k W f s) := by
  induction f generalizing s with
  | zero => trivial
  | succ f ih =>
    rw [handleCommands]
    split
    · exact h
    · rename_i cmd data hn
      refine ((track_mutual f).2.2.1 { ended := some x } _ _ _ ?_).bind fun _ _ h => ih h
      simp only [Tk, St.swallow, St.add]
      rw [track_add, h]
      simp only [Track.step, Track.upIf, Track.up]
      split
      · rfl
      · split <;> simp

theorem ended_error {W : World} {io : Io} {reply : Bool} {t : Track} {n : Nat} {s : St}
    (hd : t.depth = 0) (h : n ≠ EAGAIN ∧ ∃ w room l, s.log = l ++ [.ioctl w (some room) (.err n)] ∧
      track io reply l = t) : Ended W io reply (-(n : Int)) s := by
  obtain ⟨h1, w, room, l, h2, h3⟩ := h
  refine ⟨l, .ioctl w (some room) (.err n), ?_, .error h1⟩
  rw [h2, track_add, h3]
  simp only [Track.step]
  rw [if_neg h1, if_neg (by simp [hd])]
  cases t
  simp_all

theorem track_transactLoop {k : Cfg} {W : World} {reply : Bool} {f : Nat} {w : Bytes} {s : St}
    (h : Tk k.io reply {} s) :
    (transactLoop k W reply f w s).Post (Ended W k.io reply) (fun _ => True) := by
  induction f generalizing s w with
  | zero => trivial
  | succ f ih =>
    rw [transactLoop]
    refine h.writeRead.bind fun r s h => ?_
    split
    · rename_i n hn
      rw [hn] at h
      exact ended_error rfl h
    · rename_i hn
      rw [hn] at h
      refine (track_txstatus h).bind fun st s h => ?_
      split
      · rename_i hs
        rw [if_pos hs] at h
        exact ih h
      · rename_i hs
        rw [if_neg hs] at h
        exact h

theorem track_finishLoop {k : Cfg} {W : World} {reply : Bool} {f : Nat} {st : Int} {s : St}
    (h : Ended W k.io reply st s) :
    (finishLoop k W f st s).Post (Ended W k.io reply) (fun _ => True) := by
  induction f generalizing s with
  | zero => trivial
  | succ f ih =>
    rw [finishLoop]
    split
    · obtain ⟨pre, e, h1, h2⟩ := h
      refine (Tk.writeRead h1).bind fun r s h => ?_
      split
      · rename_i n hn
        rw [hn] at h
        exact ended_error rfl h
      · rename_i hn
        rw [hn] at h
        exact (track_handleCommands h).bind fun _ s h => ih ⟨pre, e, h, h2⟩
    · exact h

theorem track_mutes {io : Io} {reply : Bool} {l x : List Ev} (h : ∀ e ∈ x, e.Mute) :
    track io reply (l ++ x) = track io reply l := by
  induction x generalizing l with
  | nil => simp
  | cons e x ih =>
    have := ih (l := l ++ [e]) fun y hy => h y (by simp [hy])
    rw [List.append_assoc, List.singleton_append] at this
    rw [this, track_mute (h e (by simp))]

theorem track_cleanup {io : Io} {reply : Bool} (s : St) :
    track io reply (cleanupContext s).log = track io reply s.log := by
  refine track_mutes fun e he => ?_
  rw [List.mem_map] at he
  obtain ⟨x, _, rfl⟩ := he
  split <;> trivial

theorem track_transact {k : Cfg} {W : World} {f handle code : Nat} {req : Writer} {reply : Bool}
    {s : St} (h : s.Fresh) :
    (transact k W f handle code req reply s).Post (Ended W k.io reply) (fun _ => True) := by
  unfold transact
  simp only []
  have h0 : Tk k.io reply {} s := by rw [Tk, h.2.2.2]; rfl
  have hc : ∀ st s, Ended W k.io reply st s → Ended W k.io reply st (cleanupContext s) := by
    rintro st s ⟨pre, e, h1, h2⟩
    exact ⟨pre, e, (track_cleanup s).trans h1, h2⟩
  refine (track_transactLoop ((h0.add (by trivial)).add (by trivial))).bind fun st s h => ?_
  split
  · obtain ⟨pre, e, h1, h2⟩ := h
    refine (track_handleCommands h1).bind fun _ _ h => ?_
    exact (track_finishLoop ⟨pre, e, h, h2⟩).bind fun st s h => hc st s h
  · exact hc st s h

end Gb.Driver
