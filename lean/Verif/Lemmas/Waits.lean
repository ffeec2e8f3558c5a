import Verif.Lemmas.Status
import Verif.Spec.Waits
/- When the command loops wait for the kernel, and how long they can go on without it. -/
set_option autoImplicit false

namespace Gb.Driver

/-! ### Waiting -/

/-- A property of the result and the state a run returns in, and one of the state in which it waits for the kernel. -/
def Run.Blk {α : Type} (Q : α → St → Prop) (B : St → Prop) : Run α → Prop
  | .done a s => Q a s
  | .stop .blocked s => B s
  | .stop _ _ => True

theorem Run.Blk.bind {α β : Type} {Q : α → St → Prop} {B : St → Prop} {Q' : β → St → Prop}
    {r : Run α} {k : α → St → Run β} (h : r.Blk Q B) (hk : ∀ a s, Q a s → (k a s).Blk Q' B) :
    (r.bind k).Blk Q' B := by
  cases r with
  | done a s => exact hk a s h
  | stop w s => cases w <;> exact h

theorem Run.Blk.mono {α : Type} {Q Q' : α → St → Prop} {B B' : St → Prop} {r : Run α}
    (h : r.Blk Q B) (hq : ∀ a s, Q a s → Q' a s) (hb : ∀ s, B s → B' s) : r.Blk Q' B' := by
  cases r with
  | done a s => exact hq a s h
  | stop w s => cases w <;> first | trivial | exact hb s h

/-- Never waits. -/
def Run.Quick {α : Type} : Run α → Prop
  | .stop .blocked _ => False
  | _ => True

theorem Run.Quick.bind {α β : Type} {r : Run α} {k : α → St → Run β} (h : r.Quick) (hk : ∀ a s, (k a s).Quick) :
    (r.bind k).Quick := by
  cases r with
  | done a s => exact hk a s
  | stop w s => cases w <;> first | trivial | exact h

theorem Run.Quick.blk {α : Type} {Q : α → St → Prop} {P B : St → Prop} {r : Run α} (h : r.Quick) (hp : r.Post Q P) :
    r.Blk Q B := by
  cases r with
  | done a s => exact hp
  | stop w s => cases w <;> first | trivial | exact h.elim

theorem quick_write {W : World} (hW : W.Prompt) {f : Nat} {b : Bytes} {s : St} : (write W f b s).Quick := by
  induction f generalizing s with
  | zero => trivial
  | succ f ih =>
    rw [Driver.write]
    split
    · rename_i h; exact absurd h (hW _ _)
    · split
      · exact ih
      · trivial
    · trivial

theorem quick_freeBuffer {W : World} (hW : W.Prompt) {io : Io} {f a : Nat} {s : St} : (freeBuffer W io f a s).Quick := by
  unfold Driver.freeBuffer
  split
  · exact (quick_write hW).bind fun _ _ => trivial
  · trivial

theorem quick_takeRequest {W : World} (hW : W.Prompt) {k : Cfg} {f : Nat} {tx : TxData} {s : St} :
    (takeRequest k W f tx s).Quick := by
  unfold Driver.takeRequest
  split
  · simp only []
    split
    · trivial
    · split <;> trivial
  · exact (quick_freeBuffer hW).bind fun _ _ => trivial

theorem quick_sendReply {W : World} (hW : W.Prompt) {k : Cfg} {f : Nat} {r : Option Writer} {st : Int} {s : St} :
    (sendReply k W f r st s).Quick := by
  unfold Driver.sendReply
  simp only []
  split <;> exact (quick_write hW).bind fun _ _ => trivial

theorem quick_writeCmdData {W : World} (hW : W.Prompt) {f c n : Nat} {data : Bytes} {s : St} :
    (writeCmdData W f c n data s).Quick := by
  unfold writeCmdData
  split
  · trivial
  · exact (quick_write hW).bind fun _ _ => trivial

theorem quick_cmdData {W : World} (hW : W.Prompt) {io : Io} {f : Nat} {c : BC} {data : Bytes} {s : St} :
    (cmdData W io f c data s).Quick := quick_writeCmdData hW

/-- Waits in the state it was called in, as far as the transaction is concerned. -/
theorem blk_writeRead {io : Io} {reply : Bool} {t : Track} {W : World} {f : Nat} {w : Bytes} {s : St} {B : St → Prop}
    (h : Tk io reply t s) (hB : ∀ s', track io reply s'.log = t → s'.buf = s.buf → s'.off = s.off → B s') :
    (writeRead W f w s).Blk (fun r s => match r.1 with
      | none => Tk io reply t s
      | some n => n ≠ EAGAIN ∧ ∃ w room l, s.log = l ++ [.ioctl w (some room) (.err n)] ∧
          track io reply l = t) B := by
  induction f generalizing s with
  | zero => trivial
  | succ f ih =>
    rw [Driver.writeRead]
    generalize readBufferSize - s.buf.length = room
    simp only []
    split
    · exact hB s h rfl rfl
    · split
      · rename_i hn
        exact ih (h.add (by simp only [Ev.Mute]; exact hn)) hB
      · rename_i hn
        exact ⟨hn, w, room, s.log, rfl, h⟩
    · exact h.add (by trivial)

/-- Somebody is waiting until the reply is handled. -/
def Nested (io : Io) (reply : Bool) (s : St) : Prop := 0 < (track io reply s.log).depth

abbrev Bp {α : Type} (io : Io) (reply : Bool) (t : Track) (r : Run α) : Prop :=
  r.Blk (fun _ => Tk io reply t) (Nested io reply)

theorem blk_mutual {k : Cfg} {W : World} (hW : W.Prompt) {reply : Bool} (f : Nat) :
    (∀ t d s, Tk k.io reply (t.upIf (repliedTo k.io (BR.transaction.code k.io) d)) s →
      Bp k.io reply t (handleTransaction k W f d s)) ∧
    (∀ t s, Tk k.io reply t.up s → Bp k.io reply t (waitReplied k W f s)) ∧
    (∀ t c d s, Tk k.io reply (t.upIf (repliedTo k.io c d)) s →
      Bp k.io reply t (handleCommand k W f c d s)) ∧
    (∀ t s, Tk k.io reply t.up s → (txstatus k W f false s).Blk
      (fun st s => Tk k.io reply (if st = -(EAGAIN : Int) then t.up else t) s) (Nested k.io reply)) := by
  induction f with
  | zero =>
    refine ⟨?_, ?_, ?_, ?_⟩ <;> intros <;>
      simp only [handleTransaction, waitReplied, handleCommand, txstatus] <;> trivial
  | succ f ih =>
    obtain ⟨ih1, ih2, ih3, ih4⟩ := ih
    refine ⟨?_, ?_, ?_, ?_⟩
    · intro t d s h
      rw [handleTransaction]
      split
      · trivial
      · rename_i tx hd
        simp only []
        refine ((quick_takeRequest hW).blk h.takeRequest).bind fun iface s h => ?_
        have ho := decoded_oneway hd
        split
        · rename_i hone
          rw [hone] at ho
          have : repliedTo k.io (BR.transaction.code k.io) d = false := by
            simp only [Bool.true_eq, Bool.and_eq_true, decide_eq_true_eq] at ho
            simp [repliedTo, ho.1, ho.2]
          rw [this] at h
          exact h.add (by trivial)
        · rename_i hone
          have hone' : tx.oneway = false := by simpa using hone
          rw [hone'] at ho
          have : repliedTo k.io (BR.transaction.code k.io) d = true := by
            simp only [repliedTo, true_and, decide_eq_true_eq]
            by_cases h1 : txFlags k.io d / tfStatusCode % 2 = 1
            · exact .inl h1
            · simp only [h1, ne_eq, not_false_eq_true, decide_true, Bool.true_and, Bool.false_eq,
                decide_eq_false_iff_not] at ho
              exact .inr ho
          rw [this] at h
          exact ((quick_sendReply hW).blk (Tk.sendReply (h.add (by trivial)))).bind fun _ s h => ih2 t s h
    · intro t s h
      rw [waitReplied]
      refine (blk_writeRead h fun s' h' _ _ => ?_).bind fun r s h => ?_
      · simp [Nested, h', Track.up]
      split
      · rename_i n hn
        rw [hn] at h
        obtain ⟨h1, w, room, l, h2, h3⟩ := h
        simp only [Run.Blk, Tk, h2]
        rw [track_add, h3, step_down h1]
      · rename_i hn
        rw [hn] at h
        refine (ih4 t _ h).bind fun st s h => ?_
        split
        · rename_i hs
          rw [if_pos hs] at h
          exact ih2 t _ h
        · rename_i hs
          rw [if_neg hs] at h
          exact h
    · intro t c d s h
      have hno : ∀ b : BR, b ≠ .transaction → c = b.code k.io → Tk k.io reply t s := by
        intro b hb hc
        have : repliedTo k.io c d = false := by
          simp only [repliedTo, hc, decide_eq_false_iff_not, not_and]
          intro h1
          exact absurd (BR.code_inj h1) hb
        rw [this] at h
        exact h
      rw [handleCommand]
      split
      · rename_i hc
        have h := hno _ (by decide) hc
        split
        · trivial
        · refine (quick_cmdData hW).blk (Tk.cmdData ?_)
          split
          · exact h.add (by trivial)
          · exact h
      split
      · rename_i hc
        have h := hno _ (by decide) hc
        split
        · trivial
        · simp only [Run.Blk]
          split <;> exact h
      split
      · rename_i hc
        have h := hno _ (by decide) hc
        split
        · trivial
        · split
          · exact h.add (by trivial)
          · exact (quick_cmdData hW).blk h.cmdData
      split
      · rename_i hc
        have h := hno _ (by decide) hc
        split
        · trivial
        · simp only [Run.Blk]
          split <;> exact h
      split
      · rename_i hc
        rw [hc] at h
        exact ih1 t _ _ h
      rename_i hnt
      split
      · rename_i hc
        have h := hno _ (by decide) hc
        split
        · trivial
        · split
          · exact h.add (by trivial)
          · exact (quick_cmdData hW).blk h.cmdData
      have : repliedTo k.io c d = false := by simp [repliedTo, hnt]
      rw [this] at h
      exact h
    · intro t s h
      rw [txstatus]
      split
      · exact h
      · rename_i cmd data hn
        have hsw : track k.io reply (s.swallow cmd data).log =
            (t.up).step k.io reply s.log (.cmd cmd data) := by
          simp only [St.swallow, St.add]
          rw [track_add, h]
        have hrep : isReport k.io cmd = true → Tk k.io reply t (s.swallow cmd data) := by
          intro hr
          rw [step_report hr] at hsw
          exact hsw
        simp only []
        split
        · rename_i hc
          have h1 := hrep (by simp [isReport, hc])
          exact h1
        rename_i n1
        split
        · rename_i hc
          have h1 := hrep (by simp [isReport, hc])
          exact h1
        rename_i n2
        split
        · rename_i hc
          have h1 := hrep (by simp [isReport, hc])
          exact h1
        rename_i n3
        split
        · rename_i hc
          have h1 := hrep (by simp [isReport, hc])
          split
          · trivial
          · rename_i tx _
            refine Run.Blk.bind (Q := fun _ => Tk k.io reply t) ?_ fun _ s h => ?_
            · split
              · exact h1.add (by trivial)
              · exact (quick_freeBuffer hW).blk h1.freeBuffer
            · simp only [Run.Blk]
              rw [if_neg (filterStatus_ne _).1]
              exact h
        · rename_i n4
          have hnr := not_report n1 n2 n3 n4
          rw [step_other hnr] at hsw
          exact (ih3 t.up _ _ _ hsw).bind fun _ s h => ih4 t _ h

/-- What gbinder_driver_transact may be waiting for: that a reply is handled, that the transaction ends, or for the rest of a
command. -/
def Waiting (io : Io) (reply : Bool) (s : St) : Prop :=
  Nested io reply s ∨ (nextCommand s = none ∧ (track io reply s.log = {} ∨
    (∃ x, track io reply s.log = { ended := some x }) ∧ s.buf ≠ [] ∧ s.off = 0))

theorem blk_txstatus {k : Cfg} {W : World} (hW : W.Prompt) {reply : Bool} {f : Nat} {s : St}
    (h : Tk k.io reply {} s) : (txstatus k W f reply s).Blk
      (fun st s => s.off = 0 ∧ if st = -(EAGAIN : Int) then Tk k.io reply {} s ∧ nextCommand s = none else
        ∃ x, Tk k.io reply { ended := some x } s)
      (Nested k.io reply) := by
  induction f generalizing s with
  | zero => simp only [txstatus]; trivial
  | succ f ih =>
    rw [txstatus]
    split
    · rename_i hn
      exact ⟨rfl, h, by rw [nextCommand_compact]; exact hn⟩
    · rename_i cmd data hn
      have hsw : track k.io reply (s.swallow cmd data).log =
          ({} : Track).step k.io reply s.log (.cmd cmd data) := by
        simp only [St.swallow, St.add]
        rw [track_add, h]
      have hend : isReport k.io cmd = true → ¬(cmd = BR.transactionComplete.code k.io ∧ reply) →
          ∀ s', track k.io reply s'.log = track k.io reply (s.swallow cmd data).log →
          ∃ x, Tk k.io reply { ended := some x } s' := by
        intro hr hc s' hs'
        refine ⟨(s.log, .cmd cmd data), ?_⟩
        rw [Tk, hs', hsw]
        simp [Track.step, hr, report_not_replied hr, hc]
      simp only []
      split
      · rename_i hc
        have hr : isReport k.io cmd = true := by simp [isReport, hc]
        split
        · rename_i hrep
          refine ih ?_
          rw [Tk, hsw]
          have hx := report_not_replied (d := data) hr
          simp only [Track.step, hr, hx, Bool.false_eq_true, if_false, if_true, ne_eq,
            not_true_eq_false]
          rw [if_pos ⟨hc, hrep⟩]
        · rename_i hrep
          exact ⟨rfl, hend hr (by simp [hrep]) _ rfl⟩
      rename_i n1
      split
      · rename_i hc
        exact ⟨rfl, hend (by simp [isReport, hc]) (fun h => n1 h.1) _ rfl⟩
      rename_i n2
      split
      · rename_i hc
        exact ⟨rfl, hend (by simp [isReport, hc]) (fun h => n1 h.1) _ rfl⟩
      rename_i n3
      split
      · rename_i hc
        have hr : isReport k.io cmd = true := by simp [isReport, hc]
        split
        · trivial
        · rename_i tx htx
          refine Run.Blk.bind (Q := fun _ =>
            Tk k.io reply (track k.io reply (s.swallow cmd data).log)) ?_ fun _ s' hs' => ?_
          · split
            · exact Tk.add rfl (by trivial)
            · exact (quick_freeBuffer hW).blk (Tk.freeBuffer rfl)
          · simp only [Run.Blk]
            rw [if_neg (filterStatus_ne _).1]
            exact ⟨rfl, hend hr (fun h => n1 h.1) _ hs'⟩
      · rename_i n4
        have hnr := not_report n1 n2 n3 n4
        rw [step_other hnr] at hsw
        exact ((blk_mutual hW f).2.2.1 {} _ _ _ hsw).bind fun _ s h => ih h

theorem blk_handleCommands {k : Cfg} {W : World} (hW : W.Prompt) {reply : Bool} {f : Nat} {x : List Ev × Ev}
    {s : St} (h : Tk k.io reply { ended := some x } s) :
    (handleCommands k W f s).Blk (fun _ s => s.off = 0 ∧ nextCommand s = none ∧ Tk k.io reply { ended := some x } s)
      (Nested k.io reply) := by
  induction f generalizing s with
  | zero => trivial
  | succ f ih =>
    rw [handleCommands]
    split
    · rename_i hn
      exact ⟨rfl, by rw [nextCommand_compact]; exact hn, h⟩
    · rename_i cmd data hn
      refine ((blk_mutual hW f).2.2.1 { ended := some x } _ _ _ ?_).bind fun _ _ h => ih h
      simp only [Tk, St.swallow, St.add]
      rw [track_add, h]
      simp only [Track.step, Track.upIf, Track.up]
      split
      · rfl
      · split <;> simp

/-- The same when there's no transaction. -/
theorem blk_handleCommands0 {k : Cfg} {W : World} (hW : W.Prompt) {reply : Bool} {f : Nat}
    {s : St} (h : (track k.io reply s.log).depth = 0) :
    (handleCommands k W f s).Blk (fun _ s => s.off = 0 ∧ nextCommand s = none ∧ (track k.io reply s.log).depth = 0)
      (Nested k.io reply) := by
  induction f generalizing s with
  | zero => trivial
  | succ f ih =>
    rw [handleCommands]
    split
    · rename_i hn
      exact ⟨rfl, by rw [nextCommand_compact]; exact hn, h⟩
    · rename_i cmd data hn
      have key : ∃ t : Track, t.depth = 0 ∧ Tk k.io reply (t.upIf (repliedTo k.io cmd data)) (s.swallow cmd data) := by
        simp only [Tk, St.swallow, St.add]
        rw [track_add]
        generalize track k.io reply s.log = t at h
        simp only [Track.step, Track.upIf, Track.up]
        split
        · exact ⟨t, h, rfl⟩
        · split
          · rw [if_neg (by simp [h])]
            split
            · exact ⟨t, h, rfl⟩
            · split
              · exact ⟨t, h, rfl⟩
              · exact ⟨{ t with ended := some (s.log, .cmd cmd data) }, h, rfl⟩
          · exact ⟨t, h, rfl⟩
      obtain ⟨t, ht, hk⟩ := key
      exact ((blk_mutual hW f).2.2.1 t _ _ _ hk).bind fun _ _ h => ih (by rw [h]; exact ht)

theorem nextCommand_of {s s' : St} (h1 : s'.buf = s.buf) (h2 : s'.off = s.off) : nextCommand s' = nextCommand s := by
  unfold nextCommand
  rw [h1, h2]

theorem error_ended {io : Io} {reply : Bool} {t : Track} {n : Nat} {s : St} (hd : t.depth = 0)
    (h : n ≠ EAGAIN ∧ ∃ w room l, s.log = l ++ [.ioctl w (some room) (.err n)] ∧ track io reply l = t) :
    ∃ x, Tk io reply { ended := some x } s := by
  obtain ⟨h1, w, room, l, h2, h3⟩ := h
  refine ⟨(l, .ioctl w (some room) (.err n)), ?_⟩
  rw [Tk, h2, track_add, h3]
  simp only [Track.step]
  rw [if_neg h1, if_neg (by simp [hd])]
  cases t
  simp_all

theorem blk_transactLoop {k : Cfg} {W : World} (hW : W.Prompt) {reply : Bool} {f : Nat} {w : Bytes} {s : St}
    (h : Tk k.io reply {} s) (hn : nextCommand s = none) :
    (transactLoop k W reply f w s).Blk (fun _ s => ∃ x, Tk k.io reply { ended := some x } s) (Waiting k.io reply) := by
  induction f generalizing s w with
  | zero => trivial
  | succ f ih =>
    rw [transactLoop]
    refine (blk_writeRead h fun s' h1 h2 h3 => .inr ⟨(nextCommand_of h2 h3).trans hn, .inl h1⟩).bind fun r s h => ?_
    split
    · rename_i n hn
      rw [hn] at h
      exact error_ended rfl h
    · rename_i hn
      rw [hn] at h
      refine ((blk_txstatus hW h).mono (fun _ _ h => h) fun _ h => .inl h).bind fun st s h => ?_
      split
      · rename_i hs
        rw [if_pos hs] at h
        exact ih h.2.1 h.2.2
      · rename_i hs
        rw [if_neg hs] at h
        exact h.2

theorem blk_finishLoop {k : Cfg} {W : World} (hW : W.Prompt) {reply : Bool} {f : Nat} {st : Int} {s : St}
    (h : ∃ x, Tk k.io reply { ended := some x } s) (hn : nextCommand s = none) (ho : s.off = 0) :
    (finishLoop k W f st s).Blk (fun _ _ => True) (Waiting k.io reply) := by
  induction f generalizing s with
  | zero => trivial
  | succ f ih =>
    rw [finishLoop]
    split
    · rename_i hb
      obtain ⟨x, h1⟩ := h
      refine (blk_writeRead h1 fun s' h1 h2 h3 => .inr ⟨(nextCommand_of h2 h3).trans hn,
        .inr ⟨⟨x, h1⟩, by rw [h2]; exact hb, h3.trans ho⟩⟩).bind fun r s h => ?_
      split
      · trivial
      · rename_i hn
        rw [hn] at h
        exact ((blk_handleCommands hW h).mono (fun _ _ h => h) fun _ h => .inl h).bind fun _ s h =>
          ih ⟨x, h.2.2⟩ h.2.1 h.1
    · trivial

theorem blk_transact {k : Cfg} {W : World} (hW : W.Prompt) {f handle code : Nat} {req : Writer} {reply : Bool}
    {s : St} (h : s.Fresh) :
    (transact k W f handle code req reply s).Blk (fun _ _ => True) (Waiting k.io reply) := by
  unfold transact
  simp only []
  have h0 : Tk k.io reply {} s := by rw [Tk, h.2.2.2]; rfl
  refine (blk_transactLoop hW ((h0.add (by trivial)).add (by trivial)) ?_).bind fun st s h => ?_
  · unfold nextCommand
    simp [St.add, h.1]
  split
  · obtain ⟨x, h1⟩ := h
    refine ((blk_handleCommands hW h1).mono (fun _ _ h => h) fun _ h => .inl h).bind fun _ s h => ?_
    exact (blk_finishLoop hW ⟨x, h.2.2⟩ h.2.1 h.1).bind fun st s h => trivial
  · trivial

/-- What gbinder_driver_read may be waiting for: that a reply is handled, for something to do, or for the rest of a command. -/
def Idle (io : Io) (s : St) : Prop :=
  Nested io false s ∨ (nextCommand s = none ∧ s.off = 0 ∧ (delivered s.log = [] ∨ s.buf ≠ []))

theorem writeRead_first {W : World} {f : Nat} {w : Bytes} {s : St} (h : delivered s.log = []) {B : St → Prop}
    (hB : ∀ s', delivered s'.log = [] → s'.buf = s.buf → s'.off = s.off → B s') :
    (writeRead W f w s).Blk (fun _ s' => s'.off = s.off) B := by
  induction f generalizing s with
  | zero => trivial
  | succ f ih =>
    rw [Driver.writeRead]
    generalize readBufferSize - s.buf.length = room
    simp only []
    split
    · exact hB s h rfl rfl
    · split
      · exact ih (by simp [St.add, delivered, Ev.delivered] at h ⊢; exact h) hB
      · exact rfl
    · exact rfl

theorem Run.Blk.and {α : Type} {Q Q' : α → St → Prop} {B B' : St → Prop} {r : Run α} (h : r.Blk Q B) (h' : r.Blk Q' B') :
    r.Blk (fun a s => Q a s ∧ Q' a s) B := by
  cases r with
  | done a s => exact ⟨h, h'⟩
  | stop w s => cases w <;> exact h

theorem blk_readLoop {k : Cfg} {W : World} (hW : W.Prompt) {f : Nat} {s : St}
    (h : (track k.io false s.log).depth = 0) (hn : nextCommand s = none) (ho : s.off = 0) :
    (readLoop k W f s).Blk (fun _ _ => True) (Idle k.io) := by
  induction f generalizing s with
  | zero => trivial
  | succ f ih =>
    rw [readLoop]
    split
    · rename_i hb
      refine (blk_writeRead (t := track k.io false s.log) rfl fun s' h1 h2 h3 => .inr ⟨(nextCommand_of h2 h3).trans hn,
        h3.trans ho, .inr (by rw [h2]; exact hb.1)⟩).bind fun r s h' => ?_
      split
      · trivial
      · rename_i hn
        rw [hn] at h'
        exact ((blk_handleCommands0 hW (by rw [h']; exact h)).mono (fun _ _ h => h) fun _ h => .inl h).bind fun _ s h =>
          ih h.2.2 h.2.1 h.1
    · trivial

theorem blk_read {k : Cfg} {W : World} (hW : W.Prompt) {f : Nat} {s : St} (h : s.Fresh) :
    (Driver.read k W f s).Blk (fun _ _ => True) (Idle k.io) := by
  unfold Driver.read
  have h0 : Tk k.io false {} s := by rw [Tk, h.2.2.2]; rfl
  have hd : delivered s.log = [] := by rw [h.2.2.2]; rfl
  have h1 := writeRead_first (W := W) (f := f) (w := []) hd (B := Idle k.io) fun s' h1 h2 h3 =>
    .inr ⟨by unfold nextCommand; simp [h2, h.1], by rw [h3, h.2.1], .inl h1⟩
  have h2 := blk_writeRead (W := W) (f := f) (w := []) h0 (B := fun _ => True) fun _ _ _ _ => trivial
  refine (h1.and h2).bind fun r s h => ?_
  split
  · trivial
  · rename_i hn
    rw [hn] at h
    refine ((blk_handleCommands0 hW (by rw [h.2])).mono (fun _ _ h => h) fun _ h => .inl h).bind fun _ s h => ?_
    exact (blk_readLoop hW h.2.2 h.2.1 h.1).bind fun _ _ _ => trivial

/-! ### Going on without waiting -/

/-- What is left to do. -/
def todo (n : Nat × Nat) (s : St) : Nat := (n.1 - reads s.log) * 200 + (n.2 - retries s.log) + (s.buf.length - s.off)

/-- It's not because of the lack of fuel if the call doesn't return, and not more than `b` is left to do. -/
def Run.Prog {α : Type} (n : Nat × Nat) (b : Nat) : Run α → Prop
  | .done _ s => todo n s ≤ b
  | .stop w _ => w ≠ .fuel

theorem Run.Prog.bind {α β : Type} {n : Nat × Nat} {b b' : Nat} {r : Run α} {k : α → St → Run β} (h : r.Prog n b)
    (hk : ∀ a s, todo n s ≤ b → (k a s).Prog n b') : (r.bind k).Prog n b' := by
  cases r with
  | done a s => exact hk a s h
  | stop w s => exact h

theorem Run.Prog.mono {α : Type} {n : Nat × Nat} {b b' : Nat} {r : Run α} (h : r.Prog n b) (hb : b ≤ b') : r.Prog n b' := by
  cases r with
  | done a s => exact Nat.le_trans h hb
  | stop w s => exact h

theorem todo_add {n : Nat × Nat} {s : St} {e : Ev} : todo n (s.add e) ≤ todo n s := by
  simp only [todo, St.add, reads, retries, List.countP_append]
  omega

theorem todo_read {n : Nat × Nat} {s : St} {w : Bytes} {r : Nat} {x : KRes} (h : reads s.log < n.1) :
    todo n (s.add (.ioctl w (some r) x)) + 200 = todo n s := by
  have h1 : reads (s.add (.ioctl w (some r) x)).log = reads s.log + 1 := by simp [reads, St.add]
  have h2 : retries (s.add (.ioctl w (some r) x)).log = retries s.log := by simp [retries, St.add]
  simp only [todo, h1, h2]
  simp only [St.add]
  omega

theorem todo_retry {n : Nat × Nat} {s : St} {w : Bytes} (h : retries s.log < n.2) :
    todo n (s.add (.ioctl w none (.err EAGAIN))) + 1 = todo n s := by
  have h1 : reads (s.add (.ioctl w none (.err EAGAIN))).log = reads s.log := by simp [reads, St.add]
  have h2 : retries (s.add (.ioctl w none (.err EAGAIN))).log = retries s.log + 1 := by simp [retries, St.add]
  simp only [todo, h1, h2]
  simp only [St.add]
  omega

theorem todo_compact {n : Nat × Nat} {s : St} : todo n (compact s) = todo n s := by
  simp [todo, compact]

theorem nextCommand_rest {s : St} {c : Nat} {d : Bytes} (h : nextCommand s = some (c, d)) :
    4 + iocSize c ≤ s.buf.length - s.off := by
  unfold nextCommand at h
  simp only [List.length_drop] at h
  split at h
  · split at h
    · rename_i h1
      cases h
      exact h1.1
    · cases h
  · cases h

theorem todo_swallow {n : Nat × Nat} {s : St} {c : Nat} {d : Bytes} (h : nextCommand s = some (c, d)) :
    todo n (s.swallow c d) + 4 ≤ todo n s := by
  have h1 := nextCommand_rest h
  have h2 : reads (s.swallow c d).log = reads s.log := by simp [reads, St.swallow, St.add]
  have h3 : retries (s.swallow c d).log = retries s.log := by simp [retries, St.swallow, St.add]
  simp only [todo, h2, h3]
  simp only [St.swallow, St.add]
  omega

theorem reads_lt {W : World} {n : Nat × Nat} (hW : W.Stops n.1 n.2) {l : List Ev} {w : Bytes} {r : Nat} {x : KRes}
    (h : W.kernel l w (some r) = some x) : reads l < n.1 := by
  by_cases hn : n.1 ≤ reads l
  · rw [hW.reads l w r hn] at h; cases h
  · omega

theorem retries_lt {W : World} {n : Nat × Nat} (hW : W.Stops n.1 n.2) {l : List Ev} {w : Bytes}
    (h : W.kernel l w none = some (.err EAGAIN)) : retries l < n.2 := by
  by_cases hn : n.2 ≤ retries l
  · exact absurd h (hW.retries l w hn)
  · omega

theorem prog_write {W : World} {n : Nat × Nat} (hW : W.Stops n.1 n.2) {f : Nat} {b : Bytes} {s : St} (hf : todo n s < f) :
    (write W f b s).Prog n (todo n s) := by
  induction f generalizing s with
  | zero => omega
  | succ f ih =>
    rw [Driver.write]
    split
    · simp [Run.Prog]
    · rename_i e he
      split
      · rename_i hx
        subst hx
        have h1 := todo_retry (w := b) (s := s) (retries_lt hW he)
        exact (ih (by omega)).mono (by omega)
      · exact todo_add
    · exact todo_add

theorem prog_writeRead {W : World} {n : Nat × Nat} (hW : W.Stops n.1 n.2) {f : Nat} {w : Bytes} {s : St} (hf : todo n s < f) :
    (writeRead W f w s).Prog n (todo n s - 72) := by
  induction f generalizing s with
  | zero => omega
  | succ f ih =>
    rw [Driver.writeRead]
    simp only []
    split
    · simp [Run.Prog]
    · rename_i e he
      have h1 := todo_read (w := w) (r := readBufferSize - s.buf.length) (x := .err e) (s := s) (reads_lt hW he)
      split
      · exact (ih (by omega)).mono (by omega)
      · simp only [Run.Prog]; omega
    · rename_i m rd he
      have h0 := reads_lt hW he
      have h1 := todo_read (w := w) (r := readBufferSize - s.buf.length)
        (x := .ok m (rd.take (readBufferSize - s.buf.length))) (s := s) h0
      simp only [Run.Prog]
      simp only [todo, St.add, List.length_append, List.length_take, readBufferSize] at h1 ⊢
      omega

theorem prog_freeBuffer {W : World} {n : Nat × Nat} (hW : W.Stops n.1 n.2) {io : Io} {f a : Nat} {s : St} (hf : todo n s < f) :
    (freeBuffer W io f a s).Prog n (todo n s) := by
  unfold Driver.freeBuffer
  split
  · exact (prog_write hW hf).bind fun _ _ h => h
  · exact Nat.le_refl _

theorem prog_takeRequest {W : World} {n : Nat × Nat} (hW : W.Stops n.1 n.2) {k : Cfg} {f : Nat} {tx : TxData} {s : St} (hf : todo n s < f) :
    (takeRequest k W f tx s).Prog n (todo n s) := by
  unfold Driver.takeRequest
  split
  · simp only []
    split
    · simp [Run.Prog]
    · split
      · simp [Run.Prog]
      · exact todo_add
  · exact (prog_freeBuffer hW hf).bind fun _ _ h => h

theorem prog_sendReply {W : World} {n : Nat × Nat} (hW : W.Stops n.1 n.2) {k : Cfg} {f : Nat} {r : Option Writer} {st : Int} {s : St}
    (hf : todo n s < f) : (sendReply k W f r st s).Prog n (todo n s) := by
  unfold Driver.sendReply
  simp only []
  split
  · rename_i w
    generalize Ev.holds _ w.bytes = x
    generalize Ev.holds _ _ = y
    have h1 : todo n ((s.add x).add y) ≤ todo n s := Nat.le_trans todo_add todo_add
    exact Run.Prog.bind (prog_write hW (by omega)) fun _ _ h => Nat.le_trans h h1
  · generalize Ev.holds _ _ = x
    have h1 : todo n (s.add x) ≤ todo n s := todo_add
    exact Run.Prog.bind (prog_write hW (by omega)) fun _ _ h => Nat.le_trans h h1

theorem prog_writeCmdData {W : World} {n : Nat × Nat} (hW : W.Stops n.1 n.2) {f c m : Nat} {data : Bytes} {s : St}
    (hf : todo n s < f) : (writeCmdData W f c m data s).Prog n (todo n s) := by
  unfold writeCmdData
  split
  · simp [Run.Prog]
  · exact (prog_write hW hf).bind fun _ _ h => h

theorem prog_cmdData {W : World} {n : Nat × Nat} (hW : W.Stops n.1 n.2) {io : Io} {f : Nat} {c : BC} {data : Bytes} {s : St}
    (hf : todo n s < f) : (cmdData W io f c data s).Prog n (todo n s) := prog_writeCmdData hW hf

/-- An ioctl is only made if there's something left. -/
theorem writeRead_cases {W : World} {n : Nat × Nat} (hW : W.Stops n.1 n.2) {f : Nat} {w : Bytes} {s : St} (hf : todo n s < f)
    {β : Type} {b : Nat} {k : Option Nat × Bytes → St → Run β}
    (hk : ∀ a s', todo n s' + 72 ≤ todo n s → (k a s').Prog n b) : ((writeRead W f w s).bind k).Prog n b := by
  have h := prog_writeRead hW (w := w) hf
  by_cases hz : reads s.log < n.1
  · refine h.bind fun a s' h' => hk a s' ?_
    have : 200 ≤ todo n s := by simp only [todo]; omega
    omega
  · cases f with
    | zero => omega
    | succ f =>
      rw [Driver.writeRead]
      simp only [hW.reads _ _ _ (Nat.not_lt.1 hz)]
      simp [Run.bind, Run.Prog]

theorem prog_mutual {k : Cfg} {W : World} {n : Nat × Nat} (hW : W.Stops n.1 n.2) (f : Nat) :
    (∀ d s, todo n s + 3 ≤ f → (handleTransaction k W f d s).Prog n (todo n s)) ∧
    (∀ s, todo n s + 2 ≤ f → (waitReplied k W f s).Prog n (todo n s)) ∧
    (∀ c d s, todo n s + 4 ≤ f → (handleCommand k W f c d s).Prog n (todo n s)) ∧
    (∀ r s, todo n s + 4 ≤ f → (txstatus k W f r s).Prog n (todo n s)) := by
  induction f with
  | zero => refine ⟨?_, ?_, ?_, ?_⟩ <;> intros <;> omega
  | succ f ih =>
    obtain ⟨ih1, ih2, ih3, ih4⟩ := ih
    refine ⟨?_, ?_, ?_, ?_⟩
    · intro d s hf
      rw [handleTransaction]
      split
      · simp [Run.Prog]
      · simp only []
        refine (prog_takeRequest hW (by omega)).bind fun iface s1 h => ?_
        generalize hx : Ev.answer _ _ _ _ _ = x
        have h1 : todo n (s1.add x) ≤ todo n s1 := todo_add
        split
        · exact Nat.le_trans h1 h
        · refine (prog_sendReply hW (by omega)).bind fun _ s2 h2 => ?_
          exact (ih2 s2 (by omega)).mono (by omega)
    · intro s hf
      rw [waitReplied]
      refine writeRead_cases hW (by omega) fun r s1 h => ?_
      split
      · simp only [Run.Prog]; omega
      · refine (ih4 _ s1 (by omega)).bind fun st s2 h2 => ?_
        split
        · exact (ih2 s2 (by omega)).mono (by omega)
        · simp only [Run.Prog]; omega
    · intro c d s hf
      rw [handleCommand]
      split
      · split
        · simp [Run.Prog]
        · rename_i p _
          have h1 : todo n (if W.getLocal s.log p then s.add (.increfs p) else s) ≤ todo n s := by
            split
            · exact todo_add
            · exact Nat.le_refl _
          exact (prog_cmdData hW (by omega)).mono h1
      split
      · split
        · simp [Run.Prog]
        · simp only [Run.Prog]
          split
          · exact Nat.le_refl _
          · exact Nat.le_refl _
      split
      · split
        · simp [Run.Prog]
        · split
          · exact todo_add
          · exact prog_cmdData hW (by omega)
      split
      · split
        · simp [Run.Prog]
        · simp only [Run.Prog]
          split
          · exact Nat.le_refl _
          · exact Nat.le_refl _
      split
      · exact ih1 d s (by omega)
      split
      · split
        · simp [Run.Prog]
        · split
          · exact todo_add
          · exact prog_cmdData hW (by omega)
      exact Nat.le_refl _
    · intro r s hf
      rw [txstatus]
      split
      · exact Nat.le_of_eq todo_compact
      · rename_i cmd data hn
        have hs := todo_swallow (n := n) hn
        have hc : todo n (compact (s.swallow cmd data)) ≤ todo n s := by rw [todo_compact]; omega
        simp only []
        split
        · split
          · exact (ih4 _ _ (by omega)).mono (by omega)
          · exact hc
        split
        · exact hc
        split
        · exact hc
        split
        · split
          · simp [Run.Prog]
          · rename_i tx _
            refine Run.Prog.bind (b := todo n (s.swallow cmd data)) ?_ fun _ s2 h2 => ?_
            · split
              · exact todo_add
              · exact prog_freeBuffer hW (by omega)
            · simp only [Run.Prog]
              rw [todo_compact]
              omega
        · refine (ih3 _ _ _ (by omega)).bind fun _ s2 h2 => ?_
          exact (ih4 _ _ (by omega)).mono (by omega)

theorem prog_handleCommands {k : Cfg} {W : World} {n : Nat × Nat} (hW : W.Stops n.1 n.2) {f : Nat} {s : St} (hf : todo n s + 4 ≤ f) :
    (handleCommands k W f s).Prog n (todo n s) := by
  induction f generalizing s with
  | zero => omega
  | succ f ih =>
    rw [handleCommands]
    split
    · exact Nat.le_of_eq todo_compact
    · rename_i cmd data hn
      have hs := todo_swallow (n := n) hn
      refine ((prog_mutual hW f).2.2.1 _ _ _ (by omega)).bind fun _ s2 h2 => ?_
      exact (ih (by omega)).mono (by omega)

theorem prog_transactLoop {k : Cfg} {W : World} {n : Nat × Nat} (hW : W.Stops n.1 n.2) {reply : Bool} {f : Nat} {w : Bytes} {s : St}
    (hf : todo n s + 4 ≤ f) : (transactLoop k W reply f w s).Prog n (todo n s) := by
  induction f generalizing s w with
  | zero => omega
  | succ f ih =>
    rw [transactLoop]
    refine writeRead_cases hW (by omega) fun r s1 h => ?_
    split
    · simp only [Run.Prog]; omega
    · refine ((prog_mutual hW f).2.2.2 _ _ (by omega)).bind fun st s2 h2 => ?_
      split
      · exact (ih (by omega)).mono (by omega)
      · simp only [Run.Prog]; omega

theorem prog_finishLoop {k : Cfg} {W : World} {n : Nat × Nat} (hW : W.Stops n.1 n.2) {f : Nat} {st : Int} {s : St}
    (hf : todo n s + 4 ≤ f) : (finishLoop k W f st s).Prog n (todo n s) := by
  induction f generalizing s with
  | zero => omega
  | succ f ih =>
    rw [finishLoop]
    split
    · refine writeRead_cases hW (by omega) fun r s1 h => ?_
      split
      · simp only [Run.Prog]; omega
      · refine (prog_handleCommands hW (by omega)).bind fun _ s2 h2 => ?_
        exact (ih (by omega)).mono (by omega)
    · exact Nat.le_refl _

theorem prog_readLoop {k : Cfg} {W : World} {n : Nat × Nat} (hW : W.Stops n.1 n.2) {f : Nat} {s : St}
    (hf : todo n s + 4 ≤ f) : (readLoop k W f s).Prog n (todo n s) := by
  induction f generalizing s with
  | zero => omega
  | succ f ih =>
    rw [readLoop]
    split
    · refine writeRead_cases hW (by omega) fun r s1 h => ?_
      split
      · simp only [Run.Prog]; omega
      · refine (prog_handleCommands hW (by omega)).bind fun _ s2 h2 => ?_
        exact (ih (by omega)).mono (by omega)
    · exact Nat.le_refl _

/-- Only whether it has returned matters at the end. -/
def Run.Fuelled {α : Type} : Run α → Prop
  | .stop .fuel _ => False
  | _ => True

theorem Run.Prog.fuelled {α β : Type} {n : Nat × Nat} {b : Nat} {r : Run α} {k : α → St → Run β} (h : r.Prog n b)
    (hk : ∀ a s, todo n s ≤ b → (k a s).Fuelled) : (r.bind k).Fuelled := by
  cases r with
  | done a s => exact hk a s h
  | stop w s => cases w <;> first | trivial | exact absurd rfl h

theorem fuelled_transact {k : Cfg} {W : World} {n : Nat × Nat} (hW : W.Stops n.1 n.2) {f handle code : Nat} {req : Writer} {reply : Bool}
    {s : St} (h : s.Fresh) (hf : 200 * n.1 + n.2 + 4 ≤ f) : (transact k W f handle code req reply s).Fuelled := by
  unfold transact
  simp only []
  have h0 : todo n s ≤ 200 * n.1 + n.2 := by simp [todo, h.1, h.2.2.2, reads, retries]; omega
  generalize Ev.holds _ _ = x
  generalize Ev.holds _ _ = y
  have h1 : todo n ((s.add x).add y) ≤ todo n s := Nat.le_trans todo_add todo_add
  refine (prog_transactLoop hW (by omega)).fuelled fun st s1 h2 => ?_
  split
  · refine (prog_handleCommands hW (by omega)).fuelled fun _ s2 h3 => ?_
    exact (prog_finishLoop hW (by omega)).fuelled fun _ _ _ => trivial
  · trivial

theorem fuelled_read {k : Cfg} {W : World} {n : Nat × Nat} (hW : W.Stops n.1 n.2) {f : Nat} {s : St} (h : s.Fresh)
    (hf : 200 * n.1 + n.2 + 4 ≤ f) : (Driver.read k W f s).Fuelled := by
  unfold Driver.read
  have h0 : todo n s ≤ 200 * n.1 + n.2 := by simp [todo, h.1, h.2.2.2, reads, retries]; omega
  refine (prog_writeRead hW (by omega)).fuelled fun r s1 h1 => ?_
  split
  · trivial
  · refine (prog_handleCommands hW (by omega)).fuelled fun _ s2 h2 => ?_
    exact (prog_readLoop hW (by omega)).fuelled fun _ _ _ => trivial

end Gb.Driver
