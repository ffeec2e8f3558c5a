import Verif.Spec.Duties
import Verif.Lemmas.Driver
/- Each command is responded to before the next one is looked at. -/
set_option autoImplicit false

namespace Gb.Driver

/-! ### Command codes -/

theorem BR.nr_inj {a b : BR} (h : a.nr = b.nr) : a = b := by
  cases a <;> cases b <;> first | rfl | (simp only [BR.nr] at h; omega)

theorem BR.code_mod (io : Io) (a : BR) : a.code io % 256 = a.nr := by
  have : a.nr < 256 := by cases a <;> decide
  unfold BR.code ioc
  omega

theorem BR.code_inj {io : Io} {a b : BR} (h : a.code io = b.code io) : a = b := by
  apply BR.nr_inj
  rw [← BR.code_mod io a, ← BR.code_mod io b, h]

theorem BR.code_ne {io : Io} {a b : BR} (h : a ≠ b) : a.code io ≠ b.code io :=
  fun h1 => h (BR.code_inj h1)

theorem BC.code_lt (io : Io) (c : BC) : c.code io < 2 ^ 32 := by
  cases io <;> cases c <;> decide

theorem word_append (io : Io) (c : BC) (x : Bytes) : word (leBytes 4 (c.code io) ++ x) = c.code io := by
  unfold word
  rw [List.take_left' (by simp)]
  exact leVal_leBytes_of_lt (by simpa using BC.code_lt io c)

theorem iocSize_code (io : Io) (c : BC) : iocSize (c.code io) = c.size io := by
  unfold iocSize
  cases io <;> cases c <;> decide

/-! ### Segments of the log -/

theorem acts_append (io : Io) (a b : List Ev) : acts io (a ++ b) = acts io a ++ acts io b :=
  List.filter_append ..

/-- All commands in this log have been responded to. -/
inductive Settled (W : World) (io : Io) : List Ev → Prop
  | start {l : List Ev} : (∀ e ∈ l, e.command = none) →
      (∀ e ∈ acts io l, ∃ a b, e = .holds a b) → Settled W io l
  | seg {l seg : List Ev} {c : Nat} {d : Bytes} : Settled W io l → (∀ e ∈ seg, e.command = none) →
      Response W io c d (acts io seg) → Settled W io (l ++ .cmd c d :: seg)

/-- An event which doesn't matter. -/
def Ev.Idle (io : Io) (e : Ev) : Prop := e.command = none ∧ isAct io e = false

theorem acts_idle {io : Io} {e : Ev} (h : e.Idle io) (l : List Ev) : acts io (l ++ [e]) = acts io l := by
  rw [acts_append]
  simp [acts, h.2]

theorem Settled.idle {W : World} {io : Io} {l : List Ev} (h : Settled W io l) {e : Ev} (he : e.Idle io) :
    Settled W io (l ++ [e]) := by
  cases h with
  | start h1 h2 =>
    refine .start ?_ ?_
    · intro x hx
      rw [List.mem_append, List.mem_singleton] at hx
      rcases hx with hx | rfl
      · exact h1 x hx
      · exact he.1
    · rw [acts_idle he]; exact h2
  | seg h1 h2 h3 =>
    rw [List.append_assoc, List.cons_append]
    refine .seg h1 ?_ ?_
    · intro x hx
      rw [List.mem_append, List.mem_singleton] at hx
      rcases hx with hx | rfl
      · exact h2 x hx
      · exact he.1
    · rw [acts_idle he]; exact h3

/-- The last command in the log is `c`, all commands before it have been responded to, and this
is what has been done about `c` so far. -/
structure At (W : World) (io : Io) (c : Nat) (d : Bytes) (a : List Ev) (s : St) : Prop where
  ex : ∃ l seg, Settled W io l ∧ s.log = l ++ .cmd c d :: seg ∧ (∀ e ∈ seg, e.command = none) ∧
    acts io seg = a

theorem At.settled {W : World} {io : Io} {c : Nat} {d : Bytes} {a : List Ev} {s : St} (h : At W io c d a s)
    (hr : Response W io c d a) : Settled W io s.log := by
  obtain ⟨l, seg, h1, h2, h3, h4⟩ := h.ex
  rw [h2]
  exact .seg h1 h3 (h4 ▸ hr)

theorem At.idle {W : World} {io : Io} {c : Nat} {d : Bytes} {a : List Ev} {s : St} (h : At W io c d a s)
    {e : Ev} (he : e.Idle io) : At W io c d a (s.add e) := by
  obtain ⟨l, seg, h1, h2, h3, h4⟩ := h.ex
  refine ⟨l, seg ++ [e], h1, ?_, ?_, ?_⟩
  · simp [St.add, h2]
  · intro x hx
    rw [List.mem_append, List.mem_singleton] at hx
    rcases hx with hx | rfl
    · exact h3 x hx
    · exact he.1
  · rw [acts_idle he, h4]

theorem At.act {W : World} {io : Io} {c : Nat} {d : Bytes} {a : List Ev} {s : St} (h : At W io c d a s)
    {e : Ev} (he : e.command = none) (ha : isAct io e = true) : At W io c d (a ++ [e]) (s.add e) := by
  obtain ⟨l, seg, h1, h2, h3, h4⟩ := h.ex
  refine ⟨l, seg ++ [e], h1, ?_, ?_, ?_⟩
  · simp [St.add, h2]
  · intro x hx
    rw [List.mem_append, List.mem_singleton] at hx
    rcases hx with hx | rfl
    · exact h3 x hx
    · exact he
  · rw [acts_append, h4]
    simp [acts, ha]

theorem At.unrefs {W : World} {io : Io} {c : Nat} {d : Bytes} {a : List Ev} {s : St} (h : At W io c d a s)
    (u : List (Bool × Nat)) : At W io c d a { s with unrefs := u } := ⟨h.ex⟩

theorem At.swallow {W : World} {io : Io} {c : Nat} {d : Bytes} {s : St} (h : Settled W io s.log) :
    At W io c d [] (s.swallow c d) := ⟨s.log, [], h, rfl, by simp, rfl⟩

/-- Something has been done about a command, and nothing that should not be. -/
def Started (W : World) (io : Io) (c : Nat) (d : Bytes) (a : List Ev) : Prop :=
  a = [] ∨ ∃ b, Response W io c d (a ++ b)

/-- A log of a run which has not returned. -/
def Unsettled (W : World) (io : Io) (s : St) : Prop :=
  Settled W io s.log ∨ ∃ c d a, Started W io c d a ∧ At W io c d a s

abbrev OkPost {α : Type} (W : World) (io : Io) (r : Run α) : Prop :=
  r.Post (fun _ s => Settled W io s.log) (Unsettled W io)

/-! ### Writing -/

theorem idle_again (io : Io) (b : Bytes) (r : Option Nat) : (Ev.ioctl b r (.err EAGAIN)).Idle io := by
  constructor
  · rfl
  · cases r
    · simp only [isAct]; simp
    · rfl

theorem idle_read (io : Io) (b : Bytes) (r : Nat) (res : KRes) : (Ev.ioctl b (some r) res).Idle io :=
  ⟨rfl, by cases res <;> rfl⟩

theorem idle_write {io : Io} {b : Bytes} (h : isResponse io b = false) (res : KRes) :
    (Ev.ioctl b none res).Idle io := by
  constructor
  · rfl
  · cases res
    · simp only [isAct, h]; simp
    · exact h

theorem act_write {io : Io} {b : Bytes} (h : isResponse io b = true) {res : KRes}
    (hr : res ≠ .err EAGAIN) : isAct io (.ioctl b none res) = true := by
  cases res with
  | err e =>
    have : e ≠ EAGAIN := fun h1 => hr (by rw [h1])
    simp only [isAct, h]
    simpa using this
  | ok n rd => exact h

theorem write_settled {io : Io} {W : World} {f : Nat} {b : Bytes} {s : St}
    (h : Settled W io s.log) (hb : isResponse io b = false) : OkPost W io (write W f b s) := by
  induction f generalizing s with
  | zero => exact .inl h
  | succ f ih =>
    rw [Driver.write]
    split
    · exact .inl h
    · split
      · exact ih (h.idle (idle_write hb _))
      · exact h.idle (idle_write hb _)
    · exact h.idle (idle_write hb _)

theorem write_idle {io : Io} {W : World} {f : Nat} {b : Bytes} {c : Nat} {d : Bytes} {a : List Ev}
    {s : St} (h : At W io c d a s) (hs : Started W io c d a) (hb : isResponse io b = false) :
    (write W f b s).Post (fun _ => At W io c d a) (Unsettled W io) := by
  induction f generalizing s with
  | zero => exact .inr ⟨_, _, _, hs, h⟩
  | succ f ih =>
    rw [Driver.write]
    split
    · exact .inr ⟨_, _, _, hs, h⟩
    · split
      · exact ih (h.idle (idle_write hb _))
      · exact h.idle (idle_write hb _)
    · exact h.idle (idle_write hb _)

theorem write_act {io : Io} {W : World} {f : Nat} {b : Bytes} {c : Nat} {d : Bytes} {a : List Ev}
    {s : St} (h : At W io c d a s) (hs : Started W io c d a) (hb : isResponse io b = true) :
    (write W f b s).Post (fun _ s => ∃ res, res ≠ .err EAGAIN ∧
      At W io c d (a ++ [.ioctl b none res]) s) (Unsettled W io) := by
  induction f generalizing s with
  | zero => exact .inr ⟨_, _, _, hs, h⟩
  | succ f ih =>
    rw [Driver.write]
    split
    · exact .inr ⟨_, _, _, hs, h⟩
    · rename_i e _
      split
      · rename_i he
        rw [he]
        exact ih (h.idle (idle_again io b none))
      · rename_i he
        have hne : KRes.err e ≠ .err EAGAIN := fun h1 => he (by cases h1; rfl)
        exact ⟨_, hne, h.act rfl (act_write hb hne)⟩
    · exact ⟨_, by simp, h.act rfl (act_write hb (by simp))⟩

theorem writeRead_settled {io : Io} {W : World} {f : Nat} {w : Bytes} {s : St}
    (h : Settled W io s.log) : OkPost W io (writeRead W f w s) := by
  induction f generalizing s with
  | zero => exact .inl h
  | succ f ih =>
    rw [Driver.writeRead]
    generalize readBufferSize - s.buf.length = room
    simp only []
    split
    · exact .inl h
    · split
      · exact ih (h.idle (idle_read _ _ _ _))
      · exact h.idle (idle_read _ _ _ _)
    · exact h.idle (idle_read _ _ _ _)

theorem freeBuffer_not_response (io : Io) (x : Bytes) :
    isResponse io (leBytes 4 (BC.freeBuffer.code io) ++ x) = false := by
  simp only [isResponse, word_append]
  cases io <;> decide

theorem freeBuffer_settled {io : Io} {W : World} {f a : Nat} {s : St}
    (h : Settled W io s.log) : OkPost W io (freeBuffer W io f a s) := by
  unfold Driver.freeBuffer
  split
  · exact (write_settled h (freeBuffer_not_response io _)).bind fun _ _ h => h
  · exact h

theorem freeBuffer_idle {io : Io} {W : World} {f x : Nat} {c : Nat} {d : Bytes} {a : List Ev}
    {s : St} (h : At W io c d a s) (hs : Started W io c d a) :
    (freeBuffer W io f x s).Post (fun _ => At W io c d a) (Unsettled W io) := by
  unfold Driver.freeBuffer
  split
  · exact (write_idle h hs (freeBuffer_not_response io _)).bind fun _ _ h => h
  · exact h

theorem takeRequest_idle {k : Cfg} {W : World} {f : Nat} {tx : TxData} {c : Nat} {d : Bytes}
    {s : St} (h : At W k.io c d [] s) :
    (takeRequest k W f tx s).Post (fun _ => At W k.io c d []) (Unsettled W k.io) := by
  unfold Driver.takeRequest
  have h1 : At W k.io c d [] (s.add (.own tx.data)) := h.idle ⟨rfl, rfl⟩
  have hs : Started W k.io c d [] := .inl rfl
  split
  · simp only []
    split
    · exact .inr ⟨_, _, _, hs, h1⟩
    · split
      · exact .inr ⟨_, _, _, hs, h1⟩
      · exact h1
  · exact (freeBuffer_idle h hs).bind fun _ _ h => h

theorem replyCommand_response (io : Io) (w : Writer) (pl offs : Nat) :
    isResponse io (replyCommand io w pl offs).1 = true := by
  unfold replyCommand
  simp only []
  split
  · simp [isResponse, word_append]
  · simp [isResponse, word_append]

theorem statusReply_response (io : Io) (st : Nat) : isResponse io (statusReplyCommand io st) = true := by
  unfold statusReplyCommand
  simp [isResponse, word_append]

theorem sendReply_act {k : Cfg} {W : World} {f : Nat} {r : Option Writer} {st : Int} {c : Nat}
    {d : Bytes} {a : List Ev} {s : St} (h : At W k.io c d a s)
    (hr : ∀ pl offs sa res, res ≠ .err EAGAIN → Response W k.io c d (a ++ replyActs k.io r st pl offs sa res)) :
    OkPost W k.io (sendReply k W f r st s) := by
  unfold Driver.sendReply
  simp only []
  split
  · rename_i w
    refine Run.Post.bind (write_act ((h.act rfl rfl).act rfl rfl) ?_
      (replyCommand_response _ _ _ _)) fun _ s' hs => ?_
    · refine .inr ⟨[.ioctl (replyCommand k.io w (W.place s.log).1 (W.place s.log).2.1).1 none
        (.ok 0 [])], ?_⟩
      have := hr (W.place s.log).1 (W.place s.log).2.1 0 (.ok 0 []) (by simp)
      simpa [replyActs] using this
    · obtain ⟨res, h1, h2⟩ := hs
      refine h2.settled ?_
      have := hr (W.place s.log).1 (W.place s.log).2.1 0 res h1
      simpa [replyActs] using this
  · refine Run.Post.bind (write_act (h.act rfl rfl) ?_ (statusReply_response _ _)) fun _ s' hs => ?_
    · refine .inr ⟨[.ioctl (statusReplyCommand k.io (W.place s.log).2.2) none (.ok 0 [])], ?_⟩
      have := hr 0 0 (W.place s.log).2.2 (.ok 0 []) (by simp)
      simpa [replyActs] using this
    · obtain ⟨res, h1, h2⟩ := hs
      refine h2.settled ?_
      have := hr 0 0 (W.place s.log).2.2 res h1
      simpa [replyActs] using this

/-- An acknowledgement with the data of the command. -/
theorem cmdData_act {io : Io} {W : World} {f : Nat} {b : BC} {c : Nat} {d : Bytes} {a : List Ev}
    {s : St} (h : At W io c d a s) (hd : d.length = b.size io)
    (hb : ∀ x, isResponse io (leBytes 4 (b.code io) ++ x) = true)
    (hr : ∀ res, res ≠ .err EAGAIN →
      Response W io c d (a ++ [.ioctl (leBytes 4 (b.code io) ++ d) none res])) :
    OkPost W io (cmdData W io f b d s) := by
  unfold cmdData
  rw [iocSize_code]
  revert hd
  generalize b.size io = n
  intro hd
  unfold writeCmdData
  have hsl : slice d 0 n = some d := by
    rw [slice_isSome (by omega)]
    simp [← hd]
  rw [hsl]
  simp only []
  refine (write_act h (.inr ⟨_, hr (.ok 0 []) (by simp)⟩) (hb d)).bind fun _ s' hs => ?_
  obtain ⟨res, h1, h2⟩ := hs
  exact h2.settled (hr res h1)

theorem decodePtr_eq {io : Io} {d : Bytes} {p : Nat} (h : decodePtr io d = some p) :
    p = target io d := by
  unfold decodePtr uptrAt slice at h
  unfold target
  split at h
  · simp only [List.drop_zero, Option.map_some, Option.some.injEq] at h
    exact h.symm
  · cases h

theorem iocSize_br (io : Io) (c : BR) : iocSize (c.code io) = c.size io := by
  unfold iocSize BR.code
  cases io <;> cases c <;> decide

theorem decodePtr_some {io : Io} {d : Bytes} (h : io.ptrSize ≤ d.length) :
    decodePtr io d = some (target io d) := by
  unfold decodePtr uptrAt slice target
  rw [if_pos (by omega)]
  rfl

theorem handleCommand_settled {k : Cfg} {W : World} {f : Nat} {c : Nat} {d : Bytes} {s : St}
    (hT : ∀ s, At W k.io c d [] s → c = BR.transaction.code k.io →
      OkPost W k.io (handleTransaction k W f d s))
    (h : At W k.io c d [] s) (hd : d.length = iocSize c) :
    OkPost W k.io (handleCommand k W (f + 1) c d s) := by
  rw [handleCommand]
  split
  · rename_i hc
    split
    · exact .inr ⟨_, _, _, .inl rfl, h⟩
    · rename_i p hp
      have hp := decodePtr_eq hp
      have hl : d.length = BC.increfsDone.size k.io := by
        rw [hd, hc, iocSize_br]; cases k.io <;> rfl
      split
      · refine cmdData_act (a := [.increfs p]) (h.act rfl rfl) hl ?_ fun res hr => ?_
        · intro x; simp [isResponse, word_append]
        · rw [hp]; exact .increfs hc hr
      · refine cmdData_act h hl ?_ fun res hr => .increfsUnknown hc hr
        intro x; simp [isResponse, word_append]
  rename_i n1
  split
  · rename_i hc
    have ho : Response W k.io c d [] := by
      refine .other ?_ n1 ?_ ?_ <;> rw [hc] <;> exact BR.code_ne (by decide)
    split
    · exact .inr ⟨_, _, _, .inl rfl, h⟩
    · simp only [Run.Post]
      split
      · exact (h.unrefs _).settled ho
      · exact h.settled ho
  rename_i n2
  split
  · rename_i hc
    split
    · exact .inr ⟨_, _, _, .inl rfl, h⟩
    · rename_i p hp
      have hp := decodePtr_eq hp
      have hl : d.length = BC.acquireDone.size k.io := by
        rw [hd, hc, iocSize_br]; cases k.io <;> rfl
      split
      · refine At.settled (a := [.acquire p]) (h.act rfl rfl) ?_
        rw [hp]; exact .acquire hc
      · refine cmdData_act h hl ?_ fun res hr => .acquireUnknown hc hr
        intro x; simp [isResponse, word_append]
  rename_i n3
  split
  · rename_i hc
    have ho : Response W k.io c d [] := by
      refine .other ?_ n1 n3 ?_ <;> rw [hc] <;> exact BR.code_ne (by decide)
    split
    · exact .inr ⟨_, _, _, .inl rfl, h⟩
    · simp only [Run.Post]
      split
      · exact (h.unrefs _).settled ho
      · exact h.settled ho
  split
  · rename_i hc
    exact hT s h hc
  rename_i n5
  split
  · rename_i hc
    split
    · exact .inr ⟨_, _, _, .inl rfl, h⟩
    · rename_i p hp
      have hp := decodePtr_eq hp
      have hl : d.length = BC.deadBinderDone.size k.io := by
        rw [hd, hc, iocSize_br]; cases k.io <;> rfl
      split
      · refine At.settled (a := [.death (p % 2 ^ 32)]) (h.act rfl rfl) ?_
        rw [hp]; exact .death hc
      · refine cmdData_act h hl ?_ fun res hr => .deathUnknown hc hr
        intro x; simp [isResponse, word_append]
  rename_i n6
  exact h.settled (.other n5 n1 n3 n6)

theorem dispatch_answered (W : World) (known : Bool) (tx : TxData) (iface : Option Bytes) (s : St) :
    Answered W known tx iface (dispatch W known tx iface s).1 (dispatch W known tx iface s).2 := by
  unfold dispatch
  cases known with
  | false => exact .inr ⟨.inl rfl, rfl, rfl⟩
  | true =>
    simp only [if_true]
    split
    · rename_i h
      exact .inr ⟨.inr ⟨_, h⟩, rfl, rfl⟩
    · rename_i h
      exact .inl ⟨rfl, s.log, _, fun h1 => h h1, rfl, rfl⟩

theorem settled_mutual {k : Cfg} {W : World} (f : Nat) :
    (∀ d s, At W k.io (BR.transaction.code k.io) d [] s → OkPost W k.io (handleTransaction k W f d s)) ∧
    (∀ s, Settled W k.io s.log → OkPost W k.io (waitReplied k W f s)) ∧
    (∀ c d s, At W k.io c d [] s → d.length = iocSize c → OkPost W k.io (handleCommand k W f c d s)) ∧
    (∀ reply s, Settled W k.io s.log → OkPost W k.io (txstatus k W f reply s)) := by
  induction f with
  | zero =>
    refine ⟨?_, ?_, ?_, ?_⟩
    · intro d s h
      simp only [handleTransaction]
      exact .inr ⟨_, _, _, .inl rfl, h⟩
    · intro s h
      simp only [waitReplied]
      exact .inl h
    · intro c d s h _
      simp only [handleCommand]
      exact .inr ⟨_, _, _, .inl rfl, h⟩
    · intro r s h
      simp only [txstatus]
      exact .inl h
  | succ f ih =>
    obtain ⟨ih1, ih2, ih3, ih4⟩ := ih
    refine ⟨?_, ?_, ?_, ?_⟩
    · intro d s h
      rw [handleTransaction]
      split
      · exact .inr ⟨_, _, _, .inl rfl, h⟩
      · rename_i tx hd
        generalize W.getLocal s.log tx.target = known
        simp only []
        refine (takeRequest_idle h).bind fun iface s h => ?_
        have ha := dispatch_answered W known tx iface s
        generalize dispatch W known tx iface s = r at ha
        obtain ⟨reply, status⟩ := r
        simp only []
        have h1 := h.act (e := .answer known tx iface reply status) rfl rfl
        split
        · rename_i ho
          exact h1.settled (.oneway rfl hd ho ha)
        · rename_i ho
          refine Run.Post.bind (sendReply_act h1 fun pl offs sa res hr => ?_)
            fun _ s h => ih2 s h
          exact .twoway rfl hd (by simpa using ho) ha hr
    · intro s h
      rw [waitReplied]
      refine (writeRead_settled h).bind fun r s h => ?_
      split
      · exact h
      · refine (ih4 _ _ h).bind fun st s h => ?_
        split
        · exact ih2 _ h
        · exact h
    · intro c d s h hd
      refine handleCommand_settled (fun s hs hc => ?_) h hd
      subst hc
      exact ih1 d s hs
    · intro reply s h
      rw [txstatus]
      split
      · exact h
      · rename_i cmd data hn
        have h1 : At W k.io cmd data [] (s.swallow cmd data) := At.swallow h
        have hw := (nextCommand_some hn).1
        have ho : ∀ b : BR, cmd = b.code k.io → b ≠ .transaction → b ≠ .increfs → b ≠ .acquire →
            b ≠ .deadBinder → Settled W k.io (s.swallow cmd data).log := by
          intro b hb n1 n2 n3 n4
          refine h1.settled (.other ?_ ?_ ?_ ?_) <;> rw [hb] <;> exact BR.code_ne (by assumption)
        simp only []
        split
        · rename_i hc
          have h2 := ho _ hc (by decide) (by decide) (by decide) (by decide)
          split
          · exact ih4 _ _ h2
          · exact h2
        split
        · rename_i hc
          exact ho _ hc (by decide) (by decide) (by decide) (by decide)
        split
        · rename_i hc
          exact ho _ hc (by decide) (by decide) (by decide) (by decide)
        split
        · rename_i hc
          have h2 := ho _ hc (by decide) (by decide) (by decide) (by decide)
          split
          · exact .inl h2
          · refine Run.Post.bind (Q := fun _ s => Settled W k.io s.log) ?_ fun _ _ h => h
            split
            · exact h2.idle ⟨rfl, rfl⟩
            · exact freeBuffer_settled h2
        · exact (ih3 _ _ _ h1 hw.2.2).bind fun _ s h => ih4 _ _ h

theorem handleCommands_settled {k : Cfg} {W : World} {f : Nat} {s : St} (h : Settled W k.io s.log) :
    OkPost W k.io (handleCommands k W f s) := by
  induction f generalizing s with
  | zero => exact .inl h
  | succ f ih =>
    rw [handleCommands]
    split
    · exact h
    · rename_i cmd data hn
      exact ((settled_mutual f).2.2.1 _ _ _ (At.swallow h) (nextCommand_some hn).1.2.2).bind
        fun _ _ h => ih h

theorem readLoop_settled {k : Cfg} {W : World} {f : Nat} {s : St} (h : Settled W k.io s.log) :
    OkPost W k.io (readLoop k W f s) := by
  induction f generalizing s with
  | zero => exact .inl h
  | succ f ih =>
    rw [readLoop]
    split
    · refine (writeRead_settled h).bind fun r s h => ?_
      split
      · exact h
      · exact (handleCommands_settled h).bind fun _ _ h => ih h
    · exact h

theorem Settled.idles {W : World} {io : Io} {l x : List Ev} (h : Settled W io l) (hx : ∀ e ∈ x, e.Idle io) :
    Settled W io (l ++ x) := by
  induction x generalizing l with
  | nil => simpa using h
  | cons e x ih =>
    have := ih (h.idle (hx e (by simp))) (fun e he => hx e (by simp [he]))
    simpa using this

theorem cleanup_settled {W : World} {io : Io} {s : St} (h : Settled W io s.log) :
    Settled W io (cleanupContext s).log := by
  refine h.idles fun e he => ?_
  rw [List.mem_map] at he
  obtain ⟨x, _, rfl⟩ := he
  split <;> exact ⟨rfl, rfl⟩

theorem read_settled {k : Cfg} {W : World} {f : Nat} {s : St} (h : s.Fresh) :
    OkPost W k.io (Driver.read k W f s) := by
  have h0 : Settled W k.io s.log := by
    rw [h.2.2.2]; exact .start (by simp) (by simp [acts])
  unfold Driver.read
  refine (writeRead_settled h0).bind fun r s h => ?_
  split
  · exact cleanup_settled h
  · refine (handleCommands_settled h).bind fun _ _ h => ?_
    exact (readLoop_settled h).bind fun _ _ h => cleanup_settled h

theorem transactLoop_settled {k : Cfg} {W : World} {f : Nat} {reply : Bool} {w : Bytes} {s : St}
    (h : Settled W k.io s.log) : OkPost W k.io (transactLoop k W reply f w s) := by
  induction f generalizing s w with
  | zero => exact .inl h
  | succ f ih =>
    rw [transactLoop]
    refine (writeRead_settled h).bind fun r s h => ?_
    split
    · exact h
    · refine ((settled_mutual f).2.2.2 _ _ h).bind fun st s h => ?_
      split
      · exact ih h
      · exact h

theorem finishLoop_settled {k : Cfg} {W : World} {f : Nat} {st : Int} {s : St}
    (h : Settled W k.io s.log) : OkPost W k.io (finishLoop k W f st s) := by
  induction f generalizing s with
  | zero => exact .inl h
  | succ f ih =>
    rw [finishLoop]
    split
    · refine (writeRead_settled h).bind fun r s h => ?_
      split
      · exact h
      · exact (handleCommands_settled h).bind fun _ _ h => ih h
    · exact h

theorem transact_settled {k : Cfg} {W : World} {f handle code : Nat} {req : Writer} {reply : Bool}
    {s : St} (h : s.Fresh) : OkPost W k.io (transact k W f handle code req reply s) := by
  unfold transact
  simp only []
  refine (transactLoop_settled ?_).bind fun st s h => ?_
  · simp only [St.add, h.2.2.2, List.nil_append, List.singleton_append]
    refine .start ?_ ?_
    · intro e he
      simp only [List.mem_cons, List.not_mem_nil, or_false] at he
      rcases he with rfl | rfl <;> rfl
    · intro e he
      simp only [acts, List.mem_filter, List.mem_cons, List.not_mem_nil, or_false] at he
      rcases he.1 with rfl | rfl <;> exact ⟨_, _, rfl⟩
  · split
    · refine (handleCommands_settled h).bind fun _ _ h => ?_
      exact (finishLoop_settled h).bind fun _ _ h => cleanup_settled h
    · exact cleanup_settled h

/-! ### What this means for each command in the log -/

theorem upTo_all {l : List Ev} (h : ∀ e ∈ l, e.command = none) : upToCommand l = l := by
  unfold upToCommand
  induction l with
  | nil => rfl
  | cons e l ih =>
    have h1 := h e (by simp)
    simp only [List.takeWhile_cons, h1, Option.isNone_none, if_true]
    rw [ih fun x hx => h x (by simp [hx])]

theorem upTo_append {l r : List Ev} {c : Nat} {d : Bytes} (h : ∀ e ∈ l, e.command = none) :
    upToCommand (l ++ .cmd c d :: r) = l := by
  unfold upToCommand
  rw [List.takeWhile_append_of_pos (by intro x hx; simp [h x hx])]
  simp [Ev.command]

theorem Settled.response {W : World} {io : Io} {l : List Ev} (h : Settled W io l) {pre post : List Ev} {c : Nat}
    {d : Bytes} (hl : l = pre ++ .cmd c d :: post) :
    Response W io c d (acts io (upToCommand post)) := by
  induction h generalizing pre post with
  | start h1 h2 =>
    have := h1 (.cmd c d) (by rw [hl]; simp)
    cases this
  | @seg l seg c' d' h1 h2 h3 ih =>
    rcases List.append_eq_append_iff.mp hl with ⟨x, hx1, hx2⟩ | ⟨x, hx1, hx2⟩
    · cases x with
      | nil =>
        simp only [List.nil_append, List.cons.injEq, Ev.cmd.injEq] at hx2
        obtain ⟨⟨rfl, rfl⟩, rfl⟩ := hx2
        rw [upTo_all h2]
        exact h3
      | cons e x =>
        simp only [List.cons_append, List.cons.injEq] at hx2
        have := h2 (.cmd c d) (by rw [hx2.2]; simp)
        cases this
    · cases x with
      | nil =>
        simp only [List.nil_append, List.cons.injEq, Ev.cmd.injEq] at hx2
        obtain ⟨⟨rfl, rfl⟩, rfl⟩ := hx2
        rw [upTo_all h2]
        exact h3
      | cons e x =>
        simp only [List.cons_append, List.cons.injEq] at hx2
        obtain ⟨rfl, rfl⟩ := hx2
        have := ih hx1
        have hsame : upToCommand (x ++ .cmd c' d' :: seg) = upToCommand x := by
          unfold upToCommand
          rw [List.takeWhile_append]
          split
          · simp only [List.takeWhile_cons, Ev.command, Option.isNone_some, Bool.false_eq_true,
              if_false, List.append_nil]
            rename_i hlen
            exact (List.takeWhile_sublist _).eq_of_length hlen |>.symm
          · rfl
        rw [hsame]
        exact this

theorem St.fresh : St.Fresh {} := ⟨rfl, rfl, rfl, rfl⟩

theorem call_settled {k : Cfg} {W : World} {f : Nat} (x : Call) : OkPost W k.io (x.run k W f) := by
  cases x with
  | read => exact (read_settled St.fresh).bind fun _ _ h => h
  | transact handle code req reply => exact (transact_settled St.fresh).bind fun _ _ h => h

/-- A command at any place in the log of a call. -/
theorem call_response {k : Cfg} {W : World} {f : Nat} {x : Call} {pre post : List Ev} {c : Nat}
    {d : Bytes} (hl : (x.run k W f).log = pre ++ .cmd c d :: post)
    (hr : (x.run k W f).Returned ∨ ∃ e ∈ post, e.command ≠ none) :
    Response W k.io c d (acts k.io (upToCommand post)) := by
  have h := call_settled (k := k) (W := W) (f := f) x
  revert h hl hr
  generalize x.run k W f = r
  intro hl hr h
  cases r with
  | done a s => exact Settled.response h hl
  | stop w s =>
    simp only [Run.log] at hl
    simp only [Run.Returned, false_or] at hr
    rcases h with h | ⟨c', d', a, _, h⟩
    · exact h.response hl
    · obtain ⟨l, seg, h1, h2, h3, _⟩ := h.ex
      rw [h2] at hl
      rcases List.append_eq_append_iff.mp hl with ⟨y, hy1, hy2⟩ | ⟨y, hy1, hy2⟩
      · obtain ⟨e, he1, he2⟩ := hr
        cases y with
        | nil =>
          simp only [List.nil_append, List.cons.injEq] at hy2
          rw [hy2.2] at h3
          exact absurd (h3 e he1) he2
        | cons z y =>
          simp only [List.cons_append, List.cons.injEq] at hy2
          refine absurd (h3 e ?_) he2
          rw [hy2.2]
          simp [he1]
      · cases y with
        | nil =>
          simp only [List.nil_append, List.cons.injEq] at hy2
          obtain ⟨e, he1, he2⟩ := hr
          rw [← hy2.2] at h3
          exact absurd (h3 e he1) he2
        | cons z y =>
          simp only [List.cons_append, List.cons.injEq] at hy2
          obtain ⟨rfl, rfl⟩ := hy2
          have := h1.response hy1
          have hsame : upToCommand (y ++ .cmd c' d' :: seg) = upToCommand y := by
            unfold upToCommand
            rw [List.takeWhile_append]
            split
            · simp only [List.takeWhile_cons, Ev.command, Option.isNone_some, Bool.false_eq_true,
                if_false, List.append_nil]
              rename_i hlen
              exact (List.takeWhile_sublist _).eq_of_length hlen |>.symm
            · rfl
          rw [hsame]
          exact this

/-- The last command of a call which has not returned. -/
theorem call_started {k : Cfg} {W : World} {f : Nat} {x : Call} {pre post : List Ev} {c : Nat}
    {d : Bytes} (hl : (x.run k W f).log = pre ++ .cmd c d :: post) :
    Started W k.io c d (acts k.io (upToCommand post)) := by
  by_cases hr : (x.run k W f).Returned ∨ ∃ e ∈ post, e.command ≠ none
  · exact .inr ⟨[], by rw [List.append_nil]; exact call_response hl hr⟩
  · have hp : ∀ e ∈ post, e.command = none := by
      intro e he
      cases hc : e.command with
      | none => rfl
      | some y => exact absurd (.inr ⟨e, he, by simp [hc]⟩) hr
    have h := call_settled (k := k) (W := W) (f := f) x
    revert h hl hr
    generalize x.run k W f = r
    intro hl hr h
    cases r with
    | done a s => exact absurd (.inl trivial) hr
    | stop w s =>
      simp only [Run.log] at hl
      rcases h with h | ⟨c', d', a, hst, h⟩
      · exact .inr ⟨[], by rw [List.append_nil]; exact h.response hl⟩
      · obtain ⟨l, seg, h1, h2, h3, h4⟩ := h.ex
        rw [h2] at hl
        rw [upTo_all hp]
        rcases List.append_eq_append_iff.mp hl with ⟨y, hy1, hy2⟩ | ⟨y, hy1, hy2⟩
        · cases y with
          | nil =>
            simp only [List.nil_append, List.cons.injEq, Ev.cmd.injEq] at hy2
            obtain ⟨⟨rfl, rfl⟩, rfl⟩ := hy2
            rw [h4]; exact hst
          | cons z y =>
            simp only [List.cons_append, List.cons.injEq] at hy2
            have := h3 (.cmd c d) (by rw [hy2.2]; simp)
            cases this
        · cases y with
          | nil =>
            simp only [List.nil_append, List.cons.injEq, Ev.cmd.injEq] at hy2
            obtain ⟨⟨rfl, rfl⟩, rfl⟩ := hy2
            rw [h4]; exact hst
          | cons z y =>
            simp only [List.cons_append, List.cons.injEq] at hy2
            have := hp (.cmd c' d') (by rw [hy2.2]; simp)
            cases this

end Gb.Driver
