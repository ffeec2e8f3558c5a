import Verif.Lemmas.Driver
/- No complete command is left in the read buffer when the loops are done. -/
set_option autoImplicit false

namespace Gb.Driver

/-! ### Streams of commands -/

theorem length_encode (c : Nat × Bytes) : (encode c).length = 4 + c.2.length := by
  simp [encode]

/-- A command can be told from what follows it. -/
theorem encode_inj {a b : Nat × Bytes} {x y : Bytes} (ha : WellFormed a) (hb : WellFormed b)
    (h : encode a ++ x = encode b ++ y) : a = b ∧ x = y := by
  obtain ⟨ac, ad⟩ := a
  obtain ⟨bc, bd⟩ := b
  simp only [WellFormed] at ha hb
  simp only [encode, List.append_assoc] at h
  obtain ⟨h1, h2⟩ := List.append_inj h (by simp)
  have hc : ac = bc := by
    have := congrArg leVal h1
    rwa [leVal_leBytes_of_lt (by simpa using ha.2.1), leVal_leBytes_of_lt (by simpa using hb.2.1)]
      at this
  subst hc
  obtain ⟨h3, h4⟩ := List.append_inj h2 (by rw [ha.2.2, hb.2.2])
  subst h3
  exact ⟨rfl, h4⟩

/-- If the encoding of one sequence is a prefix of the encoding of another one, then so is the
sequence. -/
theorem prefix_of_encoded {as bs : List (Nat × Bytes)} (ha : ∀ c ∈ as, WellFormed c)
    (hb : ∀ c ∈ bs, WellFormed c) (h : as.flatMap encode <+: bs.flatMap encode) : as <+: bs := by
  induction as generalizing bs with
  | nil => exact List.nil_prefix
  | cons a as ih =>
    obtain ⟨t, ht⟩ := h
    cases bs with
    | nil =>
      have := congrArg List.length ht
      simp only [List.flatMap_cons, List.flatMap_nil, List.length_append, List.length_nil,
        length_encode] at this
      omega
    | cons b bs =>
      simp only [List.flatMap_cons, List.append_assoc] at ht
      obtain ⟨rfl, h2⟩ := encode_inj (ha _ (by simp)) (hb _ (by simp)) ht
      have := ih (fun c hc => ha c (by simp [hc])) (fun c hc => hb c (by simp [hc])) ⟨t, h2⟩
      exact (List.prefix_cons_inj a).mpr this

/-- If no command is found in the buffer, then what is left is not a command. -/
theorem no_command {s : St} (h : nextCommand s = none) {c : Nat × Bytes} (hc : WellFormed c)
    (rest : Bytes) : s.buf.drop s.off ≠ encode c ++ rest := by
  intro he
  unfold nextCommand at h
  simp only [he] at h
  have h4 : (encode c ++ rest).take 4 = leBytes 4 c.1 := by
    simp only [encode, List.append_assoc]
    rw [List.take_left' (by simp)]
  rw [h4, leVal_leBytes_of_lt (by simpa using hc.2.1)] at h
  have hl : (encode c ++ rest).length = 4 + iocSize c.1 + rest.length := by
    rw [List.length_append, length_encode, hc.2.2]
  rw [hl, if_pos (by omega), if_pos ⟨by omega, hc.1⟩] at h
  cases h

/-- Whatever has been delivered completely has been acted upon. -/
theorem all_of_none {s : St} (h : Stream s) (hn : nextCommand s = none) {p : List (Nat × Bytes)}
    (hp : ∀ c ∈ p, WellFormed c) (hd : p.flatMap encode <+: delivered s.log) :
    p <+: commands s.log := by
  rw [h.eq] at hd
  have hw := h.wf
  revert hd hw
  generalize commands s.log = as
  intro hd hw
  induction p generalizing as with
  | nil => exact List.nil_prefix
  | cons b p ih =>
    obtain ⟨t, ht⟩ := hd
    cases as with
    | nil =>
      simp only [List.flatMap_cons, List.flatMap_nil, List.nil_append, List.append_assoc] at ht
      exact absurd ht.symm (no_command hn (hp _ (by simp)) _)
    | cons a as =>
      simp only [List.flatMap_cons, List.append_assoc] at ht
      obtain ⟨rfl, h2⟩ := encode_inj (hp _ (by simp)) (hw _ (by simp)) ht
      exact (List.prefix_cons_inj b).mpr (ih (fun c hc => hp c (by simp [hc])) as ⟨t, h2⟩
        (fun c hc => hw c (by simp [hc])))

/-! ### The loops -/

/-- All complete commands have been acted upon. -/
def Drained (s : St) : Prop := Stream s ∧ nextCommand s = none

theorem nextCommand_log (s : St) (l : List Ev) : nextCommand { s with log := l } = nextCommand s := rfl

theorem nextCommand_unrefs (s : St) (l : List (Bool × Nat)) :
    nextCommand { s with unrefs := l } = nextCommand s := rfl

theorem nextCommand_compact (s : St) : nextCommand (compact s) = nextCommand s := by
  simp only [nextCommand, compact, List.drop_zero]

theorem handleCommands_drained {c : Cfg} {W : World} {f : Nat} {s : St} (h : Stream s) :
    (handleCommands c W f s).Post (fun _ => Drained) Stream := by
  induction f generalizing s with
  | zero => exact h
  | succ f ih =>
    rw [handleCommands]
    split
    · rename_i hn
      exact ⟨h.compact, (nextCommand_compact s).trans hn⟩
    · rename_i hn
      exact ((Stream.mutual f).2.2.1 _ _ _ (h.swallow hn)).bind fun _ _ h => ih h

theorem writeRead_drained {W : World} {f : Nat} {w : Bytes} {s : St} (h : Drained s) :
    (writeRead W f w s).Post (fun r s => Stream s ∧ (r.1.isSome → Drained s)) Stream := by
  induction f generalizing s with
  | zero => exact h.1
  | succ f ih =>
    rw [Driver.writeRead]
    generalize readBufferSize - s.buf.length = room
    simp only []
    split
    · exact h.1
    · split
      · exact ih ⟨h.1.quiet (quiet_err _ _ _), h.2⟩
      · exact ⟨h.1.quiet (quiet_err _ _ _), fun _ => ⟨h.1.quiet (quiet_err _ _ _), h.2⟩⟩
    · exact ⟨h.1.deliver, by simp⟩

theorem readLoop_drained {c : Cfg} {W : World} {f : Nat} {s : St} (h : Drained s) :
    (readLoop c W f s).Post (fun _ => Drained) Stream := by
  induction f generalizing s with
  | zero => exact h.1
  | succ f ih =>
    rw [readLoop]
    split
    · refine (writeRead_drained h).bind fun r s h => ?_
      split
      · rename_i e he
        exact h.2 (by simp [he])
      · exact (handleCommands_drained h.1).bind fun _ _ h => ih h
    · exact h

theorem Stream.cleanup {s : St} (h : Stream s) : Stream (cleanupContext s) := by
  unfold cleanupContext
  generalize hu : s.unrefs = u
  clear hu
  have key : ∀ (u : List (Bool × Nat)) (s : St), Stream s → Stream { s with
      log := s.log ++ u.map (fun x => if x.1 then Ev.release x.2 else Ev.decrefs x.2) } := by
    intro u
    induction u with
    | nil => intro s h; simpa using h
    | cons x u ih =>
      intro s h
      have h1 : Stream (s.add (if x.1 then Ev.release x.2 else Ev.decrefs x.2)) :=
        h.quiet (by split <;> exact ⟨rfl, rfl⟩)
      have h2 := ih _ h1
      simp only [St.add, List.append_assoc, List.singleton_append] at h2
      simpa using h2
  exact (key u s h).unrefs []

theorem fresh_drained {s : St} (h : s.Fresh) : Drained s := by
  obtain ⟨h1, h2, h3, h4⟩ := h
  refine ⟨⟨?_, ?_, ?_⟩, ?_⟩
  · rw [h1, h2]; exact Nat.le_refl _
  · rw [h4, h1, h2]; rfl
  · rw [h4]; simp [commands]
  · unfold nextCommand; simp [h1]

theorem read_drained {c : Cfg} {W : World} {f : Nat} {s : St} (h : s.Fresh) :
    (Driver.read c W f s).Post (fun _ => Drained) Stream := by
  unfold Driver.read
  refine (writeRead_drained (fresh_drained h)).bind fun r s h => ?_
  split
  · rename_i e he
    have := h.2 (by simp [he])
    exact ⟨Stream.cleanup this.1, this.2⟩
  · refine (handleCommands_drained h.1).bind fun _ _ h => ?_
    exact (readLoop_drained h).bind fun _ _ h => ⟨Stream.cleanup h.1, h.2⟩

/-- What txstatus leaves behind: if it has no status yet, then there is nothing left in the
buffer; a negative status is only found in BR_REPLY. -/
def Judged (io : Io) (st : Int) (s : St) : Prop :=
  Stream s ∧ (st = -(EAGAIN : Int) → nextCommand s = none) ∧
  (st ≠ -(EAGAIN : Int) → st < 0 → ∃ pre d, commands s.log = pre ++ [(BR.reply.code io, d)])

theorem filterStatus_ne (n : Nat) : filterStatus n ≠ -(EAGAIN : Int) ∧ filterStatus n ≠ 1 ∧
    filterStatus n ≠ 2 := by
  unfold filterStatus
  simp only []
  split
  · decide
  · rename_i h
    exact ⟨fun h1 => h (Or.inl h1), fun h1 => h (Or.inr (Or.inl h1)),
      fun h1 => h (Or.inr (Or.inr h1))⟩

theorem write_commands {W : World} {f : Nat} {b : Bytes} {s : St} :
    (write W f b s).Post (fun _ s' => commands s'.log = commands s.log) (fun _ => True) := by
  induction f generalizing s with
  | zero => trivial
  | succ f ih =>
    rw [Driver.write]
    split
    · trivial
    · split
      · refine ih.mono (fun _ s' h => h.trans ?_) (fun _ h => h)
        simp [commands, St.add, Ev.command]
      · simp [commands, St.add, Ev.command, Run.Post]
    · simp [commands, St.add, Ev.command, Run.Post]

theorem Post.and {α : Type} {Q Q' : α → St → Prop} {P : St → Prop} {r : Run α}
    (h : r.Post Q P) (h' : r.Post Q' (fun _ => True)) : r.Post (fun a s => Q a s ∧ Q' a s) P := by
  cases r with
  | done a s => exact ⟨h, h'⟩
  | stop w s => exact h

theorem freeBuffer_commands {W : World} {io : Io} {f a : Nat} {s : St} :
    (freeBuffer W io f a s).Post (fun _ s' => commands s'.log = commands s.log)
      (fun _ => True) := by
  unfold Driver.freeBuffer
  split
  · exact write_commands.bind fun _ _ h => h
  · rfl

theorem txstatus_judged {c : Cfg} {W : World} {f : Nat} {reply : Bool} {s : St} (h : Stream s) :
    (txstatus c W f reply s).Post (Judged c.io) Stream := by
  induction f generalizing s with
  | zero => simp only [txstatus]; exact h
  | succ f ih =>
    rw [txstatus]
    split
    · rename_i hn
      exact ⟨h.compact, fun _ => (nextCommand_compact s).trans hn, fun h1 => absurd rfl h1⟩
    · rename_i cmd data hn
      have h1 := h.swallow hn
      simp only []
      split
      · split
        · exact ih h1
        · exact ⟨h1.compact, fun h => absurd h (by decide), fun _ h => absurd h (by decide)⟩
      split
      · exact ⟨h1.compact, fun h => absurd h (by decide), fun _ h => absurd h (by decide)⟩
      split
      · exact ⟨h1.compact, fun h => absurd h (by decide), fun _ h => absurd h (by decide)⟩
      split
      · rename_i hr
        split
        · exact h1
        · rename_i tx _
          refine Run.Post.bind (Q := fun _ s' => Stream s' ∧
            commands s'.log = commands (s.swallow cmd data).log) ?_ fun _ s' hs => ?_
          · split
            · exact ⟨h1.quiet ⟨rfl, rfl⟩, by simp [commands, St.add, Ev.command]⟩
            · exact Post.and h1.freeBuffer freeBuffer_commands
          · refine ⟨hs.1.compact, fun hc => absurd hc (filterStatus_ne _).1, fun _ _ => ?_⟩
            refine ⟨commands s.log, data, ?_⟩
            simp only [compact, hs.2]
            simp [St.swallow, St.add, commands, Ev.command, hr]
      · exact ((Stream.mutual f).2.2.1 _ _ _ h1).bind fun _ s h => ih h

theorem transactLoop_judged {c : Cfg} {W : World} {f : Nat} {reply : Bool} {w : Bytes} {s : St}
    (h : Drained s) :
    (transactLoop c W reply f w s).Post (fun st s => Stream s ∧ (st < 0 → nextCommand s = none ∨
      ∃ pre d, commands s.log = pre ++ [(BR.reply.code c.io, d)])) Stream := by
  induction f generalizing s w with
  | zero => exact h.1
  | succ f ih =>
    rw [transactLoop]
    refine (writeRead_drained h).bind fun r s h => ?_
    split
    · rename_i e he
      exact ⟨h.1, fun _ => .inl (h.2 (by simp [he])).2⟩
    · refine (txstatus_judged h.1).bind fun st s h => ?_
      split
      · rename_i hs
        exact ih ⟨h.1, h.2.1 hs⟩
      · rename_i hs
        exact ⟨h.1, fun hneg => .inr (h.2.2 hs hneg)⟩

theorem finishLoop_drained {c : Cfg} {W : World} {f : Nat} {st : Int} {s : St} (h : Drained s) :
    (finishLoop c W f st s).Post (fun _ => Drained) Stream := by
  induction f generalizing s with
  | zero => exact h.1
  | succ f ih =>
    rw [finishLoop]
    split
    · refine (writeRead_drained h).bind fun r s h => ?_
      split
      · rename_i e he
        exact h.2 (by simp [he])
      · exact (handleCommands_drained h.1).bind fun _ _ h => ih h
    · exact h

theorem commands_cleanup (s : St) : commands (cleanupContext s).log = commands s.log := by
  simp only [commands, cleanupContext, List.filterMap_append, List.filterMap_map]
  suffices h : List.filterMap (Ev.command ∘ fun (x : Bool × Nat) =>
      if x.1 then Ev.release x.2 else Ev.decrefs x.2) s.unrefs = [] by rw [h, List.append_nil]
  rw [List.filterMap_eq_nil_iff]
  intro x _
  simp only [Function.comp]
  split <;> rfl

theorem transact_judged {c : Cfg} {W : World} {f handle code : Nat} {req : Writer} {reply : Bool}
    {s : St} (h : s.Fresh) :
    (transact c W f handle code req reply s).Post (fun st s => Stream s ∧ (nextCommand s = none ∨
      st < 0 ∧ ∃ pre d, commands s.log = pre ++ [(BR.reply.code c.io, d)])) Stream := by
  unfold transact
  simp only []
  have hd := fresh_drained h
  have hd' : Drained ((s.add (.holds (W.place s.log).1 req.bytes)).add
      (.holds (W.place s.log).2.1 (transactionCommand c.io req handle code (!reply)
        (W.place s.log).1 (W.place s.log).2.1).2)) :=
    ⟨(hd.1.quiet ⟨rfl, rfl⟩).quiet ⟨rfl, rfl⟩, hd.2⟩
  refine (transactLoop_judged hd').bind fun st s h => ?_
  split
  · refine (handleCommands_drained h.1).bind fun _ _ h => ?_
    exact (finishLoop_drained h).bind fun st s h => ⟨Stream.cleanup h.1, .inl h.2⟩
  · rename_i hneg
    refine ⟨Stream.cleanup h.1, ?_⟩
    rcases h.2 (by omega) with h2 | ⟨pre, d, h2⟩
    · exact .inl h2
    · exact .inr ⟨by omega, pre, d, (commands_cleanup s).trans h2⟩

theorem Post.log {α : Type} {Q : α → St → Prop} {r : Run α} (h : r.Post Q Stream)
    (hq : ∀ a s, Q a s → Stream s) : ∃ s, Stream s ∧ r.log = s.log := by
  cases r with
  | done a s => exact ⟨s, hq _ _ h, rfl⟩
  | stop w s => exact ⟨s, h, rfl⟩

theorem Stream.prefix {s : St} (h : Stream s) {cmds : List (Nat × Bytes)}
    (hc : ∀ c ∈ cmds, WellFormed c) (hd : delivered s.log <+: cmds.flatMap encode) :
    commands s.log <+: cmds := by
  refine prefix_of_encoded h.wf hc (List.IsPrefix.trans ?_ hd)
  rw [h.eq]
  exact List.prefix_append _ _

/-! ### Nothing is left in the buffer -/

theorem Run.Post.trivial {α : Type} (r : Run α) : r.Post (fun _ _ => True) (fun _ => True) := by
  cases r <;> exact True.intro

theorem Stream.whole {s : St} (h : Stream s) (hb : s.buf = []) :
    delivered s.log = (commands s.log).flatMap encode := by
  rw [h.eq, hb]
  simp

theorem readLoop_empty {c : Cfg} {W : World} (hl : ∀ l, W.canLoop l = true) {f : Nat} {s : St} :
    (readLoop c W f s).Post (fun r s => r = none → s.buf = []) (fun _ => True) := by
  induction f generalizing s with
  | zero => trivial
  | succ f ih =>
    rw [readLoop]
    split
    · refine Run.Post.bind (Q := fun _ _ => True) ?_ fun r s _ => ?_
      · exact Run.Post.trivial _
      · split
        · intro h; cases h
        · refine Run.Post.bind (Q := fun _ _ => True) ?_ fun _ _ _ => ih
          exact Run.Post.trivial _
    · rename_i h
      intro _
      apply Classical.byContradiction
      intro hb
      exact h ⟨hb, hl _⟩

theorem writeRead_error {W : World} (hp : ∀ l w r, W.kernel l w r ≠ some (.err 0)) {f : Nat} {w : Bytes} {s : St} :
    (writeRead W f w s).Post (fun r _ => ∀ e, r.1 = some e → 0 < e) (fun _ => True) := by
  induction f generalizing s with
  | zero => trivial
  | succ f ih =>
    rw [Driver.writeRead]
    simp only []
    split
    · trivial
    · rename_i e he
      split
      · exact ih
      · intro e' h
        cases h
        rcases Nat.eq_zero_or_pos e with h | h
        · subst h; exact absurd he (hp _ _ _)
        · exact h
    · intro e h; cases h

theorem finishLoop_empty {c : Cfg} {W : World} (hp : ∀ l w r, W.kernel l w r ≠ some (.err 0)) {f : Nat} {st : Int}
    {s : St} : (finishLoop c W f st s).Post (fun st' s => 0 ≤ st' → s.buf = []) (fun _ => True) := by
  induction f generalizing s with
  | zero => trivial
  | succ f ih =>
    rw [finishLoop]
    split
    · refine Run.Post.bind (writeRead_error hp) fun r s hr => ?_
      split
      · rename_i e he
        intro h
        have := hr e he
        omega
      · refine Run.Post.bind (Q := fun _ _ => True) ?_ fun _ _ _ => ih
        exact Run.Post.trivial _
    · rename_i h
      intro _
      exact Classical.not_not.1 h

theorem read_empty {c : Cfg} {W : World} (hl : ∀ l, W.canLoop l = true) {f : Nat} {s : St} :
    (Driver.read c W f s).Post (fun r s => r = none → s.buf = []) (fun _ => True) := by
  unfold Driver.read
  refine Run.Post.bind (Q := fun _ _ => True) ?_ fun r s _ => ?_
  · exact Run.Post.trivial _
  · split
    · intro h; cases h
    · refine Run.Post.bind (Q := fun _ _ => True) ?_ fun _ _ _ => ?_
      · exact Run.Post.trivial _
      · exact (readLoop_empty hl).bind fun _ _ h => h

theorem transact_empty {c : Cfg} {W : World} (hp : ∀ l w r, W.kernel l w r ≠ some (.err 0))
    {f handle code : Nat} {req : Writer} {reply : Bool} {s : St} :
    (transact c W f handle code req reply s).Post (fun st s => 0 ≤ st → s.buf = []) (fun _ => True) := by
  unfold transact
  simp only []
  refine Run.Post.bind (Q := fun _ _ => True) ?_ fun st s _ => ?_
  · exact Run.Post.trivial _
  · split
    · refine Run.Post.bind (Q := fun _ _ => True) ?_ fun _ _ _ => ?_
      · exact Run.Post.trivial _
      · exact (finishLoop_empty hp).bind fun _ _ h => h
    · rename_i h
      exact fun h1 => absurd h1 h

end Gb.Driver
