import Verif.Lemmas.DriverStream
/-
C20: the commands the library acts upon are those the kernel wrote, in order, each exactly once,
no matter how they are split between reads, also when the library waits for the status of a reply
while it is processing a batch of commands.

`delivered` are the bytes which the kernel has stored to the read buffer, `commands` the commands
which have been acted upon. The environment (`World`) is arbitrary.
-/
set_option autoImplicit false

namespace Gb.C20
open Driver

/-! ### The properties -/

/-- The kernel has written the commands `cmds`, and has delivered as much of this as the log says.
At any moment the commands acted upon by gbinder_driver_read are the first of these: none is
invented, repeated, taken out of order or assembled from parts of different commands. -/
theorem C20_read_prefix {c : Cfg} {W : World} {f : Nat} {s : St} (h : s.Fresh)
    {cmds : List (Nat × Bytes)} (hc : ∀ x ∈ cmds, WellFormed x)
    (hd : delivered (Driver.read c W f s).log <+: cmds.flatMap encode) :
    commands (Driver.read c W f s).log <+: cmds := by
  obtain ⟨s', hs, he⟩ := Post.log (read_drained (c := c) (W := W) (f := f) h) fun _ _ h => h.1
  rw [he] at hd ⊢
  exact Stream.prefix hs hc hd

/-- The same for gbinder_driver_transact. -/
theorem C20_transact_prefix {c : Cfg} {W : World} {f handle code : Nat} {req : Writer}
    {reply : Bool} {s : St} (h : s.Fresh)
    {cmds : List (Nat × Bytes)} (hc : ∀ x ∈ cmds, WellFormed x)
    (hd : delivered (transact c W f handle code req reply s).log <+: cmds.flatMap encode) :
    commands (transact c W f handle code req reply s).log <+: cmds := by
  obtain ⟨s', hs, he⟩ := Post.log
    (transact_judged (c := c) (W := W) (f := f) (handle := handle) (code := code) (req := req)
      (reply := reply) h) fun _ _ h => h.1
  rw [he] at hd ⊢
  exact Stream.prefix hs hc hd

/-- When gbinder_driver_read returns, with an error or not, all commands which have been delivered
completely have been acted upon. -/
theorem C20_read_complete {c : Cfg} {W : World} {f : Nat} {s s' : St} {r : Option Nat}
    (h : s.Fresh) (hr : Driver.read c W f s = .done r s')
    {p : List (Nat × Bytes)} (hp : ∀ x ∈ p, WellFormed x)
    (hd : p.flatMap encode <+: delivered s'.log) : p <+: commands s'.log := by
  have := read_drained (c := c) (W := W) (f := f) h
  rw [hr] at this
  exact all_of_none this.1 this.2 hp hd

/-- Together: if the kernel has delivered the commands `cmds`, in any number of reads, then when
gbinder_driver_read returns, exactly these commands have been acted upon, in this order. -/
theorem C20_read {c : Cfg} {W : World} {f : Nat} {s s' : St} {r : Option Nat}
    (h : s.Fresh) (hr : Driver.read c W f s = .done r s')
    {cmds : List (Nat × Bytes)} (hc : ∀ x ∈ cmds, WellFormed x)
    (hd : delivered s'.log = cmds.flatMap encode) : commands s'.log = cmds := by
  have h1 := C20_read_complete h hr hc (by rw [hd]; exact List.prefix_refl _)
  have h2 := C20_read_prefix (c := c) (W := W) (f := f) h hc (by
    rw [hr]
    simp only [Run.log]
    rw [hd]
    exact List.prefix_refl _)
  rw [hr] at h2
  exact List.IsPrefix.eq_of_length h2 (Nat.le_antisymm h2.length_le h1.length_le)

/-- gbinder_driver_transact returns: either all commands have been acted upon, or the result is
negative and the last command acted upon is BR_REPLY. In the latter case those which follow it are
lost. -/
theorem C20_transact_or {c : Cfg} {W : World} {f handle code : Nat} {req : Writer}
    {reply : Bool} {s s' : St} {st : Int} (h : s.Fresh)
    (hr : transact c W f handle code req reply s = .done st s')
    {cmds : List (Nat × Bytes)} (hc : ∀ x ∈ cmds, WellFormed x)
    (hd : delivered s'.log = cmds.flatMap encode) :
    commands s'.log = cmds ∨
    st < 0 ∧ ∃ pre d rest, cmds = pre ++ (BR.reply.code c.io, d) :: rest ∧
      commands s'.log = pre ++ [(BR.reply.code c.io, d)] := by
  have hj := transact_judged (c := c) (W := W) (f := f) (handle := handle) (code := code)
    (req := req) (reply := reply) h
  rw [hr] at hj
  obtain ⟨hs, hj⟩ := hj
  have h2 := Stream.prefix hs hc (by rw [hd]; exact List.prefix_refl _)
  rcases hj with hn | ⟨hneg, pre, d, hl⟩
  · have h1 := all_of_none hs hn hc (by rw [hd]; exact List.prefix_refl _)
    exact .inl (List.IsPrefix.eq_of_length h2 (Nat.le_antisymm h2.length_le h1.length_le))
  · refine .inr ⟨hneg, pre, d, ?_⟩
    rw [hl] at h2
    obtain ⟨rest, hrest⟩ := h2
    exact ⟨rest, by rw [← hrest]; simp, hl⟩

/-- If nothing follows BR_REPLY (Linux stops filling the read buffer after BR_TRANSACTION or
BR_REPLY), or if the result isn't negative, then nothing is lost. -/
theorem C20_transact_partial {c : Cfg} {W : World} {f handle code : Nat} {req : Writer}
    {reply : Bool} {s s' : St} {st : Int} (h : s.Fresh)
    (hr : transact c W f handle code req reply s = .done st s')
    {cmds : List (Nat × Bytes)} (hc : ∀ x ∈ cmds, WellFormed x)
    (hlast : 0 ≤ st ∨ ∀ pre d rest, cmds = pre ++ (BR.reply.code c.io, d) :: rest → rest = [])
    (hd : delivered s'.log = cmds.flatMap encode) : commands s'.log = cmds := by
  rcases C20_transact_or h hr hc hd with h1 | ⟨hneg, pre, d, rest, h1, h2⟩
  · exact h1
  · rcases hlast with hl | hl
    · omega
    · rw [h2, h1, hl pre d rest h1]

/-- No part of a command is discarded when gbinder_driver_read returns without an error: everything
that has been delivered has been acted upon. Unless the loop is told to stop (`canLoop`), if there is
a part of a command at the end of the buffer then the rest of it is read. -/
theorem C20_read_whole {c : Cfg} {W : World} {f : Nat} {s s' : St}
    (h : s.Fresh) (hr : Driver.read c W f s = .done none s') (hl : ∀ l, W.canLoop l = true) :
    delivered s'.log = (commands s'.log).flatMap encode := by
  have h1 := read_drained (c := c) (W := W) (f := f) h
  have h2 := read_empty (c := c) (W := W) hl (f := f) (s := s)
  rw [hr] at h1 h2
  exact h1.1.whole (h2 rfl)

/-- The same for gbinder_driver_transact, unless its result is negative (errno is never zero). -/
theorem C20_transact_whole {c : Cfg} {W : World} {f handle code : Nat} {req : Writer}
    {reply : Bool} {s s' : St} {st : Int} (h : s.Fresh)
    (hr : transact c W f handle code req reply s = .done st s') (hs : 0 ≤ st)
    (hp : ∀ l w r, W.kernel l w r ≠ some (.err 0)) :
    delivered s'.log = (commands s'.log).flatMap encode := by
  have h1 := transact_judged (c := c) (W := W) (f := f) (handle := handle) (code := code)
    (req := req) (reply := reply) h
  have h2 := transact_empty (c := c) (W := W) hp (f := f) (handle := handle) (code := code)
    (req := req) (reply := reply) (s := s)
  rw [hr] at h1 h2
  exact h1.1.whole (h2 hs)

/-! ### Examples -/

/-- A kernel which returns the given results of reading, one after another; writing always
succeeds. -/
def scripted (io : Io) (m : Mem) (reads : List Bytes) : World :=
  { kernel := fun l _ room =>
      match room with
      | none => some (.ok 0 [])
      | some _ =>
        (reads[(l.filter fun e => match e with | .ioctl _ (some _) _ => true | _ => false).length]?).map
          fun rd => .ok (BC.transactionSg.size io) rd
    mem := fun _ => m
    getLocal := fun _ p => p = 16
    getRemote := fun _ _ => false
    support := fun _ _ _ _ => .looper
    handle := fun _ _ _ _ => (none, -1)
    canLoop := fun _ => true
    place := fun _ => (1000, 2000, 3000) }

/-- BR_NOOP, BR_INCREFS for a known and for an unknown object, an incoming transaction (which
requires a reply and therefore a nested wait), BR_ACQUIRE. -/
def stream : List (Nat × Bytes) :=
  [(BR.noop.code .io32, []),
   (BR.increfs.code .io32, leBytes 4 16 ++ leBytes 4 0),
   (BR.transaction.code .io32, ({ target := 16, code := 1 } : TxHeader).bytes .io32),
   (BR.increfs.code .io32, leBytes 4 20 ++ leBytes 4 0),
   (BR.transactionComplete.code .io32, []),
   (BR.acquire.code .io32, leBytes 4 16 ++ leBytes 4 0)]

/-- The stream is split in the middle of commands. -/
example : ∃ s', Driver.read ⟨.io32, .aidl⟩ (scripted .io32 [] [(stream.flatMap encode).take 77,
      ((stream.flatMap encode).drop 77).take 10, (stream.flatMap encode).drop 87]) 40 {} =
      .done none s' ∧ delivered s'.log = stream.flatMap encode ∧ commands s'.log = stream := by
  refine ⟨(match Driver.read ⟨.io32, .aidl⟩ (scripted .io32 [] [(stream.flatMap encode).take 77,
      ((stream.flatMap encode).drop 77).take 10, (stream.flatMap encode).drop 87]) 40 {} with
      | .done _ s => s | .stop _ s => s), ?_⟩
  decide +kernel

example : ∀ x ∈ stream, WellFormed x := by decide +kernel

theorem scripted_errno {io : Io} {m : Mem} {reads : List Bytes} (l : List Ev) (w : Bytes) (r : Option Nat) :
    (scripted io m reads).kernel l w r ≠ some (.err 0) := by
  simp only [scripted]
  split
  · simp
  · intro h
    rw [Option.map_eq_some_iff] at h
    obtain ⟨_, _, h⟩ := h
    cases h

/-- A transaction: the end of the reply, and of the command following it, has to be read. -/
def replyStream : List (Nat × Bytes) :=
  [(BR.transactionComplete.code .io32, []),
   (BR.reply.code .io32, ({ buffer := 64 } : TxHeader).bytes .io32),
   (BR.increfs.code .io32, leBytes 4 16 ++ leBytes 4 0)]

example : ∃ s', transact ⟨.io32, .aidl⟩ (scripted .io32 [] [(replyStream.flatMap encode).take 20,
      ((replyStream.flatMap encode).drop 20).take 35, (replyStream.flatMap encode).drop 55]) 40 1 2
      { io := .io32, protocol := .aidl } true {} = .done 0 s' ∧ commands s'.log = replyStream := by
  refine ⟨(match transact ⟨.io32, .aidl⟩ (scripted .io32 [] [(replyStream.flatMap encode).take 20,
      ((replyStream.flatMap encode).drop 20).take 35, (replyStream.flatMap encode).drop 55]) 40 1 2
      { io := .io32, protocol := .aidl } true {} with
      | .done _ s => s | .stop _ s => s), ?_⟩
  decide +kernel

/-- BR_REPLY with status -1, followed by BR_INCREFS. -/
def lostStream : List (Nat × Bytes) :=
  [(BR.noop.code .io32, []),
   (BR.reply.code .io32,
     ({ flags := tfStatusCode, dataSize := 4, buffer := 64 } : TxHeader).bytes .io32),
   (BR.increfs.code .io32, leBytes 4 16 ++ leBytes 4 0)]

/-- Without the restriction the property doesn't hold: BR_INCREFS which follows BR_REPLY with a
negative status is never acted upon. -/
theorem C20_fails_transact : ∃ (W : World) (st : Int) (s' : St),
    transact ⟨.io32, .aidl⟩ W 20 1 2 { io := .io32, protocol := .aidl } true {} = .done st s' ∧
    delivered s'.log = lostStream.flatMap encode ∧ commands s'.log ≠ lostStream := by
  refine ⟨scripted .io32 [(64, leBytes 4 (2 ^ 32 - 1))] [lostStream.flatMap encode], -1,
    (match transact ⟨.io32, .aidl⟩ (scripted .io32 [(64, leBytes 4 (2 ^ 32 - 1))]
      [lostStream.flatMap encode]) 20 1 2 { io := .io32, protocol := .aidl } true {} with
      | .done _ s => s | .stop _ s => s), ?_⟩
  decide +kernel

end Gb.C20
