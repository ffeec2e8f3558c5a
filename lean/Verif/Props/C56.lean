import Verif.Lemmas.Commands
import Verif.Model.DriverCmds
import Verif.Props.C20
import Verif.Spec.KernelCmds
/-
C56: everything written to the driver is a command known to the kernel, followed by as much data as
the code of the command says. If the kernel consumes a part of BC_TRANSACTION then what's written next
is the rest of it.

gbinder_driver_write takes it for granted that a command is consumed if there's no error (which is
how Linux behaves).
-/
set_option autoImplicit false

namespace Gb.C56
open Driver

/-- What gbinder_driver_read writes, no matter what the kernel returns, and what the handlers do. -/
theorem C56_read {c : Cfg} {W : World} {f : Nat} {w : Bytes} {r : Option Nat} {res : KRes}
    (h : .ioctl w r res ∈ (Driver.read c W f {}).log) :
    (r = none ∧ IsCommand c.io w) ∨ (r ≠ none ∧ w = []) := by
  have h1 := (Ext.refl (io := c.io) {}).read (c := c) (W := W) (f := f)
  have h2 : ∀ s : St, Ext c.io ({} : St).log s → .ioctl w r res ∈ s.log → (Ev.ioctl w r res).Proper c.io := by
    intro s ⟨l, h3, h4⟩ h5
    rw [h3] at h5
    exact h4 _ (by simpa using h5)
  have h3 : (Ev.ioctl w r res).Proper c.io := by
    cases hr : Driver.read c W f {} with
    | done a s => rw [hr] at h h1; exact h2 s h1 h
    | stop a s => rw [hr] at h h1; exact h2 s h1 h
  cases r with
  | none => exact .inl ⟨rfl, h3⟩
  | some r => exact .inr ⟨by simp, h3⟩

/-- BC_TRANSACTION as it's sent by gbinder_driver_transact. -/
abbrev command (c : Cfg) (W : World) (handle code : Nat) (req : Writer) (reply : Bool) : Bytes :=
  (transactionCommand c.io req handle code (!reply) (W.place []).1 (W.place []).2.1).1

theorem sending {c : Cfg} {W : World} {f handle code : Nat} {req : Writer} {reply : Bool} :
    Sending c.io (command c W handle code req reply) (transact c W f handle code req reply {}).log := by
  have := Sending.transact (c := c) (W := W) (f := f) (handle := handle) (code := code) (req := req)
    (reply := reply) (s := {}) rfl
  cases hr : transact c W f handle code req reply {} with
  | done a s => rw [hr] at this; exact this
  | stop a s => rw [hr] at this; exact this

/-- What gbinder_driver_transact writes: commands, and the part of BC_TRANSACTION which hasn't been
consumed yet. -/
theorem C56_transact {c : Cfg} {W : World} {f handle code : Nat} {req : Writer} {reply : Bool}
    {pre post : List Ev} {w : Bytes} {r : Option Nat} {res : KRes}
    (h : (transact c W f handle code req reply {}).log = pre ++ .ioctl w r res :: post) :
    (r = none ∧ IsCommand c.io w) ∨
    (r ≠ none ∧ (w = [] ∨ w = (command c W handle code req reply).drop (taken pre))) := by
  rcases sending _ _ _ h with h1 | ⟨r', res', h1⟩
  · cases r with
    | none => exact .inl ⟨rfl, h1⟩
    | some r => exact .inr ⟨by simp, .inl h1⟩
  · cases h1
    exact .inr ⟨by simp, .inr rfl⟩

/-- It's a command too. -/
theorem C56_transaction (io : Io) (w : Writer) (h c : Nat) (ow : Bool) (b o : Nat) :
    IsCommand io (transactionCommand io w h c ow b o).1 := transaction_command io w h c ow b o

/-- What the kernel has consumed while data was being read. -/
def consumed (l : List Ev) : Bytes :=
  l.flatMap fun
    | .ioctl w (some _) (.ok n _) => w.take n
    | _ => []

theorem consumed_eq {io : Io} {b : Bytes} {l : List Ev} (h : Sending io b l) : consumed l = b.take (taken l) := by
  suffices hs : ∀ n, consumed (l.take n) = b.take (taken (l.take n)) by
    have := hs l.length
    simpa using this
  intro n
  induction n with
  | zero => simp [consumed, taken]
  | succ n ih =>
    rcases Nat.lt_or_ge n l.length with hn | hn
    · have hsplit : l = l.take n ++ l[n] :: l.drop (n + 1) := by
        rw [← List.drop_eq_getElem_cons hn, List.take_append_drop]
      have he := h _ _ _ hsplit
      rw [List.take_succ_eq_append_getElem hn, taken_append]
      have hc : consumed (l.take n ++ [l[n]]) = consumed (l.take n) ++ consumed [l[n]] := by
        unfold consumed
        rw [List.flatMap_append]
      rw [hc, ih]
      rcases he with he | ⟨r, res, he⟩
      · rw [taken_proper (l := [l[n]]) (io := io) (by simpa using he), Nat.add_zero]
        have : consumed [l[n]] = [] := by
          revert he
          generalize l[n] = e
          intro he
          cases e with
          | ioctl w r res =>
            cases r with
            | none => cases res <;> rfl
            | some r =>
              cases res with
              | err e => rfl
              | ok n rd =>
                have hw : w = [] := he
                subst hw
                simp [consumed]
          | _ => rfl
        rw [this, List.append_nil]
      · rw [he]
        cases res with
        | err e => simp [consumed, taken, Ev.taken]
        | ok m rd =>
          simp only [consumed, taken, Ev.taken, List.flatMap_cons, List.flatMap_nil, List.append_nil, List.map_cons,
            List.map_nil, List.sum_cons, List.sum_nil, Nat.add_zero, List.length_drop]
          rw [List.take_add]
          congr 1
          rcases Nat.le_total m (b.length - (List.map Ev.taken (l.take n)).sum) with hm | hm
          · rw [Nat.min_eq_left hm]
          · rw [Nat.min_eq_right hm]
            generalize hx : b.drop (List.map Ev.taken (l.take n)).sum = x
            have hl : b.length - (List.map Ev.taken (l.take n)).sum = x.length := by rw [← hx, List.length_drop]
            rw [hl] at hm ⊢
            rw [List.take_of_length_le hm, List.take_length]
    · have h1 : l.take (n + 1) = l := List.take_of_length_le (by omega)
      have h2 : l.take n = l := List.take_of_length_le hn
      rw [h2] at ih
      rw [h1]
      exact ih

/-- What the kernel consumes is the transaction, each byte of it once and in the right order. -/
theorem C56_once {c : Cfg} {W : World} {f handle code : Nat} {req : Writer} {reply : Bool} :
    consumed (transact c W f handle code req reply {}).log <+: command c W handle code req reply := by
  rw [consumed_eq sending]
  exact List.take_prefix _ _

/-! ### Other commands -/

theorem C56_acquire_done (io : Io) (obj : Nat) : IsCommand io (acquireDoneCommand io obj) :=
  command_intro (by simp [encodePtrCookie, BC.size, Io.ptrCookieSize]; omega)

theorem C56_dead_binder_done (io : Io) (handle : Nat) : IsCommand io (deadBinderDoneCommand io handle) :=
  command_intro (by simp [BC.size])

theorem C56_death_notification (io : Io) (c : BC) (handle : Nat)
    (hc : c = .requestDeathNotification ∨ c = .clearDeathNotification) :
    IsCommand io (handleCookieCommand io c handle) :=
  command_intro (by rcases hc with rfl | rfl <;> simp [encodeHandleCookie, BC.size, Io.handleCookieSize])

theorem C56_refs (io : Io) (c : BC) (handle : Nat)
    (hc : c = .increfs ∨ c = .acquire ∨ c = .release ∨ c = .decrefs) :
    IsCommand io (cmdInt32Command io c handle) :=
  command_intro (by rcases hc with rfl | rfl | rfl | rfl <;> simp [BC.size])

theorem C56_looper (io : Io) (c : BC) (hc : c = .enterLooper ∨ c = .exitLooper) :
    IsCommand io (cmdCommand io c) := by
  have := command_intro (io := io) (c := c) (d := []) (by rcases hc with rfl | rfl <;> rfl)
  simpa [cmdCommand] using this

theorem C56_free_buffer (io : Io) (addr : Nat) : IsCommand io (freeBufferCommand io addr) :=
  command_intro (by simp [BC.size])

/-! ### What the kernel takes them for -/

theorem field0 (n a : Nat) (b : Bytes) (h : a < 256 ^ n) : Kernel.fieldAt (leBytes n a ++ b) 0 n = a := by
  unfold Kernel.fieldAt
  rw [List.drop_zero, List.take_append_of_le_length (by simp), List.take_of_length_le (by simp), leVal_leBytes,
    Nat.mod_eq_of_lt h]

theorem field_skip (k n m : Nat) (a : Nat) (b : Bytes) :
    Kernel.fieldAt (leBytes k a ++ b) (k + n) m = Kernel.fieldAt b n m := by
  unfold Kernel.fieldAt
  rw [List.drop_append, List.drop_of_length_le (by simp)]
  simp

theorem field_last (n a : Nat) (h : a < 256 ^ n) : Kernel.fieldAt (leBytes n a) 0 n = a := by
  have := field0 n a [] h
  simpa using this

open Kernel (parseCmd)

theorem at4 (a m : Nat) (b : Bytes) : Kernel.fieldAt (leBytes 4 a ++ b) 4 m = Kernel.fieldAt b 0 m :=
  field_skip 4 0 m a b

/-- Parsing begins with the command word. -/
theorem parse_eq (io : Io) (c : Nat) (d : Bytes) (hc : c < 2 ^ 32) :
    parseCmd io (leBytes 4 c ++ d) =
      let p := Kernel.word io
      let sized (n : Nat) (x : Kernel.Cmd) := if d.length = n then some x else none
      if c = 0x40046304 then sized 4 (.ref true false (Kernel.fieldAt d 0 4))
      else if c = 0x40046305 then sized 4 (.ref true true (Kernel.fieldAt d 0 4))
      else if c = 0x40046306 then sized 4 (.ref false true (Kernel.fieldAt d 0 4))
      else if c = 0x40046307 then sized 4 (.ref false false (Kernel.fieldAt d 0 4))
      else if c = 0x630b then sized 0 .registerLooper
      else if c = 0x630c then sized 0 .enterLooper
      else if c = 0x630d then sized 0 .exitLooper
      else match io with
        | .io32 =>
          if c = 0x40046303 then sized 4 (.freeBuffer (Kernel.fieldAt d 0 p))
          else if c = 0x40086308 then sized 8 (.refDone false (Kernel.fieldAt d 0 p) (Kernel.fieldAt d p p))
          else if c = 0x40086309 then sized 8 (.refDone true (Kernel.fieldAt d 0 p) (Kernel.fieldAt d p p))
          else if c = 0x4008630e then sized 8 (.death true (Kernel.fieldAt d 0 4) (Kernel.fieldAt d 4 p))
          else if c = 0x4008630f then sized 8 (.death false (Kernel.fieldAt d 0 4) (Kernel.fieldAt d 4 p))
          else if c = 0x40046310 then sized 4 (.deathDone (Kernel.fieldAt d 0 p))
          else none
        | .io64 =>
          if c = 0x40086303 then sized 8 (.freeBuffer (Kernel.fieldAt d 0 p))
          else if c = 0x40106308 then sized 16 (.refDone false (Kernel.fieldAt d 0 p) (Kernel.fieldAt d p p))
          else if c = 0x40106309 then sized 16 (.refDone true (Kernel.fieldAt d 0 p) (Kernel.fieldAt d p p))
          else if c = 0x400c630e then sized 12 (.death true (Kernel.fieldAt d 0 4) (Kernel.fieldAt d 4 p))
          else if c = 0x400c630f then sized 12 (.death false (Kernel.fieldAt d 0 4) (Kernel.fieldAt d 4 p))
          else if c = 0x40086310 then sized 8 (.deathDone (Kernel.fieldAt d 0 p))
          else none := by
  have h8 : ∀ m, Kernel.fieldAt (leBytes 4 c ++ d) 8 m = Kernel.fieldAt d 4 m := fun m => field_skip 4 4 m c d
  have hl : ∀ n, (leBytes 4 c ++ d).length = 4 + n ↔ d.length = n := by
    intro n; simp
  unfold parseCmd
  simp only [field0 4 c d hc, at4, h8, field_skip, hl]
  cases io <;> rfl

theorem words (io : Io) :
    BC.increfs.code io = 0x40046304 ∧ BC.acquire.code io = 0x40046305 ∧ BC.release.code io = 0x40046306 ∧
    BC.decrefs.code io = 0x40046307 ∧ BC.enterLooper.code io = 0x630c ∧ BC.exitLooper.code io = 0x630d ∧
    BC.registerLooper.code io = 0x630b := by
  cases io <;> decide

/-- The functions which change the number of references to a remote object. -/
theorem C56_refs_kernel (io : Io) (h : Nat) (hh : h < 2 ^ 32) :
    parseCmd io (increfsCommand io h) = some (.ref true false h) ∧
    parseCmd io (acquireCommand io h) = some (.ref true true h) ∧
    parseCmd io (releaseCommand io h) = some (.ref false true h) ∧
    parseCmd io (decrefsCommand io h) = some (.ref false false h) := by
  obtain ⟨w1, w2, w3, w4, _⟩ := words io
  unfold increfsCommand acquireCommand releaseCommand decrefsCommand cmdInt32Command
  rw [w1, w2, w3, w4, parse_eq _ _ _ (by decide), parse_eq _ _ _ (by decide), parse_eq _ _ _ (by decide),
    parse_eq _ _ _ (by decide)]
  simp [field_last 4 h hh]

/-- The functions which ask for death notifications. The kernel sends the cookie (which is the handle) with
BR_DEAD_BINDER, and looks for it when the notification is acknowledged. -/
theorem C56_death_kernel (io : Io) (h : Nat) (hh : h < 2 ^ 32) :
    parseCmd io (requestDeathCommand io h) = some (.death true h h) ∧
    parseCmd io (clearDeathCommand io h) = some (.death false h h) ∧
    parseCmd io (deadBinderDoneCommand io h) = some (.deathDone h) := by
  unfold requestDeathCommand clearDeathCommand deadBinderDoneCommand handleCookieCommand encodeHandleCookie
  cases io with
  | io32 =>
    rw [show BC.requestDeathNotification.code .io32 = 0x4008630e by decide,
      show BC.clearDeathNotification.code .io32 = 0x4008630f by decide,
      show BC.deadBinderDone.code .io32 = 0x40046310 by decide,
      parse_eq _ _ _ (by decide), parse_eq _ _ _ (by decide), parse_eq _ _ _ (by decide)]
    simp [Io.ptrSize, Kernel.word, field0 4 h _ hh, field_last 4 h hh, at4]
  | io64 =>
    have hh' : h < 256 ^ 8 := by omega
    rw [show BC.requestDeathNotification.code .io64 = 0x400c630e by decide,
      show BC.clearDeathNotification.code .io64 = 0x400c630f by decide,
      show BC.deadBinderDone.code .io64 = 0x40086310 by decide,
      parse_eq _ _ _ (by decide), parse_eq _ _ _ (by decide), parse_eq _ _ _ (by decide)]
    simp [Io.ptrSize, Kernel.word, field0 4 h _ hh, field_last 8 h hh', at4]

/-- BC_ACQUIRE_DONE, the cookies of local objects being zero (`C19_announced`); BC_FREE_BUFFER. -/
theorem C56_pointers_kernel (io : Io) (a : Nat) (ha : a < 256 ^ Kernel.word io) :
    parseCmd io (acquireDoneCommand io a) = some (.refDone true a 0) ∧
    parseCmd io (freeBufferCommand io a) = some (.freeBuffer a) := by
  unfold acquireDoneCommand freeBufferCommand encodePtrCookie
  cases io with
  | io32 =>
    rw [show BC.acquireDone.code .io32 = 0x40086309 by decide, show BC.freeBuffer.code .io32 = 0x40046303 by decide,
      parse_eq _ _ _ (by decide), parse_eq _ _ _ (by decide)]
    simp [Io.ptrSize, Kernel.word, field0 4 a _ ha, field_last 4 a ha, at4, field_last 4 0 (by decide)]
  | io64 =>
    rw [show BC.acquireDone.code .io64 = 0x40106309 by decide, show BC.freeBuffer.code .io64 = 0x40086303 by decide,
      parse_eq _ _ _ (by decide), parse_eq _ _ _ (by decide)]
    have h8 := field_skip 8 0 8 a (leBytes 8 0)
    simp [Io.ptrSize, Kernel.word, field0 8 a _ ha, field_last 8 a ha, field_last 8 0 (by decide)] at h8 ⊢
    exact h8

/-- What's written when BR_INCREFS or BR_ACQUIRE is received (`C24_increfs`, `C24_acquire`): the pointer and the cookie
which came with it. -/
theorem C56_acks_kernel (io : Io) (a k : Nat) (ha : a < 256 ^ Kernel.word io) (hk : k < 256 ^ Kernel.word io) :
    parseCmd io (encode (BC.increfsDone.code io, leBytes io.ptrSize a ++ leBytes io.ptrSize k)) =
      some (.refDone false a k) ∧
    parseCmd io (encode (BC.acquireDone.code io, leBytes io.ptrSize a ++ leBytes io.ptrSize k)) =
      some (.refDone true a k) := by
  unfold encode
  cases io with
  | io32 =>
    simp only [show BC.increfsDone.code .io32 = 0x40086308 by decide, show BC.acquireDone.code .io32 = 0x40086309 by decide]
    rw [parse_eq _ _ _ (by decide), parse_eq _ _ _ (by decide)]
    simp [Io.ptrSize, Kernel.word, field0 4 a _ ha, field_last 4 k hk, at4]
  | io64 =>
    simp only [show BC.increfsDone.code .io64 = 0x40106308 by decide, show BC.acquireDone.code .io64 = 0x40106309 by decide]
    rw [parse_eq _ _ _ (by decide), parse_eq _ _ _ (by decide)]
    have h8 := field_skip 8 0 8 a (leBytes 8 k)
    rw [field_last 8 k hk] at h8
    simp [Io.ptrSize, Kernel.word, field0 8 a _ ha] at h8 ⊢
    exact h8

/-- Loopers. -/
theorem C56_looper_kernel (io : Io) :
    parseCmd io (enterLooperCommand io) = some .enterLooper ∧ parseCmd io (exitLooperCommand io) = some .exitLooper := by
  cases io <;> decide +kernel

/-- The words which the code looks for are those the kernel writes. -/
theorem C56_words (io : Io) (b : BR) : b.code io = Kernel.brCode io b := by
  cases io <;> cases b <;> decide +kernel

/-- Any address and any handle will do. -/
example : parseCmd .io64 (acquireDoneCommand .io64 0x7fff12345678) = some (.refDone true 0x7fff12345678 0) ∧
    parseCmd .io32 (requestDeathCommand .io32 0xfffffffe) = some (.death true 0xfffffffe 0xfffffffe) ∧
    parseCmd .io64 (increfsCommand .io64 0) = some (.ref true false 0) := by decide +kernel

/-! ### Examples -/

/-- A kernel which consumes ten bytes at a time. -/
def slow : World :=
  { C20.scripted .io32 [] [] with
    kernel := fun l _ room =>
      match room with
      | none => some (.ok 0 [])
      | some _ =>
        if l.length < 6 then some (.ok 10 [])
        else some (.ok 10 (encode (BR.transactionComplete.code .io32, []) ++
          encode (BR.increfs.code .io32, leBytes 4 16 ++ leBytes 4 0))) }

/-- The command has 44 bytes, and it has been consumed as a whole. -/
example : (match transact ⟨.io32, .aidl⟩ slow 40 1 2 { io := .io32, protocol := .aidl } false {} with
    | .done st s => st == 0 && taken s.log == 44 && consumed s.log ==
        command ⟨.io32, .aidl⟩ slow 1 2 { io := .io32, protocol := .aidl } false &&
        (s.log.countP fun | .ioctl _ none _ => true | _ => false) == 1
    | _ => false) = true := by decide +kernel

/-- BR_INCREFS is handled by gbinder_driver_read. -/
example : (Driver.read ⟨.io32, .aidl⟩ (C20.scripted .io32 [] [encode (BR.increfs.code .io32,
    leBytes 4 16 ++ leBytes 4 0)]) 40 {}).log.any (fun | .ioctl w none _ => decide (w ≠ []) | _ => false) = true := by
  decide +kernel

end Gb.C56
