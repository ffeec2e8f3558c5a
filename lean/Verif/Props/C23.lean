import Verif.Lemmas.Buffers
import Verif.Lemmas.Custody
import Verif.Props.C20
/-
C23. Received kernel buffers are returned exactly once.

`track` follows an address through what has been received, closed and returned. `Uses` is about who
has references to the contents of the received buffers. The executions are those of the model in
which those who make the calls have references to the objects they pass.

`custody` (Spec/Custody.lean) follows the buffers which arrive in the calls of the driver, until they are either returned
or get an owner. What the owner does is the subject of the other theorems.
-/
set_option autoImplicit false

namespace Gb.C23
open Buffers

/-- Nothing which has been freed is ever accessed. -/
theorem C23_safe {s : State} (h : Reach step {} s) (l : Label) : step s l ≠ .ub := by
  rcases step_inv (reach_inv h) l with h1 | ⟨s', h1, _⟩ <;> rw [h1] <;> intro e <;> cases e

/-- BC_FREE_BUFFER is sent only for what has been received, and once; descriptors received with it are
closed once, before that. -/
theorem C23_once {s : State} (h : Reach step {} s) (a : Nat) : track a s.log ≠ none := by
  rcases (reach_inv h).addr a with ⟨h1, _⟩ | ⟨_, _, _, _, h1, _⟩ <;> rw [h1] <;> simp

/-- A buffer has been received and not returned as long as somebody uses it, and it's returned as soon
as nobody does. -/
theorem C23_held {s : State} (h : Reach step {} s) (n : Nat) : Held s n ↔ Uses s n := by
  have hi := reach_inv h
  constructor
  · rintro ⟨a, objs, ht⟩
    rcases hi.addr a with ⟨h1, _⟩ | ⟨c, k, h1, h2, h3, _⟩
    · rw [h1] at ht; cases ht
    · rw [h3] at ht
      cases ht
      have hr := hi.refs n
      rw [h1] at hr
      have hp := (hi.pos _ _ h1).1
      simp only [rc, List.count_nil, Nat.add_zero] at hr
      obtain ⟨i, _, hp⟩ := total_pos (f := fun i => cnt (s.obj i) n) (n := s.no) (by omega)
      cases ho : s.obj i with
      | none => rw [ho] at hp; simp only [cnt] at hp; omega
      | some o =>
        rw [ho] at hp
        exact ⟨i, o, ho, List.count_pos_iff.1 hp⟩
  · rintro ⟨i, o, ho, hm⟩
    obtain ⟨k, hk⟩ := hi.con_of ho hm
    rcases hi.addr k.addr with ⟨_, _, h1⟩ | ⟨c, k', _, _, h3, _, h5⟩
    · exact absurd rfl (h1 _ _ hk)
    · have := h5 _ _ hk rfl
      subst this
      exact ⟨_, _, h3⟩

/-- What a request or reply points to hasn't been freed or returned. -/
theorem C23_request {s : State} (h : Reach step {} s) {r refs b : Nat}
    (hr : s.obj r = some (.remote refs (some b))) :
    ∃ n, s.obj b = some (.buffer (some n)) ∧ Held s n := by
  have hi := reach_inv h
  obtain ⟨c, hc⟩ := hi.is_buf (b := b) (by
    have := le_total (f := fun i => Buffers.own (s.obj i) b) (hi.lt _ _ hr)
    simp only [hr, own_remote, Option.toList, List.count_cons_self] at this
    omega)
  exact ⟨c, hc, (C23_held h c).2 ⟨b, _, hc, by simp [Obj.cons]⟩⟩

/-- Nor has what is referred to by a buffer returned by gbinder_reader_read_buffer. -/
theorem C23_reader {s : State} (h : Reach step {} s) {b : Nat} (hb : b ∈ s.app) :
    ∃ n, s.obj b = some (.buffer (some n)) ∧ Held s n := by
  have hi := reach_inv h
  obtain ⟨c, hc⟩ := hi.is_buf (b := b) (by have := List.count_pos_iff.2 hb; omega)
  exact ⟨c, hc, (C23_held h c).2 ⟨b, _, hc, by simp [Obj.cons]⟩⟩

/-- Nothing is left behind: if there are no more requests, replies, buffers and parcels then everything
has been returned. -/
theorem C23_all {s : State} (h : Reach step {} s) (hn : ∀ i, s.obj i = none) (a : Nat) :
    track a s.log = some none := by
  rcases (reach_inv h).addr a with ⟨h1, _⟩ | ⟨c, k, _, _, h1, _⟩
  · exact h1
  · obtain ⟨i, o, ho, _⟩ := (C23_held h c).1 ⟨a, k.objs, h1⟩
    rw [hn i] at ho
    cases ho

/-- A copy is held together with the original: a request is received, a buffer is read from it and it's
copied, then everything but the copy goes away. -/
def forwarded : List Label :=
  [.newList, .transaction 0 (some 4096) true true, .readBuffer 1, .newParcel, .append 4 1,
    .freeList 0, .unrefRemote 1, .freeBuffer 3]

example : (exec step {} forwarded).holds fun s =>
    s.obj 1 == none && s.obj 4 == some (.parcel 1 none [0]) &&
    s.log == [.deliver 0 4096 true] := by decide +kernel

/-- Then the copy goes away too, and the address is used again. -/
example : (exec step {} (forwarded ++ [.unrefParcel 4, .newList, .newRemote,
      .reply 5 (some 6) (some 4096) true false, .reply 5 (some 6) (some 8192) true false, .freeList 5])).holds
    fun s => s.log == [.deliver 0 4096 true, .close 4096, .free 4096, .deliver 1 4096 false,
      .deliver 2 8192 false, .free 4096] := by decide +kernel

/-- What `track` says about these. -/
example : track 4096 [.deliver 0 4096 true] = some (some ⟨0, true, false⟩) ∧
    track 4096 [.deliver 0 4096 true, .close 4096, .free 4096] = some none ∧
    track 4096 [.deliver 0 4096 true, .free 4096] = none ∧
    track 4096 [.deliver 0 4096 false, .free 4096, .free 4096] = none := by decide

/-! ### The driver -/

/-- Whatever happens in a call, each buffer which has arrived with a transaction, or with a reply which is being waited
for, is dealt with before anything else: it gets an owner if there's something in it and it's going to be used, and
otherwise it's returned to the kernel. Nothing else gets an owner or is returned. -/
theorem C23_custody {k : Driver.Cfg} {W : Driver.World} {f : Nat} (x : Driver.Call) :
    Driver.custody k.io { waits := x.waits } (x.run k W f).log ≠ none := by
  have h := Driver.call_holds (k := k) (W := W) (f := f) x
  cases hr : x.run k W f with
  | done a s =>
    rw [hr] at h
    intro e
    have h : Driver.custody _ _ s.log = _ := h
    rw [show (Driver.Run.done a s).log = s.log from rfl, h] at e
    cases e
  | stop w s =>
    rw [hr] at h
    intro e
    have h : (Driver.custody _ _ s.log).isSome = true := h
    rw [show (Driver.Run.stop (α := Unit) w s).log = s.log from rfl] at e
    rw [e] at h
    cases h

/-- When the call returns, nothing is left to be done. -/
theorem C23_custody_done {k : Driver.Cfg} {W : Driver.World} {f : Nat} {x : Driver.Call} {s : Driver.St}
    (hr : x.run k W f = .done () s) :
    Driver.custody k.io { waits := x.waits } s.log = some { waits := [], due := .nothing } := by
  have h := Driver.call_holds (k := k) (W := W) (f := f) x
  rw [hr] at h
  exact h

/-- A call during which a one-way transaction with data, one without data (but with a buffer) and then the reply
arrive. -/
def demo : List (Nat × Bytes) :=
  [(Driver.BR.transactionComplete.code .io32, []),
   (Driver.BR.transaction.code .io32,
     ({ target := 16, code := 1, flags := 1, dataSize := 4, buffer := 64 } : TxHeader).bytes .io32),
   (Driver.BR.transaction.code .io32, ({ target := 16, code := 1, flags := 1, buffer := 72 } : TxHeader).bytes .io32),
   (Driver.BR.reply.code .io32, ({ dataSize := 4, buffer := 80 } : TxHeader).bytes .io32)]

def demoRun (reply : Bool) : Driver.Run Unit :=
  (Driver.Call.transact 1 2 { io := .io32, protocol := .aidl } reply).run ⟨.io32, .aidl⟩
    (C20.scripted .io32 [(64, [0, 0, 0, 0]), (80, [0, 0, 0, 0])] [(demo.flatMap Driver.encode).take 120, (demo.flatMap Driver.encode).drop 120]) 40

/-- What has become of the buffers. -/
def fates (l : List Driver.Ev) : List (Bool × Nat) :=
  l.filterMap fun
    | .own a => some (true, a)
    | .ioctl b none _ => if Driver.freeCommand .io32 72 = b then some (false, 72) else none
    | _ => none

example : (match demoRun true with | .done _ s => fates s.log | _ => []) = [(true, 64), (false, 72), (true, 80)] := by
  decide +kernel

/-- What `custody` says about wrong logs: the buffer gets an owner but it's empty, it's returned although there's
something in it, it's returned twice, another command comes first, nothing is done about it. -/
example :
    let tx := fun n => Driver.Ev.cmd (Driver.BR.transaction.code .io32)
      (({ target := 16, code := 1, flags := 1, dataSize := n, buffer := 64 } : TxHeader).bytes .io32)
    let fr := Driver.Ev.ioctl (Driver.freeCommand .io32 64) none (.ok 8 [])
    Driver.custody .io32 ⟨[], .nothing⟩ [tx 0, .own 64] = none ∧
    Driver.custody .io32 ⟨[], .nothing⟩ [tx 4, fr] = none ∧
    Driver.custody .io32 ⟨[], .nothing⟩ [tx 0, fr, fr] = none ∧
    Driver.custody .io32 ⟨[], .nothing⟩ [tx 4, tx 4] = none ∧
    Driver.custody .io32 ⟨[], .nothing⟩ [tx 4] = some ⟨[], .keep 64⟩ ∧
    Driver.custody .io32 ⟨[], .nothing⟩ [tx 4, .own 64] = some ⟨[], .nothing⟩ := by decide +kernel

end Gb.C23
