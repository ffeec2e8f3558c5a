import Verif.Model.Fds
import Verif.Spec.Installed
import Verif.Props.C19
import Verif.Props.C23
import Verif.Props.C47
/-
C49. Descriptors are closed exactly once.

Those in a parcel which is being built: `Parcels.owner` (see C47). Those which have been received with a
buffer: gbinder_driver_close_fds is called once for each buffer (C23) and closes exactly those which
the kernel has installed.
-/
set_option autoImplicit false

namespace Gb.C49
open Kernel Writer

/-- The object pushed by gbinder_writer_append_fd. -/
theorem stored {e : Env} {io : Io} {p : Protocol} {m : Mem} {pre post : List WOp} {w0 w1 w' : Writer} {n : Nat}
    {dup : Option Nat} (h : C19.Built e io p m pre (.fd n dup) post w0 w1 w') :
    ∃ objs, getObjects io w'.bytes 0 w'.offsets = some objs ∧
      objs[w0.offsets.length]? = some (.fd (dup.getD n % 2 ^ 32)) ∧
      w'.offsets[w0.offsets.length]? = some w0.bytes.length := by
  have hc := h.call
  simp only [WOp.run, appendFd_eq] at hc
  obtain ⟨hio, s, hs⟩ := runAll_built (al := false) h.before
    (C19.isAppend_of fun off v hc => h.append off v (List.mem_append_left _ hc)) (by simp)
  obtain ⟨rest, g2⟩ := runAll_grows (al := false) h.after
    (C19.isAppend_of fun off v hc => h.append off v (List.mem_append_right _ hc)) (by simp)
  cases hc
  have g1 := Grows.push false w0 (.fd (dup.getD n))
  have g3 : Grows false w0 w' ([.fd (dup.getD n)] ++ ([] ++ rest)) :=
    by
      refine g1.trans (Grows.trans ?_ g2)
      exact Grows.of_same rfl rfl rfl rfl rfl
  have hb := g3.built s (by rw [hio]; exact hs)
  rw [hio] at hb
  have hsl := hs.length_eq
  obtain ⟨o, ho⟩ := g2.offs
  refine ⟨_, hb.placed.getObjects 0 (Nat.le_refl _), ?_, ?_⟩
  · rw [List.map_append, List.getElem?_append_right (by simp [hsl])]
    simp [hsl, Obj.kernel]
  · rw [ho]
    simp [Writer.push]

/-- What the kernel is told about is the duplicate. -/
theorem C49_stored {e : Env} {io : Io} {p : Protocol} {m : Mem} {pre post : List WOp} {w0 w1 w' : Writer} {n d : Nat}
    (hd : d < 2 ^ 32) (h : C19.Built e io p m pre (.fd n (some d)) post w0 w1 w') :
    ∃ objs, getObjects io w'.bytes 0 w'.offsets = some objs ∧ objs[w0.offsets.length]? = some (.fd d) ∧
      w'.offsets[w0.offsets.length]? = some w0.bytes.length := by
  have := stored h
  rwa [show (some d).getD n % 2 ^ 32 = d from Nat.mod_eq_of_lt hd] at this

/-- If the descriptor can't be duplicated then it's passed on as it is, and isn't closed: nothing is
registered. -/
theorem C49_original {e : Env} {io : Io} {p : Protocol} {m : Mem} {pre post : List WOp} {w0 w1 w' : Writer} {n : Nat}
    (hn : n < 2 ^ 32) (h : C19.Built e io p m pre (.fd n none) post w0 w1 w') :
    w1.cleanup = w0.cleanup ∧
    ∃ objs, getObjects io w'.bytes 0 w'.offsets = some objs ∧ objs[w0.offsets.length]? = some (.fd n) ∧
      w'.offsets[w0.offsets.length]? = some w0.bytes.length := by
  have h1 := stored h
  rw [show (none : Option Nat).getD n % 2 ^ 32 = n from Nat.mod_eq_of_lt hn] at h1
  refine ⟨?_, h1⟩
  have hc := h.call
  simp only [WOp.run, appendFd_eq] at hc
  cases hc
  simp [Writer.push]

section
open Parcels

/-- The duplicate belongs to the parcel. It's a different descriptor than the one which has been passed in
(nor any other one which is open). -/
theorem C49_kept {e : Env} (ha : Allocates e) {s s' : State} (h : ReachIf (step e) (Ok e) {} s) {p n d : Nat}
    (hok : Ok e s (.op p (.fd n (some d)))) (hs : step e s (.op p (.fd n (some d))) = .ok s') :
    owner .fd d s'.log = some (.of p false) ∧ d ∉ s.fds ∧ d ∈ s'.fds := by
  have hi := reach_inv ha h
  have hok0 := hok
  obtain ⟨x, hp, hr, w, hrun⟩ := hok
  have hd : d ∉ s.fds := by
    intro hd
    simp only [step, hp] at hs
    rw [if_neg (by omega)] at hs
    rw [if_pos (by simpa [WOp.dup] using hd)] at hs
    cases hs
  have h1 := step_op (e := e) hp hr (o := .fd n (some d)) (by simp) (by simpa [WOp.dup] using hd) hrun
  rw [hs] at h1
  cases h1
  refine ⟨?_, hd, by simp [State.see, State.set, WOp.dup]⟩
  have h' : ReachIf (step e) (Ok e) {} _ := .step _ h hok0 hs
  obtain ⟨o, h2, h3⟩ := (reach_inv ha h').own .fd d fun h => (by cases h)
  rw [h2]
  -- it's one of the items
  simp only [WOp.run, appendFd_eq] at hrun
  cases hrun
  obtain ⟨g1, g2, g3⟩ := grow_lists (hi.wf p x hp) hr (items := [.closeFd d])
    (w := { ({ x.w with mem := s.mem } : Writer).push (.fd d) with
      mem := [], cleanup := x.w.cleanup ++ [.closeFd d] }) rfl
  have h4 := h3.later p _ (upd_same _ _ _)
  have h5 : ∀ (y : Parcel), y.later = x.later ++ [.closeFd d] → 0 < (these (item .fd) y.later).count d := by
    intro y hy
    rw [hy, these_append, List.count_append]
    have : these (item .fd) [CleanupItem.closeFd d] = [d] := rfl
    rw [this]
    simp
  have h6 := h5 _ g2
  by_cases ho : o = .of p false
  · rw [ho]
  · rw [if_neg ho] at h4
    have h7 : 0 < 0 := Nat.lt_of_lt_of_le h6 (Nat.le_of_eq h4)
    omega

/-- It's closed once, by the parcel, when the parcel is freed or the contents are replaced. -/
theorem C49_once {e : Env} (ha : Allocates e) {s : State} (h : ReachIf (step e) (Ok e) {} s) (d : Nat) :
    owner .fd d s.log ≠ none := C47.C47_owner ha h .fd d

/-- Until then it's open. -/
theorem C49_open {e : Env} (ha : Allocates e) {s : State} (h : ReachIf (step e) (Ok e) {} s) {p d : Nat} {b : Bool}
    (ho : owner .fd d s.log = some (.of p b)) : d ∈ s.fds :=
  ((C47.C47_valid ha h d).2).2 (by rw [ho]; simp)

/-- No descriptors are left open by parcels which have been freed. -/
theorem C49_left {e : Env} (ha : Allocates e) {s : State} (h : ReachIf (step e) (Ok e) {} s)
    (hn : ∀ p, s.parcel p = none) {d : Nat} (hd : d ∈ s.fds) : owner .fd d s.log = some .app := by
  have h1 := ((C47.C47_valid ha h d).2).1 hd
  cases h2 : owner .fd d s.log with
  | none => exact absurd h2 (C49_once ha h d)
  | some o =>
    cases o with
    | nobody => exact absurd h2 h1
    | app => rfl
    | of p b => exact absurd (hn p) (C47.C47_left ha h h2)

end

/-! ### Received descriptors -/

theorem getObject_fits {io : Io} {b : Bytes} {o : Nat} {x : KObj} {n : Nat} (h : getObject io b o = some (x, n)) :
    o < b.length ∧ (∀ k, x = .fd k → o + io.flatSize ≤ b.length) := by
  unfold getObject at h
  simp only [] at h
  have hf : io.flatSize = 8 + 2 * word io := by cases io <;> rfl
  rw [hf]
  split at h
  · cases h
  · rename_i h4
    refine ⟨by omega, ?_⟩
    intro k hk
    subst hk
    repeat' split at h
    all_goals first
      | (cases h; done)
      | (simp only [Option.some.injEq, Prod.mk.injEq, reduceCtorEq, false_and] at h; done)
      | assumption

theorem u32At_field {b : Bytes} {o : Nat} (h : o + 4 ≤ b.length) : u32At b o = some (fieldAt b o 4) := by
  unfold u32At
  rw [slice_of_le h]
  rfl

theorem closes {io : Io} {b b' : Bytes} (fd : Nat → Nat) (hsz : b'.length = b.length) :
    ∀ (offs : List Nat) (objs : List KObj) (lo i : Nat), getObjects io b lo offs = some objs →
      (∀ (j : Nat) o n, offs[j]? = some o → objs[j]? = some (.fd n) →
        fieldAt b' o 4 = tFd ∧ fieldAt b' (o + 8) 4 = fd (i + j)) →
      (∀ (j : Nat) o x, offs[j]? = some o → objs[j]? = some x → (∀ n, x ≠ .fd n) → fieldAt b' o 4 ≠ tFd) →
      closeFds io b' offs = .ok (installed fd i objs) := by
  intro offs
  have hf16 : 16 ≤ io.flatSize := by cases io <;> decide
  have ht : (typeFd : Nat) = tFd := by decide
  induction offs with
  | nil => intro objs lo i h _ _; cases h; rfl
  | cons o offs ih =>
    intro objs lo i h h1 h2
    simp only [getObjects] at h
    cases hg : getObject io b o with
    | none => rw [hg] at h; cases h
    | some xs =>
      obtain ⟨x, sz⟩ := xs
      simp only [hg] at h
      split at h
      · obtain ⟨rest, hr, hobj⟩ := Option.map_eq_some_iff.1 h
        subst hobj
        obtain ⟨hlt, hfit⟩ := getObject_fits hg
        have hrec := ih rest _ (i + 1) hr
          (fun j o n hj hn => by
            have := h1 (j + 1) o n (by simpa using hj) (by simpa using hn)
            rw [show i + 1 + j = i + (j + 1) by omega]; exact this)
          (fun j o x hj hx => h2 (j + 1) o x (by simpa using hj) (by simpa using hx))
        simp only [closeFds]
        rw [if_pos (by omega)]
        have hd : decodeFdObject io b' o (b'.length - o) =
            .ok (match x with | .fd _ => some (fd i) | _ => none) := by
          by_cases hx : ∃ n, x = .fd n
          · obtain ⟨n, rfl⟩ := hx
            have h3 := hfit n rfl
            obtain ⟨h4, h5⟩ := h1 0 o n rfl rfl
            unfold decodeFdObject
            rw [if_pos (by omega), u32At_field (by omega)]
            simp only []
            rw [h4, if_pos ht.symm, u32At_field (by omega), h5]
            rfl
          · have h3 := h2 0 o x rfl rfl fun n hn => hx ⟨n, hn⟩
            have h4 : decodeFdObject io b' o (b'.length - o) = .ok none := by
              unfold decodeFdObject
              split
              · rw [u32At_field (by omega)]
                simp only []
                rw [if_neg (by rw [ht]; exact h3)]
              · rfl
            rw [h4]
            cases x <;> first | rfl | exact absurd ⟨_, rfl⟩ hx
        rw [hd]
        simp only [bind, Except.bind, hrec]
        cases x <;> rfl
      · cases h

/-- When a received buffer is released (once, see C23), exactly those descriptors are closed which the kernel
has installed for it. -/
theorem C49_closes {io : Io} {b b' : Bytes} {offs : List Nat} {objs : List KObj} {fd : Nat → Nat}
    (h : Installed io b offs objs fd b') : closeFds io b' offs = .ok (installed fd 0 objs) :=
  closes fd h.size offs objs 0 0 h.found
    (fun j o n h1 h2 => by rw [Nat.zero_add]; exact h.files j o n h1 h2) h.others

/-- Whatever the offsets are, nothing outside of the buffer is looked at, and only descriptors from complete objects
which are listed and say that they are descriptors are closed, in the order of the objects. -/
theorem C49_listed (io : Io) (b : Bytes) (offs : List Nat) :
    closeFds io b offs = .ok ((offs.filter fun o => decide (o + io.flatSize ≤ b.length ∧ fieldAt b o 4 = tFd)).map
      fun o => fieldAt b (o + 8) 4) := by
  have hf : 16 ≤ io.flatSize := by cases io <;> decide
  have ht : (typeFd : Nat) = tFd := by decide
  induction offs with
  | nil => rfl
  | cons o offs ih =>
    simp only [closeFds]
    by_cases h1 : o < b.length
    · rw [if_pos h1]
      unfold decodeFdObject
      by_cases h2 : o + io.flatSize ≤ b.length
      · rw [if_pos (by omega), u32At_field (by omega), u32At_field (by omega)]
        by_cases h3 : fieldAt b o 4 = tFd
        · simp [bind, Except.bind, ih, h2, h3, ht]
        · simp [bind, Except.bind, ih, h3, ht]
      · rw [if_neg (by omega)]
        simp [bind, Except.bind, ih, h2]
    · rw [if_neg h1]
      have h2 : ¬o + io.flatSize ≤ b.length := by omega
      simp [bind, Except.bind, ih, h2]

/-- gbinder_driver_close_fds is called for each buffer with objects once, before it's returned to the
kernel, not before everyone has stopped using it. -/
theorem C49_received {s : Buffers.State} (h : Reach Buffers.step {} s) (n : Nat) :
    (∀ a, Buffers.track a s.log ≠ none) ∧ (Buffers.Held s n ↔ Buffers.Uses s n) :=
  ⟨C23.C23_once h, C23.C23_held h n⟩

/-- gbinder_reader_read_fd returns the descriptor which the kernel has installed for the object. -/
theorem C49_read {io : Io} {p : Protocol} {b b' : Bytes} {offs : List Nat} {objs : List KObj} {fd : Nat → Nat}
    (h : Installed io b offs objs fd b') {i o n : Nat} (ho : offs[i]? = some o) (hx : objs[i]? = some (.fd n))
    (hl : o + io.flatSize ≤ b'.length) :
    (Reader.since io p b' offs o i).readFd = .ok (fd i) (Reader.since io p b' offs (o + io.flatSize) (i + 1)) := by
  obtain ⟨h1, h2⟩ := h.files i o n ho hx
  have hdr : offs.drop i = o :: offs.drop (i + 1) := by
    obtain ⟨hn, rfl⟩ := List.getElem?_eq_some_iff.mp ho
    exact List.drop_eq_getElem_cons hn
  have hf : 16 ≤ io.flatSize := by cases io <;> decide
  have d1 : slice b' o 4 = some ((b'.drop o).take 4) := slice_of_le (by omega)
  have d2 : slice b' (o + 8) 4 = some ((b'.drop (o + 8)).take 4) := slice_of_le (by omega)
  have h1' : leVal ((b'.drop o).take 4) = typeFd := h1.trans (by decide)
  have h2' : leVal ((b'.drop (o + 8)).take 4) = fd i := h2
  unfold Reader.readFd
  rw [if_pos (by simp only [Reader.canReadObject, Reader.since, Reader.init, hdr]; simp)]
  rw [if_pos (by
    simp only [Reader.since, Reader.init, Reader.bytesRemaining, Reader.remaining]
    change io.flatSize ≤ (if o ≤ 0 + b'.length then 0 + b'.length - o else _)
    rw [if_pos (by omega)]
    omega)]
  simp only [Reader.since, Reader.init, Reader.deref]
  rw [d1]
  simp only [h1', if_true]
  rw [d2]
  simp only [h2', Reader.eatObject, hdr, List.tail_cons]

/-! ### Examples -/

/-- A parcel with a number, a descriptor, a reference to an object and another descriptor; as written and as received. -/
def demo (ty d1 d2 : Nat) : Bytes :=
  leBytes 4 7 ++ (leBytes 4 typeFd ++ leBytes 4 0x17f ++ leBytes 8 d1 ++ leBytes 8 0) ++
    (leBytes 4 ty ++ leBytes 4 0x17f ++ leBytes 8 0x1000 ++ leBytes 8 0) ++
    (leBytes 4 typeFd ++ leBytes 4 0x17f ++ leBytes 8 d2 ++ leBytes 8 0)

example : ∃ w0 w1 w', C19.Built Demo.env .io64 .aidl [] [.int32 7, .fd 3 (some 4), .localObject (some ⟨0x1000, 0⟩)]
      (.fd 3 (some 5)) [] w0 w1 w' ∧ w'.bytes = demo tBinder 4 5 ∧ w'.offsets = [4, 28, 52] ∧
      w'.cleanup = [.closeFd 4, .closeFd 5] :=
  ⟨_, _, _, ⟨rfl, rfl, rfl, by simp⟩, by decide +kernel, by decide +kernel, by decide +kernel⟩

theorem demo_installed : Installed .io64 (demo tBinder 4 5) [4, 28, 52] [.fd 4, .binder 0x1000 0, .fd 5]
    (fun i => 10 + i) (demo tHandle 10 12) := by
  have h1 : fieldAt (demo tHandle 10 12) 4 4 = tFd ∧ fieldAt (demo tHandle 10 12) (4 + 8) 4 = 10 := by decide +kernel
  have h2 : fieldAt (demo tHandle 10 12) 52 4 = tFd ∧ fieldAt (demo tHandle 10 12) (52 + 8) 4 = 12 := by
    decide +kernel
  have h3 : fieldAt (demo tHandle 10 12) 28 4 ≠ tFd := by decide +kernel
  refine ⟨by decide +kernel, by decide +kernel, ?_, ?_⟩
  · intro i o n ho hx
    match i, ho, hx with
    | 0, ho, hx => simp only [List.getElem?_cons_zero, Option.some.injEq] at ho; subst ho; exact h1
    | 1, ho, hx => simp at hx
    | 2, ho, hx => simp at ho; subst ho; exact h2
    | i + 3, ho, hx => simp at hx
  · intro i o x ho hx hn
    match i, ho, hx with
    | 0, ho, hx => simp at hx; exact absurd hx.symm (hn _)
    | 1, ho, hx => simp at ho; subst ho; exact h3
    | 2, ho, hx => simp at hx; exact absurd hx.symm (hn _)
    | i + 3, ho, hx => simp at hx

example : closeFds .io64 (demo tHandle 10 12) [4, 28, 52] = .ok [10, 12] :=
  C49_closes demo_installed

/-- One of the offsets isn't that of a descriptor, another one is outside of the buffer, and there's no place for an object
at the last one. -/
example : closeFds .io64 (demo tHandle 10 12) [4, 28, 1000, 52, 60] = .ok [10, 12] :=
  (C49_listed _ _ _).trans (by decide +kernel)

example : (Reader.since .io64 .aidl (demo tHandle 10 12) [4, 28, 52] 52 2).readFd =
    .ok 12 (Reader.since .io64 .aidl (demo tHandle 10 12) [4, 28, 52] 76 3) :=
  C49_read demo_installed rfl rfl (by decide +kernel)

/-- In the story of C47 the descriptor is duplicated, the original is closed and opened again by somebody
else while the duplicate is still open. -/
example : ∃ s, ReachIf (Parcels.step C47.env) (Parcels.Ok C47.env) {} s ∧
    Parcels.Ok C47.env s (.op 0 (.fd 3 (some 4))) ∧
    (Parcels.step C47.env s (.op 0 (.fd 3 (some 4)))).holds fun s' => s'.fds == [4, 3] := by
  obtain ⟨s, hs⟩ : ∃ s, C47.runIf C47.env {} (C47.story.take 6) = some s := ⟨_, rfl⟩
  refine ⟨s, C47.runIf_reach .init hs, ?_⟩
  cases hs
  exact ⟨C47.okB_sound (by decide +kernel), by decide +kernel⟩

end Gb.C49
