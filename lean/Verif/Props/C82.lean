import Verif.Lemmas.FmqDesc
import Verif.Lemmas.TransferCheck
import Verif.Props.C37
/-
C82: the description of a message queue appended with gbinder_writer_append_fmq_descriptor arrives at Android.
-/
set_option autoImplicit false

namespace Gb.C82
open Writer Reader Kernel Android Fmq

/-- Where the counters (8 bytes each), the messages and the event flag (4 bytes) are: all of them one after the other
(at multiples of eight) in the file number 0, or the messages in the file number 1 if the caller has supplied it. -/
def layout (size : Nat) (user ev : Bool) : List Grant :=
  [⟨0, 0, 0, 8⟩, ⟨0, 0, 8, 8⟩, if user then ⟨0, 1, 0, size⟩ else ⟨0, 0, 16, size⟩] ++
    if ev then [⟨0, 0, if user then 16 else 16 + (size + 7) / 8 * 8, 4⟩] else []

theorem layout_grantors {size : Nat} {user ev : Bool} (h : size + 24 ≤ 2 ^ 32) :
    (grantors size (!user) ev).map grant = layout size user ev := by
  cases user <;> cases ev <;>
    simp [grantors, grantorsFrom, layout, grant, alignUp8] <;> omega

theorem grantors_fit {size : Nat} {own ev : Bool} (h : size < 2 ^ 64) :
    ∀ g ∈ grantors size own ev, g.fdIndex < 2 ^ 32 ∧ g.offset < 2 ^ 32 ∧ g.extent < 2 ^ 64 := by
  cases own <;> cases ev <;>
    simp [grantors, grantorsFrom] <;> omega

/-- Android reads the description of a queue created with gbinder_fmq_new: how many bytes there are in a message
and in all of them, whether it's synchronized, where everything is, and the very same files. What comes next in the
parcel is what has been appended next. -/
theorem C82_sent {e : Env} {io : Io} {p : Protocol} {m : Mem} {pre post : List WOp} {a : Nat}
    {w0 w1 w' : Writer} {addr : Nat → Nat} {dst : Mem} {b' : Bytes} {Same : Nat → Nat → Prop}
    {itemSize numItems shmem : Nat} {sync ev : Bool} {user : Option (Nat × Nat)} {c : Cfg}
    (hc : config itemSize numItems sync (user.map (·.2)) = some c) (hfit : c.size + 24 ≤ 2 ^ 32)
    (hs : shmem < 2 ^ 32) (hu : ∀ u ∈ user, u.1 < 2 ^ 32)
    (h : Sent e io p m pre (.fmqDescriptor a) post w0 w1 w' addr dst b')
    (hd : (describe c (if sync then 1 else 2) shmem (user.map (·.1)) ev).At w0.mem a)
    (hF : ∀ objs, accepts io w'.bytes w'.offsets = some objs → FdArrays io w'.mem w'.offsets objs addr dst b' Same) :
    ∃ fds, Parcel.readQueue ⟨io, b', w'.offsets, dst⟩ w0.bytes.length =
        some (⟨layout (numItems * itemSize) user.isSome ev, fds, itemSize, if sync then 1 else 2⟩, w1.bytes.length) ∧
      ∃ s, Same shmem s ∧ match user with
        | none => fds = [s]
        | some u => ∃ t, fds = [s, t] ∧ Same u.1 t := by
  obtain ⟨hsz, -, -⟩ := C37.C37_size hc
  have hit : c.item = itemSize := by
    unfold config at hc
    repeat' split at hc
    all_goals cases hc
    rename_i h1 h2 h3 h4
    simp only at hsz hfit ⊢
    have : itemSize ≤ numItems * itemSize := Nat.le_mul_of_pos_left _ (by omega)
    omega
  have hlt : itemSize < 2 ^ 32 := by
    unfold config at hc
    repeat' split at hc
    all_goals cases hc
    simp only at hit
    omega
  obtain ⟨fds, h1, h2, h3⟩ := queue_of h hd (by simp [describe, grantors, grantorsFrom])
    (by cases user <;> cases ev <;> simp [describe, grantors, grantorsFrom])
    (by cases user <;> simp [describe]) (grantors_fit (by omega))
    (by simp only [describe]; omega) (by simp only [describe]; split <;> omega)
    (by
      intro x hx
      cases user with
      | none => simp [describe] at hx; omega
      | some u =>
        have := hu u rfl
        simp [describe] at hx
        rcases hx with rfl | rfl <;> omega) hF
  refine ⟨fds, ?_, ?_⟩
  · rw [h1]
    simp only [describe, hit, Option.isNone_map]
    rw [show user.isNone = !user.isSome by cases user <;> rfl, layout_grantors hfit, hsz]
  · cases user with
    | none =>
      match fds, h2 with
      | [s], _ =>
        obtain ⟨x, hx, hxs⟩ := h3 0 s rfl
        cases hx
        exact ⟨s, hxs, rfl⟩
    | some u =>
      match fds, h2 with
      | [s, t], _ =>
        obtain ⟨x, hx, hxs⟩ := h3 0 s rfl
        cases hx
        obtain ⟨y, hy, hyt⟩ := h3 1 t rfl
        cases hy
        exact ⟨s, hxs, t, rfl, hyt⟩

/-! ### An example -/

/-- File descriptors aren't translated by the kernel of the examples. -/
def checkFds (w : Writer) : Bool :=
  let objs := demoObjs w
  let b' := demoData w.io w.bytes w.offsets objs
  let dst := demoDst w.io w.mem objs
  (List.range objs.length).all fun i => match objs[i]? with
    | some (.fda n par off) =>
      (match w.offsets[i]? with
       | some o => getObject w.io b' o == some (.fda n par off, 8 + 3 * word w.io)
       | none => true) &&
      (match objs[par]? with
       | some (.buffer a _ _) => (List.range n).all fun k =>
         w.mem.load (a + off + 4 * k) 4 == dst.load (demoAddr par + off + 4 * k) 4
       | _ => true)
    | _ => true

theorem checkFds_sound {w : Writer} (h : checkFds w = true) :
    FdArrays w.io w.mem w.offsets (demoObjs w) demoAddr (demoDst w.io w.mem (demoObjs w))
      (demoData w.io w.bytes w.offsets (demoObjs w)) (· = ·) := by
  simp only [checkFds, List.all_eq_true, List.mem_range] at h
  constructor
  · intro i o n par off ho hx
    have := h i (List.getElem?_eq_some_iff.mp hx).1
    simp only [hx, ho, Bool.and_eq_true, beq_iff_eq] at this
    exact this.1
  · intro i n par off a len pp hx hy k hk x hx32 hl
    have := h i (List.getElem?_eq_some_iff.mp hx).1
    simp only [hx, hy, Bool.and_eq_true, List.all_eq_true, List.mem_range, beq_iff_eq] at this
    have := this.2 k hk
    rw [hl] at this
    exact ⟨x, hx32, this.symm, rfl⟩

/-- Ten messages of three bytes in the memory of the caller (5 is its file descriptor), with an event flag. -/
def demoDesc : Desc := describe ⟨30, 3, true⟩ 1 7 (some 5) true

/-- GByteArray allocates more than it has been asked for (otherwise an array of descriptors is stored out of bounds, see
C54). -/
def demoEnv : Env := { Demo.env with slack := fun _ => 16 }

def demoMem : Mem :=
  [(0x1000, demoDesc.bytes 0x2000 0x3000), (0x2000, demoDesc.grantors.flatMap Grantor.bytes), (0x3000, demoDesc.fdsBytes)]

/-- Everything is as in the theorem, and both files arrive. -/
def demoCheck (io : Io) : Bool :=
  match WOp.runAll demoEnv { io := io, protocol := .hidl, mem := demoMem } [.int32 7, .bool true] with
  | .ok w0 => match (WOp.fmqDescriptor 0x1000).run demoEnv w0 with
    | .ok w1 => match WOp.runAll demoEnv w1 [.int32 8] with
      | .ok w => checkFds w && demoTransfer w &&
        (Parcel.readQueue ⟨io, demoData w.io w.bytes w.offsets (demoObjs w), w.offsets,
            demoDst w.io w.mem (demoObjs w)⟩ w0.bytes.length == some (⟨layout 30 true true, [7, 5], 3, 1⟩, w1.bytes.length))
      | .error _ => false
    | .error _ => false
  | .error _ => false

example : config 3 10 true (some 32) = some ⟨30, 3, true⟩ ∧ demoDesc.At demoMem 0x1000 ∧
    (∃ w0 w1 w' dst b', Sent demoEnv .io64 .hidl demoMem [.int32 7, .bool true] (.fmqDescriptor 0x1000) [.int32 8]
      w0 w1 w' demoAddr dst b') ∧
    (∃ w0 w1 w' dst b', Sent demoEnv .io32 .hidl demoMem [.int32 7, .bool true] (.fmqDescriptor 0x1000) [.int32 8]
      w0 w1 w' demoAddr dst b') ∧
    demoCheck .io64 = true ∧ demoCheck .io32 = true :=
  ⟨by decide, ⟨0x2000, 0x3000, by decide, by decide, by decide +kernel, by decide +kernel, by decide +kernel⟩,
    demoSent_sound (by decide +kernel), demoSent_sound (by decide +kernel), by decide +kernel, by decide +kernel⟩

end Gb.C82
