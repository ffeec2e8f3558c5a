import Verif.Lemmas.NativeHandles
import Verif.Props.C49
import Verif.Props.C82
/-
C83: file descriptors and native handles arrive at Android.
-/
set_option autoImplicit false

namespace Gb.C83
open Writer Reader Kernel Android

/-- The descriptor read by Android is the one which the kernel has installed for the duplicate, and what comes next is
what has been appended next. -/
theorem C83_fd {e : Env} {io : Io} {p : Protocol} {m : Mem} {pre post : List WOp} {w0 w1 w' : Writer} {n d : Nat}
    (hd : d < 2 ^ 32) (h : C19.Built e io p m pre (.fd n (some d)) post w0 w1 w')
    {objs : List KObj} {fd : Nat → Nat} {b' : Bytes} {dst : Mem} (t : Installed io w'.bytes w'.offsets objs fd b') :
    objs[w0.offsets.length]? = some (.fd d) ∧
    Parcel.readFd ⟨io, b', w'.offsets, dst⟩ w0.bytes.length = some (fd w0.offsets.length, w1.bytes.length) := by
  obtain ⟨objs', h1, h2, h3⟩ := C49.C49_stored hd h
  rw [t.found] at h1
  cases h1
  refine ⟨h2, ?_⟩
  obtain ⟨t1, t2⟩ := t.files _ _ _ h3 h2
  have hc := h.call
  simp only [WOp.run, appendFd_eq] at hc
  cases hc
  obtain ⟨rest, g2⟩ := runAll_grows (al := false) h.after
    (C19.isAppend_of fun off v hc => h.append off v (List.mem_append_right _ hc)) (by simp)
  obtain ⟨r, hr, _⟩ := g2.tail
  have hio := h.io0.1
  have hb : (Obj.bytes w0.io (.fd d)).length = 8 + 2 * word io := by
    rw [hio]
    cases io <;> simp [Obj.bytes, encodeFdObject, word] <;> rfl
  have hlen : w0.bytes.length + (8 + 2 * word io) ≤ b'.length := by
    rw [t.size, hr]
    simp only [Option.getD_some, Writer.push, List.length_append, hb]
    omega
  unfold Parcel.readFd
  rw [if_pos (List.mem_of_getElem? h3)]
  simp only [getObject, t1, t2]
  rw [if_neg (by omega), if_neg (by decide), if_neg (by decide), if_pos trivial, if_pos hlen]
  simp only [Option.getD_some, Writer.push, List.length_append, hb]

/-- Handles with any number of descriptors and integers: each of the descriptors is the same file, and the integers are
the same. (The writer keeps the address of the structure, which therefore has to stay.) -/
theorem C83_handle {e : Env} {io : Io} {p : Protocol} {m : Mem} {pre post : List WOp} {a v : Nat}
    {w0 w1 w' : Writer} {addr : Nat → Nat} {dst : Mem} {b' : Bytes} {fds ints : List Nat} {Same : Nat → Nat → Prop}
    (h : Sent e io p m pre (.fds a none) post w0 w1 w' addr dst b') (ha : a ≠ 0)
    (hm : w0.mem.load a (12 + 4 * (fds.length + ints.length)) = some (handleBytes v fds ints))
    (hl : 12 + 4 * (fds.length + ints.length) < 2 ^ 32) (hfd : ∀ x ∈ fds, x < 2 ^ 32) (hint : ∀ x ∈ ints, x < 2 ^ 32)
    (hF : ∀ objs, accepts io w'.bytes w'.offsets = some objs → FdArrays io w'.mem w'.offsets objs addr dst b' Same) :
    ∃ l, Parcel.readNative ⟨io, b', w'.offsets, dst⟩ w0.bytes.length = some (some ⟨l, ints⟩, w1.bytes.length) ∧
      l.length = fds.length ∧ ∀ (k : Nat) y, l[k]? = some y → ∃ x, fds[k]? = some x ∧ Same x y :=
  handle_of h ha hm hl hfd hint hF

/-- No handle. -/
theorem C83_null {e : Env} {io : Io} {p : Protocol} {m : Mem} {pre post : List WOp} {par : Option Parent}
    {w0 w1 w' : Writer} {addr : Nat → Nat} {dst : Mem} {b' : Bytes}
    (h : Sent e io p m pre (.fds 0 par) post w0 w1 w' addr dst b') :
    Parcel.readNative ⟨io, b', w'.offsets, dst⟩ w0.bytes.length = some (none, w1.bytes.length) := by
  obtain ⟨objs, t⟩ := h.transfer
  have hc := h.call
  simp only [WOp.run, if_true, appendFds, withBytes, bufAppendWord_eq, Except.map] at hc
  have hw : w1 = w0.pushRaw (leBytes 8 0) := by cases hc; rfl
  have hn := num_raw (n := 8) (x := 0) h t (by omega) (by rw [hw]; exact Grows.of_same rfl rfl rfl rfl rfl)
  have happ : ∀ op ∈ post, op.isAppend = true := by
    intro op hop
    cases op <;> first | rfl | exact absurd (List.mem_append_right _ hop) (h.append _ _)
  obtain ⟨rest, g4, _⟩ := runAll_after post h.after happ h.noParent
  obtain ⟨r, hr, _⟩ := g4.tail
  have hw1 : w1.bytes.length = w0.bytes.length + 8 := by rw [hw]; simp [pushRaw]
  have hlen : w0.bytes.length + 8 ≤ b'.length := by rw [t.size, hr, List.length_append]; omega
  unfold Parcel.readNative
  rw [if_pos hlen]
  simp only [hn, if_true, hw1]

/-! ### Examples -/

def demoMem : Mem := [(0x1000, handleBytes 12 [5, 6] [77])]

def demoCheck (io : Io) : Bool :=
  match WOp.runAll C82.demoEnv { io := io, protocol := .hidl, mem := demoMem } [.int32 7, .bool true] with
  | .ok w0 => match (WOp.fds 0x1000 none).run C82.demoEnv w0 with
    | .ok w1 => match WOp.runAll C82.demoEnv w1 [.int32 8] with
      | .ok w => C82.checkFds w && demoTransfer w &&
        (Parcel.readNative ⟨io, demoData w.io w.bytes w.offsets (demoObjs w), w.offsets,
            demoDst w.io w.mem (demoObjs w)⟩ w0.bytes.length == some (some ⟨[5, 6], [77]⟩, w1.bytes.length))
      | .error _ => false
    | .error _ => false
  | .error _ => false

example : (∃ w0 w1 w' dst b', Sent C82.demoEnv .io64 .hidl demoMem [.int32 7, .bool true] (.fds 0x1000 none) [.int32 8]
      w0 w1 w' demoAddr dst b') ∧
    (∃ w0 w1 w' dst b', Sent C82.demoEnv .io32 .hidl demoMem [.int32 7, .bool true] (.fds 0x1000 none) [.int32 8]
      w0 w1 w' demoAddr dst b') ∧
    (∃ w0 w1 w' dst b', Sent C82.demoEnv .io64 .hidl demoMem [.int32 7] (.fds 0 none) [.fds 0x1000 none]
      w0 w1 w' demoAddr dst b') ∧
    demoCheck .io64 = true ∧ demoCheck .io32 = true :=
  ⟨demoSent_sound (by decide +kernel), demoSent_sound (by decide +kernel), demoSent_sound (by decide +kernel),
    by decide +kernel, by decide +kernel⟩

/-- The parcel of the example of C49 (which is as sent there): the descriptor 5 is 12 in the receiving process. -/
example : ∃ w0 w1 w' objs fd b', C19.Built Demo.env .io64 .aidl []
      [.int32 7, .fd 3 (some 4), .localObject (some ⟨0x1000, 0⟩)] (.fd 3 (some 5)) [] w0 w1 w' ∧
    Installed .io64 w'.bytes w'.offsets objs fd b' ∧
    Parcel.readFd ⟨.io64, b', w'.offsets, []⟩ w0.bytes.length = some (12, w1.bytes.length) := by
  refine ⟨_, _, _, [.fd 4, .binder 0x1000 0, .fd 5], fun i => 10 + i, C49.demo tHandle 10 12,
    ⟨rfl, rfl, rfl, by simp⟩, ?_, by decide +kernel⟩
  exact C49.demo_installed

end Gb.C83
