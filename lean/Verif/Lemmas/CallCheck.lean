import Verif.Lemmas.ReferencesCheck
import Verif.Spec.Call
/-
A way to check that a particular command has been carried out according to the specification, for examples.
-/
set_option autoImplicit false

namespace Gb.Call

open Kernel

def checkInstalled (io : Io) (b : Bytes) (offs : List Nat) (objs : List KObj) (fd : Nat → Nat) (b' : Bytes) : Bool :=
  getObjects io b 0 offs == some objs && b'.length == b.length &&
  (List.range objs.length).all fun i => match objs[i]?, offs[i]? with
    | some (KObj.fd _), some o => fieldAt b' o 4 == tFd && fieldAt b' (o + 8) 4 == fd i
    | some _, some o => fieldAt b' o 4 != tFd
    | _, _ => true

theorem checkInstalled_sound {io : Io} {b : Bytes} {offs : List Nat} {objs : List KObj} {fd : Nat → Nat} {b' : Bytes}
    (h : checkInstalled io b offs objs fd b' = true) : Installed io b offs objs fd b' := by
  unfold checkInstalled at h
  simp only [Bool.and_eq_true, beq_iff_eq, List.all_eq_true, List.mem_range] at h
  obtain ⟨⟨h1, h2⟩, h3⟩ := h
  refine ⟨h1, h2, ?_, ?_⟩
  · intro i o n ho hx
    have := h3 i (List.getElem?_eq_some_iff.mp hx).1
    rw [hx, ho] at this
    simpa using this
  · intro i o x ho hx hn
    have := h3 i (List.getElem?_eq_some_iff.mp hx).1
    rw [hx, ho] at this
    cases x <;> simp at this
    case fd n => exact absurd rfl (hn n)
    all_goals exact this

def checkHanded (io : Io) (tx : Tx) (table b : Bytes) (src : Mem) (d : Delivery) (raw : Bytes) : Bool :=
  let n := tx.offsetsSize / word io
  let offs := parseOffsets io table n
  b.length == tx.dataSize &&
  checkTransfer io src b offs d.objs d.addr d.dst d.data &&
  checkRefs io b offs d.objs d.data &&
  checkInstalled io b offs d.objs d.fd d.data &&
  raw.length == 16 + 6 * word io &&
  (tx.reply || fieldAt raw 0 (word io) == d.owner tx.handle) &&
  fieldAt raw (2 * word io) 4 == tx.code &&
  fieldAt raw (2 * word io + 4) 4 == tx.flags &&
  fieldAt raw (2 * word io + 8) 4 == d.pid &&
  fieldAt raw (2 * word io + 12) 4 == d.euid &&
  fieldAt raw (2 * word io + 16) (word io) == tx.dataSize &&
  fieldAt raw (3 * word io + 16) (word io) == tx.offsetsSize &&
  fieldAt raw (4 * word io + 16) (word io) == d.buffer &&
  d.buffer != 0 && d.dst.load d.buffer b.length == some d.data &&
  match d.dst.load (fieldAt raw (5 * word io + 16) (word io)) tx.offsetsSize with
  | some t => parseOffsets io t n == offs
  | none => false

theorem checkHanded_sound {io : Io} {tx : Tx} {table b : Bytes} {src : Mem} {d : Delivery} {raw : Bytes}
    (hn : d.node = id) (ho : d.other = some)
    (h : checkHanded io tx table b src d raw = true) : Handed io tx table b src d raw := by
  unfold checkHanded at h
  simp only [Bool.and_eq_true, beq_iff_eq, bne_iff_ne] at h
  obtain ⟨⟨⟨⟨⟨⟨⟨⟨⟨⟨⟨⟨⟨⟨⟨h1, h2⟩, h3⟩, h4⟩, h5⟩, h6⟩, h7⟩, h8⟩, h9⟩, h10⟩, h11⟩, h12⟩, h13⟩, h14⟩, h15⟩, h16⟩ := h
  refine ⟨h1, checkTransfer_sound h2, ?_, checkInstalled_sound h4, h5, ?_, h7, h8, h9, h10, h11, h12, h13, ⟨h14, h15⟩, ?_⟩
  · rw [hn, ho]; exact checkRefs_sound h3
  · intro hr
    rw [hr] at h6
    simpa using h6
  · split at h16
    · rename_i t ht
      exact ⟨t, ht, by simpa using h16⟩
    · cases h16

/-- The receiver's end of a parcel. -/
def demoDelivery (w : Writer) : Delivery :=
  let data := demoRefs (demoData w.io w.bytes w.offsets (demoObjs w)) w.offsets (demoObjs w)
  { objs := demoObjs w, addr := demoAddr
    dst := (0x60000000, data) :: (0x61000000, w.offsets.flatMap (leBytes (word w.io))) :: demoDst w.io w.mem (demoObjs w)
    data := data, buffer := 0x60000000, node := id, other := some
    fd := fun i => match (demoObjs w)[i]? with | some (.fd n) => n | _ => 0
    owner := fun h => 0x1000 + h, pid := 17, euid := 1000 }

/-- The structure which arrives there. -/
def demoRaw (w : Writer) (tx : Tx) : Bytes :=
  let p := word w.io
  leBytes p (0x1000 + tx.handle) ++ leBytes p 0 ++ leBytes 4 tx.code ++ leBytes 4 tx.flags ++ leBytes 4 17 ++
    leBytes 4 1000 ++ leBytes p tx.dataSize ++ leBytes p tx.offsetsSize ++ leBytes p 0x60000000 ++ leBytes p 0x61000000

/-- Does this kernel carry out the command according to the specification? -/
def demoCarried (w : Writer) (cmd table : Bytes) : Bool :=
  match parseTx w.io cmd with
  | some tx => checkHanded w.io tx table w.bytes w.mem (demoDelivery w) (demoRaw w tx)
  | none => false

theorem demoCarried_sound {w : Writer} {cmd table : Bytes} (h : demoCarried w cmd table = true) :
    ∃ raw, Carried w.io cmd table w.bytes w.mem (demoDelivery w) raw := by
  unfold demoCarried at h
  split at h
  · rename_i tx ht
    exact ⟨_, tx, ht, checkHanded_sound rfl rfl h⟩
  · cases h

end Gb.Call
