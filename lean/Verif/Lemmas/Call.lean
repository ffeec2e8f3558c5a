import Verif.Lemmas.StartMore
import Verif.Props.C13
import Verif.Props.C14
import Verif.Props.C15
import Verif.Props.C17
import Verif.Props.C49
import Verif.Props.C55
import Verif.Props.C59
/-
Helper lemmas for C64: reading of a sequence of items, and decoding of what the kernel has handed over.
-/
set_option autoImplicit false

namespace Gb.Call

open Kernel Writer
open C01 (Value)

theorem plainCall_run (e : Env) (w : Writer) (v : Value) : (plainCall v).run e w = v.write e w := by
  cases v <;> rfl

theorem call_append (x : Item) (off : Nat) (v : UInt32) : x.call ≠ .overwriteInt32 off v := by
  cases x <;> simp [Item.call]
  case plain v => cases v <;> simp [plainCall]

theorem call_memory (x : Item) (m : Mem) : x.call ≠ .memory m := by
  cases x <;> simp [Item.call]
  case plain v => cases v <;> simp [plainCall]

theorem call_parent (x : Item) : x.call.parent = none := by
  cases x <;> simp [Item.call, WOp.parent]
  case plain v => cases v <;> simp [plainCall]

theorem calls_append (l : List Item) : ∀ off v, WOp.overwriteInt32 off v ∉ l.map Item.call := by
  intro off v h
  obtain ⟨x, _, hx⟩ := List.mem_map.1 h
  exact call_append x off v hx

theorem calls_memory (l : List Item) : ∀ m, WOp.memory m ∉ l.map Item.call := by
  intro m h
  obtain ⟨x, _, hx⟩ := List.mem_map.1 h
  exact call_memory x m hx

/-- Arguments stay valid while memory is being allocated. -/
theorem Ok.grow {io : Io} {p : Protocol} {m : Mem} {other : Nat → Option Nat} {x : Item} (h : x.Ok io p m other)
    {l : Mem} (ha : Mem.Apart (l ++ m)) : x.Ok io p (l ++ m) other := by
  cases x <;> simp only [Item.Ok] at h ⊢
  case hidlString => exact ⟨h.1, C33.cstr_extend ha h.2.1, h.2.2⟩
  case hidlStringCopy =>
    exact ⟨h.1, C33.cstr_extend ha h.2.1, h.2.2.1, h.2.2.2.1, C33.cstr_extend ha h.2.2.2.2⟩
  case hidlStringVec strv strs =>
    refine ⟨h.1, ?_, h.2.2⟩
    have h2 := h.2.1
    clear h
    induction strv generalizing strs with
    | nil => exact h2
    | cons a l ih =>
      cases strs with
      | nil => cases h2
      | cons s strs =>
        simp only [List.map_cons, List.cons.injEq] at h2 ⊢
        exact ⟨C33.cstr_extend ha h2.1, ih strs h2.2⟩
  case hidlVec base count elemsize bs =>
    refine ⟨h.1, h.2.1, h.2.2.1, h.2.2.2.1, load_extend ha (Nat.mul_pos h.2.1 h.2.2.1) h.2.2.2.2⟩
  all_goals exact h

/-- One item. -/
theorem got {e : Env} {io : Io} {p : Protocol} {m : Mem} {pre post : List WOp} {x : Item} {w0 w1 w' : Writer}
    {d : Delivery} (hok : x.Ok io p w0.mem d.other)
    (h : Sent e io p m pre x.call post w0 w1 w' d.addr d.dst d.data)
    (t : Transfer io w'.mem w'.bytes w'.offsets d.objs d.addr d.dst d.data)
    (t1 : References io w'.bytes w'.offsets d.objs d.node d.other d.data)
    (t2 : Installed io w'.bytes w'.offsets d.objs d.fd d.data) :
    x.Got d (Reader.since io p d.data w'.offsets w0.bytes.length w0.offsets.length)
      (Reader.since io p d.data w'.offsets w1.bytes.length w1.offsets.length) := by
  have hb : C19.Built e io p m pre x.call post w0 w1 w' := ⟨h.before, h.call, h.after, h.append⟩
  cases x <;> simp only [Item.Ok] at hok <;> simp only [Item.Got]
  case plain v =>
    have h1 : C01.writeAll e w0 [v] = .ok w1 := by
      have := h.call
      simp only [Item.call, plainCall_run] at this
      simp only [C01.writeAll, this, bind, Except.bind]
    have := C01.C01_received (vs := [v]) (by simpa using hok) h.before h1 h.after h.append t p
    simp only [C01.readAll, List.map_cons, List.map_nil] at this
    generalize v.ty.read _ = y at this ⊢
    cases y with
    | ok a r => simp only [Res.bind, Res.map] at this; cases this; rfl
    | fail r => cases this
    | ub k => cases this
  case object o => exact C19.C19_received e io p m pre post w0 w1 w' o hok hb d.objs d.node d.other d.data t1
  case remote hd =>
    obtain ⟨h', ho⟩ := Option.isSome_iff_exists.1 hok.2.2
    exact ⟨h', ho, C19.C19_remote_partial e io p hok.1 m pre post w0 w1 w' hd h' hok.2.1 hb d.objs d.node d.other d.data
      t1 ho⟩
  case file n dup =>
    obtain ⟨objs', g1, g2, g3⟩ := C49.stored hb
    rw [t2.found] at g1
    cases g1
    rw [Nat.mod_eq_of_lt hok] at g2
    have hc := h.call
    simp only [Item.call, WOp.run, appendFd_eq] at hc
    obtain ⟨new, gr⟩ := runAll_grows (al := false) h.after
      (C19.isAppend_of fun off v hc => h.append off v (List.mem_append_right _ hc)) (by simp)
    obtain ⟨r, hr, _⟩ := gr.tail
    have hf := hb.io0.1
    have hl : w1.bytes.length = w0.bytes.length + io.flatSize ∧ w1.offsets.length = w0.offsets.length + 1 := by
      cases hc
      constructor
      · simp only [Writer.push, List.length_append, Obj.bytes, length_encodeFdObject, hf]
      · simp only [Writer.push, List.length_append, List.length_cons, List.length_nil]
    refine ⟨w0.offsets.length, g2, ?_⟩
    rw [hl.1, hl.2]
    exact C49.C49_read t2 g3 g2 (by rw [t.size, hr, List.length_append]; omega)
  case hidlString a s => exact C13.C13_round_trip h hok.1 hok.2.1 hok.2.2 p
  case hidlStringCopy a em s => exact C13.C13_copy_round_trip h hok.1 hok.2.1 ⟨hok.2.2.2.1, hok.2.2.2.2⟩ hok.2.2.1 p
  case hidlNull => exact C13.C13_null h p
  case hidlStringVec strv strs => exact C14.C14_round_trip h hok.1 hok.2.1 hok.2.2.1 hok.2.2.2 p
  case hidlVec base count elemsize bs =>
    exact C15.C15_round_trip h hok.1 hok.2.1 hok.2.2.1 hok.2.2.2.1 hok.2.2.2.2 p
  case hidlVecEmpty base elemsize => exact C15.C15_empty h p

/-- A sequence of items, after `pre`. -/
theorem gotAll {e : Env} {io : Io} {p : Protocol} {m : Mem} {w' : Writer} {d : Delivery}
    (small : w'.bytes.length < 2 ^ 32) (sane : w'.mem.Sane (256 ^ word io))
    (t : Transfer io w'.mem w'.bytes w'.offsets d.objs d.addr d.dst d.data)
    (t1 : References io w'.bytes w'.offsets d.objs d.node d.other d.data)
    (t2 : Installed io w'.bytes w'.offsets d.objs d.fd d.data) :
    ∀ (l : List Item) {pre : List WOp} {w : Writer},
      WOp.runAll e { io := io, protocol := p, mem := m } pre = .ok w →
      (∀ off v, WOp.overwriteInt32 off v ∉ pre) → (∀ m, WOp.memory m ∉ pre) →
      WOp.runAll e w (l.map Item.call) = .ok w' → (∀ x ∈ l, x.Ok io p m d.other) →
      GotAll d (Reader.since io p d.data w'.offsets w.bytes.length w.offsets.length) l
        (Reader.since io p d.data w'.offsets w'.bytes.length w'.offsets.length) := by
  intro l
  induction l with
  | nil => intro pre w h0 ha hm h _; cases h; rfl
  | cons x l ih =>
    intro pre w h0 ha hm h hok
    simp only [List.map_cons] at h
    obtain ⟨w1, h1, h2⟩ := C59.runAll_split h
    obtain ⟨l0, hl0⟩ := runAll_mem pre h0 hm
    obtain ⟨l1, hl1⟩ := runAll_mem (x.call :: l.map Item.call) h (by
      intro m' hm'
      exact calls_memory (x :: l) m' (by simpa using hm'))
    have hap : Mem.Apart w.mem := by
      have := sane.apart
      rw [hl1] at this
      exact (List.pairwise_append.mp this).2.1
    have hx : x.Ok io p w.mem d.other := by
      have hl0' : w.mem = l0 ++ m := hl0
      rw [hl0'] at hap ⊢
      exact Ok.grow (hok x List.mem_cons_self) hap
    refine ⟨_, got hx ⟨h0, h1, h2, ?_, calls_memory l, ?_, small, sane, _, t⟩ t t1 t2, ?_⟩
    · intro off v hc
      rcases List.mem_append.1 hc with hc | hc
      · exact ha off v hc
      · exact calls_append l off v hc
    · intro op hop
      obtain ⟨y, _, rfl⟩ := List.mem_map.1 hop
      exact call_parent y
    · refine ih (pre := pre ++ [x.call]) (C59.runAll_append h0 (by simp [WOp.runAll, h1, bind, Except.bind])) ?_ ?_ h2
        fun y hy => hok y (List.mem_cons_of_mem _ hy)
      · intro off v hc
        simp only [List.mem_append, List.mem_singleton] at hc
        rcases hc with hc | hc
        · exact ha off v hc
        · exact call_append x off v hc.symm
      · intro m' hc
        simp only [List.mem_append, List.mem_singleton] at hc
        rcases hc with hc | hc
        · exact hm m' hc
        · exact call_memory x m' hc.symm

/-! ### Decoding -/

theorem getObjects_bound {io : Io} {b : Bytes} : ∀ {offs : List Nat} {lo : Nat} {objs : List KObj},
    getObjects io b lo offs = some objs →
    (∀ o ∈ offs, o ≤ b.length) ∧ (offs ≠ [] → lo + 16 * offs.length ≤ b.length) := by
  intro offs
  induction offs with
  | nil => intro lo objs _; simp
  | cons o offs ih =>
    intro lo objs h
    simp only [getObjects] at h
    cases hg : getObject io b o with
    | none => rw [hg] at h; cases h
    | some y =>
      obtain ⟨x, n⟩ := y
      rw [hg] at h
      simp only at h
      split at h
      · rename_i hlo
        obtain ⟨l, hl, _⟩ := Option.map_eq_some_iff.1 h
        have hn : 16 ≤ n ∧ o + n ≤ b.length := by
          have hw : 4 ≤ word io := by cases io <;> decide
          unfold getObject at hg
          simp only [] at hg
          split at hg
          · cases hg
          repeat' (split at hg)
          all_goals first | (cases hg; done) | (cases hg; constructor <;> omega)
        obtain ⟨i1, i2⟩ := ih hl
        refine ⟨?_, fun _ => ?_⟩
        · intro y hy
          rcases List.mem_cons.1 hy with rfl | hy
          · omega
          · exact i1 y hy
        · simp only [List.length_cons]
          cases offs with
          | nil => simp only [List.length_nil]; omega
          | cons a l => have := i2 (by simp); simp only [List.length_cons] at this ⊢; omega
      · cases h

theorem uptrAt_field {io : Io} {b : Bytes} {o : Nat} (h : o + word io ≤ b.length) :
    uptrAt io b o = some (fieldAt b o (word io)) := by
  unfold uptrAt
  rw [← word_eq, slice_of_le h]
  rfl

theorem decode_header {io : Io} {raw : Bytes} (h : raw.length = 16 + 6 * word io) :
    decodeTxHeader io raw = some
      { target := fieldAt raw 0 (word io), cookie := fieldAt raw (word io) (word io)
        code := fieldAt raw (2 * word io) 4, flags := fieldAt raw (2 * word io + 4) 4
        pid := fieldAt raw (2 * word io + 8) 4, euid := fieldAt raw (2 * word io + 12) 4
        dataSize := fieldAt raw (2 * word io + 16) (word io), offsetsSize := fieldAt raw (3 * word io + 16) (word io)
        buffer := fieldAt raw (4 * word io + 16) (word io), offsets := fieldAt raw (5 * word io + 16) (word io) } := by
  have hw : io.ptrSize = word io := by rw [word_eq]
  unfold decodeTxHeader
  simp only [hw]
  rw [uptrAt_field (by omega), uptrAt_field (by omega), C49.u32At_field (by omega), C49.u32At_field (by omega),
    C49.u32At_field (by omega), C49.u32At_field (by omega), uptrAt_field (by omega), uptrAt_field (by omega),
    uptrAt_field (by omega), uptrAt_field (by omega)]
  rfl

theorem loadOffsets_eq {io : Io} {m : Mem} (hap : m.Apart) : ∀ {n a : Nat} {t : Bytes},
    m.load a (n * word io) = some t → loadOffsets io m a n = .ok (parseOffsets io t n) := by
  have hw : io.ptrSize = word io := by rw [word_eq]
  intro n
  induction n with
  | zero => intro a t _; rfl
  | succ n ih =>
    intro a t h
    have hsz : (n + 1) * word io = word io + n * word io := by rw [Nat.succ_mul]; omega
    have h1 := load_part (k := 0) (j := word io) hap h (by omega)
    have h2 := load_part (k := word io) (j := n * word io) hap h (by omega)
    have hl := load_length h
    have ht : (t.drop (word io)).take (n * word io) = t.drop (word io) := by
      apply List.take_of_length_le
      rw [List.length_drop, hl]; omega
    rw [ht] at h2
    simp only [loadOffsets, Writer.loadBytes, hw]
    rw [show a = a + 0 from rfl, h1, show a + 0 + word io = a + word io from rfl, ih h2]
    simp only [bind, Except.bind, parseOffsets, fieldAt]

/-- What the receiver makes of a parcel which was handed over. -/
theorem decoded {io : Io} {tx : Tx} {table b : Bytes} {src : Mem} {d : Delivery} {raw : Bytes} {offs : List Nat}
    (h : Handed io tx table b src d raw) (hs : tx.flags / 8 % 2 = 0) (hn : tx.offsetsSize = offs.length * word io)
    (hp : parseOffsets io table (tx.offsetsSize / word io) = offs) (hl : b.length < 2 ^ 32) :
    decodeTransactionData io d.dst raw = .ok
      { status := 0, code := tx.code, oneway := tx.flags % 2 = 1, pid := d.pid, euid := d.euid
        target := fieldAt raw 0 (word io), data := d.buffer, size := b.length, objects := offs } := by
  have hw : io.ptrSize = word io := by rw [word_eq]
  have hw0 : 0 < word io := by cases io <;> decide
  have hd := decode_header h.length
  rw [h.code, h.flags, h.pid, h.euid, h.dataSize, h.offsetsSize, h.buffer] at hd
  have ht := h.transfer
  rw [hp] at ht
  obtain ⟨g1, g2⟩ := getObjects_bound (show getObjects io b 0 offs = some d.objs by
    have := ht.found
    unfold accepts at this
    split at this
    · exact this
    · cases this)
  have hlt : offs.length < 2 ^ 32 := by
    cases offs with
    | nil => simp
    | cons a l => have := g2 (by simp); omega
  have hdiv : tx.offsetsSize / word io = offs.length := by rw [hn, Nat.mul_div_cancel _ hw0]
  obtain ⟨t, o1, o2⟩ := h.offsets
  have hlo : loadOffsets io d.dst (fieldAt raw (5 * word io + 16) (word io)) (tx.offsetsSize / io.ptrSize % 2 ^ 32) = .ok offs := by
    rw [hw, hdiv, Nat.mod_eq_of_lt hlt]
    rw [hn] at o1
    rw [loadOffsets_eq ht.sane.apart o1]
    rw [hdiv] at o2 hp
    rw [o2, hp]
  have hk : getObjects io b 0 offs = some d.objs := by
    have := ht.found
    unfold accepts at this
    split at this
    · exact this
    · cases this
  obtain ⟨tx', c1, c2, c3⟩ := C17.C17_complete io d.dst raw _ offs b d.objs hd hs hlo h.whole hk
  have hx : decodeTransactionData io d.dst raw = .ok tx' := c1
  unfold decodeTransactionData at c1
  rw [hd] at c1
  simp only [hlo, bind, Except.bind] at c1
  rw [if_neg (by omega)] at c1
  cases c1
  rw [hx]
  simp only at c2 c3
  rw [c2, c3]

end Gb.Call
