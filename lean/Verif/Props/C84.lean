import Verif.Lemmas.StructReads
import Verif.Lemmas.StructWalk
import Verif.Props.C80
import Verif.Props.C82
/-
C84: structures arrive with everything they point to.
-/
set_option autoImplicit false

namespace Gb.C84
open Writer Reader Kernel Android

/-- A structure which is written with gbinder_writer_append_struct is the same when it's read by Android: plain data,
what its pointers point to, its strings, and its vectors of such structures, no matter how deep. And what comes next is
what has been appended next. Missing: pointers to structures which have pointers (`FlatFields` excludes those, see
`C84_fails_pointer`). -/
theorem C84_struct_partial {e : Env} {io : Io} {p : Protocol} {m : Mem} {pre post : List WOp} {a size : Nat}
    {fs : List WField} {w0 w1 w' : Writer} {addr : Nat → Nat} {dst : Mem} {b' : Bytes} {v : List Tok}
    (h : Sent e io p m pre (.struct a (some ⟨size, fs⟩) none) post w0 w1 w' addr dst b')
    (fit : Fits size fs) (ok : FieldsOk fs) (fl : FlatFields fs)
    (hv : sentStruct (256 ^ word io) (2 ^ 32) w0.mem a size fs = some v) :
    Parcel.readStruct ⟨io, b', w'.offsets, dst⟩ size fs w0.bytes.length = some (v, w1.bytes.length) := by
  have hc := h.call
  simp only [WOp.run] at hc
  obtain ⟨new, g⟩ := appendStruct_grows (al := false) hc
  obtain ⟨objs, c, hs, he, hcl⟩ := ctx_of h g
  have hm := appendStruct_mem hc
  exact struct_read c hc hs he hm.symm hcl fit ok fl (by rw [hm]; exact hv)

/-- And so is a vector of structures, which is written with gbinder_writer_append_struct_vec. -/
theorem C84_structVec_partial {e : Env} {io : Io} {p : Protocol} {m : Mem} {pre post : List WOp} {a n size : Nat}
    {fs : List WField} {w0 w1 w' : Writer} {addr : Nat → Nat} {dst : Mem} {b' : Bytes} {v : List Tok}
    (h : Sent e io p m pre (.structVec a n (some ⟨size, fs⟩)) post w0 w1 w' addr dst b')
    (hn : n < 2 ^ 32) (fit : Fits size fs) (ok : FieldsOk fs) (fl : FlatFields fs)
    (hv : sentVec (256 ^ word io) (2 ^ 32) w0.mem a n size fs = some v) :
    Parcel.readStructVec ⟨io, b', w'.offsets, dst⟩ size fs w0.bytes.length = some (v, w1.bytes.length) := by
  have hc := h.call
  simp only [WOp.run, appendStructVec] at hc
  obtain ⟨new, g⟩ := appendStruct_grows (al := false) hc
  have g0 : Grows false w0 (addCleanup (newBlock e w0 (hidlVecBytes a n true)).2
      (.free (newBlock e w0 (hidlVecBytes a n true)).1)) [] := Grows.of_same rfl rfl rfl rfl rfl
  obtain ⟨objs, c, hs, he, hcl⟩ := ctx_of h (g0.trans g)
  have hm := appendStruct_mem hc
  simp only [addCleanup, newBlock] at hm
  have hw : Mem.Apart w1.mem := by
    obtain ⟨l, hl⟩ := runAll_mem post h.after h.still
    have := h.sane.apart
    rw [hl] at this
    exact (List.pairwise_append.mp this).2.1
  have hd : w1.mem.load (e.alloc w0.mem (hidlVecBytes a n true).length) 16 = some (hidlVecBytes a n true) := by
    rw [hm]
    exact load_block (by simp [hidlVecBytes]) (by omega)
  have hin := load_in_space c.sane (by omega) (c.keep _ _ _ hd)
  obtain ⟨x, hx⟩ := sent_desc (m := w0.mem) (m' := w1.mem) (fs := fs) (size := size) (l := v) (a := a) (n := n)
    (fun a n bs hl => by
      cases n with
      | zero => rw [load_zero_mem] at hl ⊢; exact hl
      | succ n =>
        rw [hm] at hw ⊢
        exact load_extend (l := [_]) hw (Nat.succ_pos n) hl) hw hn (by cases io <;> decide)
    (vec := e.alloc w0.mem (hidlVecBytes a n true).length) (by omega) hd hv
  refine readStructVec_of (x := x) ?_
  exact struct_read (v := addCleanup (newBlock e w0 (hidlVecBytes a n true)).2
    (.free (newBlock e w0 (hidlVecBytes a n true)).1)) c hc hs he hm.symm hcl
    ⟨by simp, by simp [WField.off, WField.width]⟩ ⟨⟨fit, ok⟩, trivial⟩ ⟨fl, trivial⟩ hx

/-- A structure in a parcel which Android has written: gbinder_reader_read_hidl_struct returns a pointer to it, the
memory it points to (and so on) has everything Android would have read, no matter how deep. What comes next in the
parcel is found by skipping the buffers it consists of. -/
theorem C84_struct_received {c : Parcel} (hc : c.Delivered) {p q i size : Nat} {fs : List WField} {v : List Tok}
    (h : c.readStruct size fs p = some (v, q)) (hi : c.offs[i]? = some p) (pr : Protocol) :
    ∃ a p1 k, (Reader.since c.io pr c.data c.offs p i).readHidlStruct size =
        .ok (some a) (Reader.since c.io pr c.data c.offs p1 (i + 1)) ∧ a ≠ 0 ∧
      sentStruct (256 ^ word c.io) (256 ^ word c.io) c.mem a size fs = some v ∧
      Reader.skips k (Reader.since c.io pr c.data c.offs p1 (i + 1)) =
        some (Reader.since c.io pr c.data c.offs q (i + 1 + k)) :=
  struct_walk hc h hi pr

/-- And a vector of structures, which is read with gbinder_reader_read_hidl_vec. -/
theorem C84_structVec_received {c : Parcel} (hc : c.Delivered) {p q i size : Nat} {fs : List WField} {v : List Tok}
    (h : c.readStructVec size fs p = some (v, q)) (hi : c.offs[i]? = some p) (hz : 0 < size) (pr : Protocol) :
    ∃ a n p1 k, readHidlVec c.mem (Reader.since c.io pr c.data c.offs p i) =
        .ok (some { ptr := a, count := n, elemsize := if n = 0 then 0 else size })
          (Reader.since c.io pr c.data c.offs p1 (i + 2)) ∧ a ≠ 0 ∧
      sentVec (256 ^ word c.io) (256 ^ word c.io) c.mem a n size fs = some v ∧
      Reader.skips k (Reader.since c.io pr c.data c.offs p1 (i + 2)) =
        some (Reader.since c.io pr c.data c.offs q (i + 2 + k)) :=
  structVec_walk hc h hi hz pr

/-! ### Examples -/

example : C80.demoParcel.Delivered ∧ C80.demoParcel.offs[0]? = some 0 ∧
    C80.demoParcel.readStruct 16 [.ptr 0 16 [.str 0]] 0 = some ([.plain (List.replicate 8 0 ++ leBytes 8 1),
      .data (List.replicate 8 0 ++ leBytes 8 2), .str [104, 105]], 120) ∧
    C80.demoParcel.readStruct 16 [.vec 0 16 [.str 0]] 0 = some ([.plain (List.replicate 8 0 ++ leBytes 8 1),
      .items 1, .plain (List.replicate 8 0 ++ leBytes 8 2), .str [104, 105]], 120) ∧
    C80.demoParcel.readStructVec 16 [.str 0] 0 = some ([.items 1, .plain (List.replicate 8 0 ++ leBytes 8 2),
      .str [104, 105]], 120) :=
  ⟨C80.demoParcel_delivered, by decide +kernel, by decide +kernel, by decide +kernel, by decide +kernel⟩


/-- A structure with a number, a string, a pointer to four bytes and a vector of structures with a string and a vector
of numbers in each. -/
def demoInner : WType := ⟨40, [.str 0, .vec 24 4 []]⟩
def demoType : WType := ⟨48, [.str 8, .ptr 24 4 [], .vec 32 40 demoInner.fields]⟩

def demoMem : Mem :=
  [(0x1000, leBytes 8 7 ++ hidlStringBytes 0x2000 2 true ++ leBytes 8 0x3000 ++ hidlVecBytes 0x4000 2 true),
   (0x2000, [104, 105, 0]),
   (0x3000, [1, 2, 3, 4]),
   (0x4000, hidlStringBytes 0x5000 1 true ++ leBytes 8 11 ++ hidlVecBytes 0x6000 2 true ++
     (hidlStringBytes 0x5002 0 true ++ leBytes 8 12 ++ hidlVecBytes 0x7000 1 true)),
   (0x5000, [97, 0, 0]),
   (0x6000, leBytes 4 5 ++ leBytes 4 6),
   (0x7000, leBytes 4 9)]

def demoInners : List Tok :=
  [.items 2, .plain (List.replicate 8 0 ++ leBytes 4 1 ++ leBytes 4 1 ++ leBytes 8 11 ++ List.replicate 8 0 ++
      leBytes 4 2 ++ leBytes 4 1), .str [97], .items 2, .plain (leBytes 4 5), .plain (leBytes 4 6),
    .plain (List.replicate 8 0 ++ leBytes 4 0 ++ leBytes 4 1 ++ leBytes 8 12 ++ List.replicate 8 0 ++
      leBytes 4 1 ++ leBytes 4 1), .str [], .items 1, .plain (leBytes 4 9)]

def demoToks : List Tok :=
  [.plain (leBytes 8 7 ++ List.replicate 8 0 ++ leBytes 4 2 ++ leBytes 4 1 ++ List.replicate 8 0 ++
      List.replicate 8 0 ++ leBytes 4 2 ++ leBytes 4 1), .str [104, 105], .data [1, 2, 3, 4]] ++ demoInners

example : Fits demoType.size demoType.fields ∧ FieldsOk demoType.fields ∧ FlatFields demoType.fields ∧
    sentStruct (256 ^ word .io32) (2 ^ 32) demoMem 0x1000 48 demoType.fields = some demoToks ∧
    sentVec (256 ^ word .io32) (2 ^ 32) demoMem 0x4000 2 40 demoInner.fields = some demoInners ∧
    (∃ w0 w1 w' dst b', Sent C82.demoEnv .io64 .hidl demoMem [.int32 7, .bool true]
      (.struct 0x1000 (some demoType) none) [.int32 8] w0 w1 w' demoAddr dst b') ∧
    (∃ w0 w1 w' dst b', Sent C82.demoEnv .io32 .hidl demoMem [.int32 7, .bool true]
      (.struct 0x1000 (some demoType) none) [.int32 8] w0 w1 w' demoAddr dst b') ∧
    (∃ w0 w1 w' dst b', Sent C82.demoEnv .io64 .hidl demoMem [.struct 0x1000 (some demoType) none]
      (.structVec 0x4000 2 (some demoInner)) [.int32 8] w0 w1 w' demoAddr dst b') := by
  refine ⟨⟨by simp [demoType, WField.off, WField.width], by simp [demoType, WField.off, WField.width]⟩, ?_, ?_,
    by decide +kernel, by decide +kernel, demoSent_sound (by decide +kernel), demoSent_sound (by decide +kernel),
    demoSent_sound (by decide +kernel)⟩
  · simp [demoType, demoInner, FieldsOk, WField.Ok, Fits, WField.off, WField.width]
  · simp [demoType, demoInner, FlatFields, WField.Flat]

/-! ### Pointers to structures with pointers -/

/-- A structure with nothing but a pointer to a structure with nothing but a string. -/
def pointerType : WType := ⟨8, [.ptr 0 16 [.str 0]]⟩

def pointerMem : Mem := [(0x1000, leBytes 8 0x2000), (0x2000, hidlStringBytes 0x3000 2 true), (0x3000, [104, 105, 0])]

def pointerToks : List Tok :=
  [.plain (List.replicate 8 0), .data (List.replicate 8 0 ++ leBytes 4 2 ++ leBytes 4 1), .str [104, 105]]

def pointerCheck : Bool :=
  match WOp.runAll Demo.env { io := .io64, protocol := .hidl, mem := pointerMem } [.int32 7] with
  | .ok w0 => match (WOp.struct 0x1000 (some pointerType) none).run Demo.env w0 with
    | .ok w1 => match WOp.runAll Demo.env w1 [.int32 8] with
      | .ok w => Parcel.readStruct ⟨.io64, demoData .io64 w.bytes w.offsets (demoObjs w), w.offsets,
            demoDst .io64 w.mem (demoObjs w)⟩ 8 pointerType.fields w0.bytes.length == none &&
          -- what the pointer in the received structure points to is an address in the memory of the sender
          ((demoDst .io64 w.mem (demoObjs w)).load (demoAddr (w0.offsets.length + 1)) 8 == some (leBytes 8 0x3000))
      | .error _ => false
    | .error _ => false
  | .error _ => false

/-- The fields of what a pointer points to aren't written: the string is missing from the parcel, the pointer to it is
the sender's address, and Android can't read the structure. -/
theorem C84_fails_pointer : Fits pointerType.size pointerType.fields ∧ FieldsOk pointerType.fields ∧
    ∃ w0 w1 w' dst b', Sent Demo.env .io64 .hidl pointerMem [.int32 7] (.struct 0x1000 (some pointerType) none)
        [.int32 8] w0 w1 w' demoAddr dst b' ∧
      sentStruct (256 ^ word .io64) (2 ^ 32) w0.mem 0x1000 8 pointerType.fields = some pointerToks ∧
      Parcel.readStruct ⟨.io64, b', w'.offsets, dst⟩ 8 pointerType.fields w0.bytes.length = none ∧
      dst.load (demoAddr (w0.offsets.length + 1)) 8 = some (leBytes 8 0x3000) := by
  refine ⟨⟨by simp [pointerType], by simp [pointerType, WField.off, WField.width]⟩,
    by simp [pointerType, FieldsOk, WField.Ok, Fits, WField.off, WField.width], ?_⟩
  have h1 : demoSent Demo.env .io64 .hidl pointerMem [.int32 7] (.struct 0x1000 (some pointerType) none)
      [.int32 8] = true := by decide +kernel
  have h2 : pointerCheck = true := by decide +kernel
  obtain ⟨w0, w1, w', h⟩ := demoSent_exact h1
  refine ⟨w0, w1, w', _, _, h, ?_, ?_⟩
  · have hb := h.before
    have hm : w0.mem = pointerMem := by
      simp only [WOp.runAll, WOp.run, bind, Except.bind] at hb
      cases hb
      rfl
    rw [hm]
    decide +kernel
  · simp only [pointerCheck, h.before, h.call, h.after, Bool.and_eq_true, beq_iff_eq] at h2
    exact h2

end Gb.C84
