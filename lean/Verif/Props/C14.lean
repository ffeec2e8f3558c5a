import Verif.Lemmas.StringVec
import Verif.Lemmas.TransferCheck
/-
C14. Vectors of HIDL strings arrive unchanged.  See C13 for `Sent` and the position of the
receiver.
-/
set_option autoImplicit false

namespace Gb.C14
open Writer Reader Kernel

/-- The strings from the `i`-th on. -/
theorem read_strings {io : Io} {w0 w1 w' : Writer} {addr : Nat → Nat} {dst : Mem} {b' : Bytes}
    {objs : List KObj} {vec strings : Nat} {strv : List Nat} {strs : List Bytes}
    (t : Transfer io w'.mem w'.bytes w'.offsets objs addr dst b')
    (rv : RecvVec io w0 w1 w' objs vec strings (List.zipWith (fun p s => (p, s.length)) strv strs))
    (hlen : strv.length = strs.length)
    (hb : w'.mem.load strings (16 * strs.length) = some
      ((List.zipWith (fun p s => (p, s.length)) strv strs).flatMap
        (fun d => hidlStringBytes d.1 d.2 (decide (d.1 ≠ 0)))))
    (hs : ∀ (k : Nat) p s, strv[k]? = some p → strs[k]? = some s →
      p ≠ 0 ∧ p < 256 ^ io.ptrSize ∧ s.length + 1 < 2 ^ 32 ∧ (0 : Byte) ∉ s ∧
      w'.mem.load p (s.length + 1) = some (s ++ [0])) (pr : Protocol) :
    ∀ n i, i + n = strs.length →
    readStringVecLoop dst (addr (w0.offsets.length + 1)) i n
        (Reader.since io pr b' w'.offsets (w0.bytes.length + io.bufferObjSize * (2 + i))
          (w0.offsets.length + 2 + i)) =
      .ok (some (strs.drop i)) (Reader.since io pr b' w'.offsets w1.bytes.length w1.offsets.length) := by
  have hzl : (List.zipWith (fun p s => (p, s.length)) strv strs).length = strs.length := by
    simp [hlen]
  intro n
  induction n with
  | zero =>
    intro i hi
    have : strs.drop i = [] := List.drop_eq_nil_of_le (by omega)
    rw [readStringVecLoop, this, rv.len1, rv.cnt1, hzl, ← hi]
    rfl
  | succ n ih =>
    intro i hi
    have hk : i < strs.length := by omega
    have hk' : i < strv.length := by omega
    have hs1 : strs[i]? = some strs[i] := List.getElem?_eq_getElem hk
    have hp1 : strv[i]? = some strv[i] := List.getElem?_eq_getElem hk'
    obtain ⟨hp0, hp2, hsl, hsz, hld⟩ := hs i _ _ hp1 hs1
    have hz : (List.zipWith (fun p s => (p, s.length)) strv strs)[i]? = some (strv[i], strs[i].length) := by
      rw [List.getElem?_zipWith, hp1, hs1]
    have ho := rv.obj2 i _ hz
    simp only [] at ho
    rw [if_pos hp0] at ho
    obtain ⟨po, hr, hpo⟩ := read_received t pr (rv.off2 i (by omega)) ho
    rw [readStringVecLoop, hr, hpo _ _ rfl]
    simp only []
    have hdr := block_drop (List.zipWith (fun p s => (p, s.length)) strv strs) i
    obtain ⟨hi', hz'⟩ := List.getElem?_eq_some_iff.mp hz
    rw [List.drop_eq_getElem_cons hi', hz', List.flatMap_cons] at hdr
    have hdesc := take8_desc strv[i] strs[i].length (decide (strv[i] ≠ 0))
      ((List.drop (i + 1) (List.zipWith (fun p s => (p, s.length)) strv strs)).flatMap
        (fun d => hidlStringBytes d.1 d.2 (decide (d.1 ≠ 0))))
    have ho1 := rv.obj1
    rw [hzl] at ho1
    obtain ⟨hq1, hq2⟩ := recv_desc t ho1 ho (by omega) hb (y := strv[i])
      (by rw [hdr]; exact hdesc.1) hp2 (by
        intro j x hj hkp
        obtain ⟨aj, lj, k, hx⟩ := rv.kids1 j x hj hkp
        refine ⟨aj, lj, _, hx, ?_⟩
        omega)
    rw [← List.drop_drop, hdr, hdesc.2] at hq2
    have hpl := t.place _ _ _ _ ho
    simp only [Option.isSome_some]
    rw [checkHidlString_ok (s := strs[i]) (off := 16 * i)
      (o := { data := addr (w0.offsets.length + 2 + i), size := strs[i].length + 1,
              parentOffset := 16 * i, hasParent := true }) t.sane.apart _ hq1 hq2
      (recv_leaf t ho hld (fun j x hj => rv.leaf j x i hj (by omega))) hsz (ptr_lt hpl.2) hsl
      ⟨rfl, rfl, rfl, rfl⟩]
    simp only []
    have hih := ih (i + 1) (by omega)
    rw [show w0.bytes.length + io.bufferObjSize * (2 + (i + 1)) =
        w0.bytes.length + io.bufferObjSize * (2 + i) + io.bufferObjSize by
      rw [show 2 + (i + 1) = 2 + i + 1 by omega, Nat.mul_succ]; omega,
      show w0.offsets.length + 2 + (i + 1) = w0.offsets.length + 2 + i + 1 by omega] at hih
    rw [hih]
    simp only []
    rw [List.drop_eq_getElem_cons hk]

/-- What is in the parcel. -/
theorem sent_strings {e : Env} {io : Io} {p : Protocol} {m : Mem} {pre post : List WOp}
    {w0 w1 w' : Writer} {addr : Nat → Nat} {dst : Mem} {b' : Bytes} {strv : List Nat}
    {strs : List Bytes}
    (h : Sent e io p m pre (.hidlStringVec strv) post w0 w1 w' addr dst b')
    (h0 : 0 ∉ strv) (hs : strv.map w0.mem.cstr = strs.map some)
    (hn : 16 * strs.length < 2 ^ 32) (hl : ∀ s ∈ strs, s.length + 1 < 2 ^ 32) :
    strv.length = strs.length ∧
    (∀ (k : Nat) p s, strv[k]? = some p → strs[k]? = some s →
      p ≠ 0 ∧ p < 256 ^ io.ptrSize ∧ s.length + 1 < 2 ^ 32 ∧ (0 : Byte) ∉ s ∧
      w'.mem.load p (s.length + 1) = some (s ++ [0])) ∧
    (∀ d ∈ List.zipWith (fun (p : Nat) (s : Bytes) => (p, s.length)) strv strs,
      d.1 < 256 ^ io.ptrSize ∧ d.2 + 1 < 2 ^ 32) ∧
    ∃ vec strings,
      Pushed w0 w1 ([.buf vec 16 none, .buf strings
        (16 * (List.zipWith (fun p s => (p, s.length)) strv strs).length)
          (some { index := w0.offsets.length, offset := 0 })] ++
        stringObjs (w0.offsets.length + 1) 0 (List.zipWith (fun p s => (p, s.length)) strv strs)) ∧
      w1.mem.load vec 16 = some (hidlVecBytes strings strs.length true) ∧
      strings < 256 ^ io.ptrSize ∧
      (strs ≠ [] → w'.mem.load strings (16 * strs.length) = some
        ((List.zipWith (fun p s => (p, s.length)) strv strs).flatMap
          (fun d => hidlStringBytes d.1 d.2 (decide (d.1 ≠ 0))))) := by
  obtain ⟨l, hml⟩ := runAll_mem post h.after h.still
  have hsane := h.sane
  have hpow := pow_ge io
  have hlen : strv.length = strs.length := by
    have := congrArg List.length hs
    simpa using this
  have hzl : (List.zipWith (fun p s => (p, s.length)) strv strs).length = strs.length := by
    simp [hlen]
  have hgm : ∃ l', w1.mem = l' ++ w0.mem := run_mem (op := .hidlStringVec strv) h.call (by intro m hc; cases hc)
  have hap : w1.mem.Apart := by
    have := hsane.apart
    rw [hml] at this
    exact (List.pairwise_append.mp this).2.1
  -- the strings themselves
  have hstr : ∀ (k : Nat) p s, strv[k]? = some p → strs[k]? = some s →
      p ≠ 0 ∧ p < 256 ^ io.ptrSize ∧ s.length + 1 < 2 ^ 32 ∧ (0 : Byte) ∉ s ∧
      w'.mem.load p (s.length + 1) = some (s ++ [0]) := by
    intro k p s hp1 hs1
    have hc : w0.mem.cstr p = some s := by
      have := congrArg (fun l => l[k]?) hs
      simp only [List.getElem?_map, hp1, hs1, Option.map_some, Option.some.injEq] at this
      exact this
    obtain ⟨hz, hld⟩ := cstr_load hc
    obtain ⟨l', hl'⟩ := hgm
    have hld1 : w1.mem.load p (s.length + 1) = some (s ++ [0]) := by
      rw [hl'] at hap ⊢
      exact load_extend hap (by omega) hld
    obtain ⟨hld', hp0, hpm⟩ := h.load (by omega) hld1
    exact ⟨hp0, by omega, hl s (List.mem_of_getElem? hs1), hz, hld'⟩
  have hds4 : ∀ d ∈ List.zipWith (fun (p : Nat) (s : Bytes) => (p, s.length)) strv strs,
      d.1 < 256 ^ io.ptrSize ∧ d.2 + 1 < 2 ^ 32 := by
    intro d hd
    obtain ⟨k, hk⟩ := List.mem_iff_getElem?.mp hd
    rw [List.getElem?_zipWith] at hk
    split at hk
    · rename_i p s h1 h2
      cases hk
      have := hstr k _ _ h1 h2
      exact ⟨this.2.1, this.2.2.1⟩
    · cases hk
  -- what was appended
  have hw : ∃ vec strings,
      Pushed w0 w1 ([.buf vec 16 none, .buf strings
        (16 * (List.zipWith (fun p s => (p, s.length)) strv strs).length)
          (some { index := w0.offsets.length, offset := 0 })] ++
        stringObjs (w0.offsets.length + 1) 0 (List.zipWith (fun p s => (p, s.length)) strv strs)) ∧
      w1.mem.load vec 16 = some (hidlVecBytes strings strs.length true) ∧
      strings < 256 ^ io.ptrSize ∧
      (strs ≠ [] → w'.mem.load strings (16 * strs.length) = some
        ((List.zipWith (fun p s => (p, s.length)) strv strs).flatMap
          (fun d => hidlStringBytes d.1 d.2 (decide (d.1 ≠ 0))))) := by
    by_cases hne : 0 < strv.length
    · obtain ⟨ds, hd, vec, strings, hw⟩ := appendHidlStringVec_pushed h.call hne
      have hds := hidlStringDescs_eq hd h0 hs hl
      rcases hw with ⟨hst, hm⟩ | ⟨hp, hm⟩
      · exfalso
        subst hst
        exact hsane.nonnull (0, _) (by
          rw [hml, hm]
          exact List.mem_append_right l (List.mem_cons_of_mem _ List.mem_cons_self)) rfl
      · subst hds
        have hbl := block_length (List.zipWith (fun p s => (p, s.length)) strv strs)
        rw [hzl] at hbl hm
        have hld : w1.mem.load strings (16 * strs.length) = some
            ((List.zipWith (fun p s => (p, s.length)) strv strs).flatMap
              (fun d => hidlStringBytes d.1 d.2 (decide (d.1 ≠ 0)))) := by
          rw [hm] at hap ⊢
          exact load_extend (l := [_]) hap (by omega) (load_block hbl (by omega))
        obtain ⟨hld', _, hsm⟩ := h.load (by omega) hld
        refine ⟨vec, strings, hp, ?_, by omega, fun _ => hld'⟩
        rw [hm]
        exact load_block (by simp [hidlVecBytes]) (by omega)
    · have hz : strv = [] := by cases strv with
        | nil => rfl
        | cons => simp at hne
      have hz2 : strs = [] := by cases strs with
        | nil => rfl
        | cons => rw [hz] at hlen; simp at hlen
      subst hz
      subst hz2
      have hc : appendHidlStringVec e w0 [] = .ok w1 := h.call
      simp only [appendHidlStringVec, hidlStringDescs, appendBufferObject_eq, bind, Except.bind,
        List.length_nil, Nat.lt_irrefl, if_false, ne_eq, not_true_eq_false] at hc
      cases hc
      refine ⟨_, 0, ⟨rfl, rfl, rfl, rfl, rfl⟩, ?_, by omega, fun hc => absurd rfl hc⟩
      exact load_block (by simp [hidlVecBytes]) (by omega)
  exact ⟨hlen, hstr, hds4, hw⟩

/-- C14: the strings `strs` of a vector appended with gbinder_writer_append_hidl_string_vec,
`strv` being their addresses. -/
theorem C14_round_trip {e : Env} {io : Io} {p : Protocol} {m : Mem} {pre post : List WOp}
    {w0 w1 w' : Writer} {addr : Nat → Nat} {dst : Mem} {b' : Bytes} {strv : List Nat}
    {strs : List Bytes}
    (h : Sent e io p m pre (.hidlStringVec strv) post w0 w1 w' addr dst b')
    (h0 : 0 ∉ strv) (hs : strv.map w0.mem.cstr = strs.map some)
    (hn : 16 * strs.length < 2 ^ 32) (hl : ∀ s ∈ strs, s.length + 1 < 2 ^ 32) (pr : Protocol) :
    readHidlStringVec dst (Reader.since io pr b' w'.offsets w0.bytes.length w0.offsets.length) =
      .ok (some strs) (Reader.since io pr b' w'.offsets w1.bytes.length w1.offsets.length) := by
  obtain ⟨objs, t⟩ := h.transfer
  have hpow := pow_ge io
  obtain ⟨hlen, hstr, hds4, hw⟩ := sent_strings h h0 hs hn hl
  have hzl : (List.zipWith (fun p s => (p, s.length)) strv strs).length = strs.length := by
    simp [hlen]
  obtain ⟨vec, strings, hp, hv, hs1, hb⟩ := hw
  obtain ⟨hv', _, hvm⟩ := h.load (by omega) hv
  have rv := h.vec hp (by omega) hs1 (by omega) hds4 t
  obtain ⟨po0, hr0, _⟩ := read_received t pr rv.off0 rv.obj0
  obtain ⟨po1, hr1, hpo1⟩ := read_received t pr rv.off1 rv.obj1
  have hpl0 := t.place _ _ _ _ rv.obj0
  have hpl1 := t.place _ _ _ _ rv.obj1
  unfold readHidlStringVec
  rw [hr0]
  simp only []
  rw [if_pos ⟨hpl0.1, trivial⟩]
  have hdesc : (hidlVecBytes strings strs.length true).take 8 = leBytes 8 strings ∧
      ((hidlVecBytes strings strs.length true).drop 8).take 4 = leBytes 4 strs.length := by
    have := take8_desc strings strs.length true []
    rw [List.append_nil] at this
    exact this
  obtain ⟨hq1, hq2⟩ := recv_desc t rv.obj0 rv.obj1 (by omega) hv' (y := strings)
    (by simpa using hdesc.1) hs1 (by
      intro j x hj hk
      obtain ⟨aj, lj, hx⟩ := rv.kids0 j x hj hk
      exact ⟨aj, lj, 0, hx, .inr (.inl rfl)⟩)
  rw [Nat.add_zero] at hq1 hq2
  rw [Nat.zero_add, hdesc.2] at hq2
  simp only [loadMem, hq1, hq2]
  have hp64 := ptr_lt hpl1.2
  rw [leVal_leBytes_of_lt (show strs.length < 256 ^ 4 by omega),
    leVal_leBytes_of_lt (show addr (w0.offsets.length + 1) < 256 ^ 8 by omega)]
  rw [if_neg (fun hc => hpl1.1 hc.1), hr1, hpo1 _ _ rfl]
  simp only []
  rw [if_pos ⟨trivial, rfl, trivial, by rw [hzl]⟩]
  cases hstrs : strs with
  | nil =>
    subst hstrs
    have h8 := rv.len1
    have h9 := rv.cnt1
    simp only [List.zipWith_nil_right, List.length_nil, Nat.add_zero, Nat.mul_two] at h8 h9
    rw [h8, h9]
    simp only [List.length_nil, readStringVecLoop, Nat.add_assoc]
  | cons x xs =>
    have := read_strings t rv hlen (hb (by rw [hstrs]; simp)) hstr pr strs.length 0 (by omega)
    simp only [Nat.add_zero, Nat.mul_two, List.drop_zero] at this
    rw [← hstrs, ← this, Nat.add_assoc, Nat.add_assoc]

/-- Two strings, the same one twice, in the middle of a parcel; an empty vector. -/
example : (∃ w0 w1 w' dst b', Sent Demo.env .io64 .hidl Demo.mem
      [.int32 7, .hidlString 16] (.hidlStringVec [16, 18, 16]) [.hidlVec 16 3 1, .bool true]
      w0 w1 w' demoAddr dst b') ∧
    (∃ w0 w1 w' dst b', Sent Demo.env .io32 .hidl Demo.mem
      [] (.hidlStringVec []) [.hidlStringVec [16]] w0 w1 w' demoAddr dst b') ∧
    [16, 18, 16].map Demo.mem.cstr = [[0x61, 0x62], [], [0x61, 0x62]].map some :=
  ⟨demoSent_sound (by decide +kernel), demoSent_sound (by decide +kernel), by decide⟩

end Gb.C14
