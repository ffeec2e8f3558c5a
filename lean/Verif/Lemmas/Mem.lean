import Verif.Lemmas.Safe
import Verif.Lemmas.Grows
/-
Memory of the sender and of the receiver.
-/
set_option autoImplicit false

namespace Gb
open Writer Reader

theorem load_cons {base a n : Nat} {blk : Bytes} {m : Mem} (hn : 0 < n) :
    Mem.load ((base, blk) :: m) a n =
      if base ≤ a ∧ a + n ≤ base + blk.length then some ((blk.drop (a - base)).take n)
      else m.load a n := by
  conv => lhs; unfold Mem.load
  rw [if_neg (by omega)]

theorem cstr_cons {base a : Nat} {blk : Bytes} {m : Mem} :
    Mem.cstr ((base, blk) :: m) a =
      if base ≤ a ∧ a < base + blk.length then
        (if (0 : Byte) ∈ blk.drop (a - base) then some ((blk.drop (a - base)).takeWhile (· ≠ 0))
         else none)
      else m.cstr a := by
  conv => lhs; unfold Mem.cstr

/-- More blocks make no difference for what has been there. -/
theorem load_extend {l m : Mem} {a n : Nat} {bs : Bytes} (hd : Mem.Apart (l ++ m)) (hn : 0 < n)
    (h : m.load a n = some bs) : Mem.load (l ++ m) a n = some bs := by
  induction l with
  | nil => exact h
  | cons x l ih =>
    obtain ⟨base, blk⟩ := x
    obtain ⟨h1, h2⟩ := List.pairwise_cons.mp hd
    have h3 := ih h2
    rw [List.cons_append, load_cons hn]
    split
    · rename_i hb
      have := load_none_of_disjoint (m := l ++ m) (a := a) (n := n) h1 (x := a) hb.1 (by simp only []; omega) (Nat.le_refl _)
        (by omega)
      rw [this] at h3
      cases h3
    · exact h3

theorem load_pos_mem {m : Mem} {a n : Nat} {bs : Bytes} (hn : 0 < n) (h : m.load a n = some bs) :
    ∃ blk ∈ m, blk.1 ≤ a ∧ a + n ≤ blk.1 + blk.2.length := by
  induction m with
  | nil => unfold Mem.load at h; rw [if_neg (by omega)] at h; cases h
  | cons x m ih =>
    obtain ⟨base, blk⟩ := x
    rw [load_cons hn] at h
    split at h
    · rename_i hb; exact ⟨_, List.mem_cons_self, hb⟩
    · obtain ⟨y, hy, hy'⟩ := ih h
      exact ⟨y, List.mem_cons_of_mem _ hy, hy'⟩

theorem load_in_space {m : Mem} {lim a n : Nat} {bs : Bytes} (hs : m.Sane lim) (hn : 0 < n)
    (h : m.load a n = some bs) : a ≠ 0 ∧ a + n ≤ lim := by
  obtain ⟨blk, hb, h1, h2⟩ := load_pos_mem hn h
  have := hs.nonnull blk hb
  have := hs.fits blk hb
  omega

/-- A part of what can be loaded. -/
theorem load_part {m : Mem} {a n k j : Nat} {bs : Bytes} (hd : m.Apart) (h : m.load a n = some bs)
    (hk : k + j ≤ n) : m.load (a + k) j = some ((bs.drop k).take j) := by
  by_cases hj : j = 0
  · subst hj; rw [load_zero_mem]; simp
  induction m with
  | nil => unfold Mem.load at h; rw [if_neg (by omega)] at h; cases h
  | cons x m ih =>
    obtain ⟨base, blk⟩ := x
    obtain ⟨h1, h2⟩ := List.pairwise_cons.mp hd
    rw [load_cons (by omega)] at h
    rw [load_cons (by omega)]
    split at h
    · rename_i hb
      rw [if_pos (by omega)]
      cases h
      rw [List.drop_take, List.take_take, List.drop_drop]
      rw [Nat.min_eq_left (by omega), show a + k - base = a - base + k by omega]
    · split
      · rename_i hb
        have := load_none_of_disjoint (m := m) (a := a) (n := n) h1 (x := a + k) hb.1 (by simp only []; omega)
          (by omega) (by omega)
        rw [this] at h
        cases h
      · exact ih h2 h

theorem takeWhile_split {l : Bytes} (h : (0 : Byte) ∈ l) :
    (0 : Byte) ∉ l.takeWhile (· ≠ 0) ∧
      l.take ((l.takeWhile (· ≠ 0)).length + 1) = l.takeWhile (· ≠ 0) ++ [0] ∧
      (l.takeWhile (· ≠ 0)).length < l.length := by
  induction l with
  | nil => cases h
  | cons x l ih =>
    by_cases hx : x = 0
    · subst hx; simp
    · have hm : (0 : Byte) ∈ l := by
        rcases List.mem_cons.mp h with h | h
        · exact absurd h.symm hx
        · exact h
      obtain ⟨h1, h2, h3⟩ := ih hm
      rw [List.takeWhile_cons_of_pos (by simpa using hx)]
      refine ⟨?_, ?_, by simp only [List.length_cons]; omega⟩
      · intro hc
        rcases List.mem_cons.mp hc with hc | hc
        · exact hx hc.symm
        · exact h1 hc
      · rw [List.length_cons, List.take_succ_cons, h2]; rfl

/-- A string and its terminator. -/
theorem cstr_load {m : Mem} {a : Nat} {s : Bytes} (h : m.cstr a = some s) :
    (0 : Byte) ∉ s ∧ m.load a (s.length + 1) = some (s ++ [0]) := by
  induction m with
  | nil => cases h
  | cons x m ih =>
    obtain ⟨base, blk⟩ := x
    rw [cstr_cons] at h
    rw [load_cons (by omega)]
    split at h
    · rename_i hb
      split at h
      · rename_i h0
        obtain ⟨h1, h2, h3⟩ := takeWhile_split h0
        cases h
        refine ⟨h1, ?_⟩
        rw [List.length_drop] at h3
        rw [if_pos (by omega), h2]
      · cases h
    · obtain ⟨h1, h2⟩ := ih h
      refine ⟨h1, ?_⟩
      rw [if_neg (by omega)]
      exact h2

theorem load_cstr {m : Mem} {a : Nat} {s : Bytes} (hd : m.Apart) (hs : (0 : Byte) ∉ s)
    (h : m.load a (s.length + 1) = some (s ++ [0])) : m.cstr a = some s := by
  have hz : m.load (a + s.length) 1 = some [0] := by
    rw [load_part hd h (by omega)]; simp
  obtain ⟨t, ht⟩ := cstr_some hd h hz
  obtain ⟨h1, h2⟩ := cstr_load ht
  -- both strings are what precedes the first NUL
  have key : ∀ (s t : Bytes), s.length ≤ t.length → (0 : Byte) ∉ t →
      m.load a (s.length + 1) = some (s ++ [0]) → m.load a (t.length + 1) = some (t ++ [0]) → s = t := by
    intro s t hl ht0 e1 e2
    have e3 := load_part (k := 0) (j := s.length + 1) hd e2 (by omega)
    rw [Nat.add_zero, e1] at e3
    simp only [List.drop_zero, Option.some.injEq] at e3
    by_cases hlt : s.length < t.length
    · rw [List.take_append_of_le_length (by omega)] at e3
      exact absurd (List.mem_of_mem_take (by rw [← e3]; simp)) ht0
    · have : t.length = s.length := by omega
      rw [← this, ← show (t ++ [0]).length = t.length + 1 by simp, List.take_length] at e3
      exact List.append_cancel_right e3
  rcases Nat.le_total s.length t.length with hl | hl
  · rw [ht, key s t hl h1 h h2]
  · rw [ht, key t s hl hs h2 h]

/-! ### The writer only adds blocks -/

/-- Only new blocks. -/
def MemGrows (w w' : Writer) : Prop := ∃ l, w'.mem = l ++ w.mem

theorem MemGrows.same {w w' : Writer} (h : w'.mem = w.mem) : MemGrows w w' := ⟨[], h⟩

theorem MemGrows.trans {w w' w'' : Writer} (h1 : MemGrows w w') (h2 : MemGrows w' w'') :
    MemGrows w w'' := by
  obtain ⟨l1, h1⟩ := h1
  obtain ⟨l2, h2⟩ := h2
  exact ⟨l2 ++ l1, by rw [h2, h1, List.append_assoc]⟩

theorem MemGrows.block (e : Env) (w : Writer) (d : Bytes) : MemGrows w (newBlock e w d).2 :=
  ⟨[_], rfl⟩

theorem withBytes_mem {w w' : Writer} {x : Except UB Bytes} (h : w.withBytes x = .ok w') :
    w'.mem = w.mem := by
  unfold withBytes at h
  obtain ⟨b, _, h⟩ := map_ok h
  rw [← h]

theorem memdup_mem {e : Env} {w w' : Writer} {b n a : Nat} (h : Writer.memdup e w b n = .ok (a, w')) :
    MemGrows w w' := by
  unfold Writer.memdup at h
  split at h
  · cases h; exact .same rfl
  · split at h
    · cases h; exact .block e w _
    · cases h

theorem appendFds_mem {e : Env} {w w' : Writer} {f : Option (Nat × Nat × Nat)} {par : Option Parent}
    (h : appendFds e w f par = .ok w') : w'.mem = w.mem := by
  cases f with
  | none => exact withBytes_mem h
  | some x =>
    obtain ⟨a, nf, ni⟩ := x
    exact (appendFds_grows (al := true) h).2

mutual
theorem appendField_mem {e : Env} {w w' : Writer} {obj : Nat} {par : Parent} :
    (f : WField) → appendField e w obj par f = .ok w' → w'.mem = w.mem
  | .ptr off size _, h => by
    simp only [appendField] at h
    obtain ⟨p, _, h⟩ := bind_ok h
    simp only [appendBufferObject_eq, bind, Except.bind] at h
    cases h
    rfl
  | .str off, h => by
    simp only [appendField] at h
    obtain ⟨p, _, h⟩ := bind_ok h
    obtain ⟨n, _, h⟩ := bind_ok h
    simp only [appendBufferObject_eq, bind, Except.bind] at h
    cases h
    rfl
  | .vec off esize fields, h => by
    simp only [appendField] at h
    obtain ⟨p, _, h⟩ := bind_ok h
    obtain ⟨n, _, h⟩ := bind_ok h
    simp only [appendBufferObject_eq, bind, Except.bind] at h
    have loop : ∀ (l : List Nat) (idx : Nat) (w1 w' : Writer), List.foldlM (m := Except UB) (fun w i =>
        appendFields e w (p + esize * i % 2 ^ 32)
          { index := idx, offset := esize * i % 2 ^ 32 } fields) w1 l = .ok w' →
        w'.mem = w1.mem := by
      intro l
      induction l with
      | nil => intro idx w1 w' h; cases h; rfl
      | cons i l ih =>
        intro idx w1 w' h
        rw [List.foldlM_cons] at h
        obtain ⟨w2, h2, h⟩ := bind_ok h
        rw [ih idx w2 w' h, appendFields_mem fields h2]
    rw [loop _ _ _ _ h]
    rfl
  | .vecNoType off, h => by
    simp only [appendField] at h
    obtain ⟨p, _, h⟩ := bind_ok h
    simp only [appendBufferObject_eq, bind, Except.bind] at h
    cases h
    rfl

theorem appendFields_mem {e : Env} {w w' : Writer} {obj : Nat} {par : Parent} :
    (fs : List WField) → appendFields e w obj par fs = .ok w' → w'.mem = w.mem
  | [], h => by simp only [appendFields] at h; cases h; rfl
  | f :: fs, h => by
    simp only [appendFields] at h
    obtain ⟨w1, h1, h⟩ := bind_ok h
    rw [appendFields_mem fs h, appendField_mem f h1]
end

theorem appendStruct_mem {e : Env} {w w' : Writer} {p n : Nat} {fs : List WField}
    {par : Option Parent} (h : appendStruct e w p n fs par = .ok w') : w'.mem = w.mem := by
  simp only [appendStruct, appendBufferObject_eq, bind, Except.bind] at h
  rw [appendFields_mem fs h]
  rfl

theorem appendHidlString_mem {e : Env} {w w' : Writer} {a : Nat}
    (h : appendHidlString e w a = .ok w') : MemGrows w w' := by
  obtain ⟨len, hm, h⟩ := bind_ok h
  by_cases ha : a = 0
  · simp only [appendBufferObject_eq, bind, Except.bind, ha, ne_eq, not_true_eq_false, if_false] at h
    cases h
    exact MemGrows.block e w _
  · simp only [appendBufferObject_eq, bind, Except.bind, ha, ne_eq, not_false_eq_true, if_true] at h
    cases h
    exact MemGrows.block e w _

/-- Every call except `memory`. -/
theorem run_mem {e : Env} {w w' : Writer} {op : WOp} (h : op.run e w = .ok w')
    (hm : ∀ m, op ≠ .memory m) : MemGrows w w' := by
  cases op <;> simp only [WOp.run] at h
  case memory m => exact absurd rfl (hm m)
  case bool => exact .same (withBytes_mem h)
  case int8 => exact .same (withBytes_mem h)
  case int16 => exact .same (withBytes_mem h)
  case int32 => exact .same (withBytes_mem h)
  case int64 => exact .same (withBytes_mem h)
  case string8 s =>
    cases s with
    | none => cases h; exact .same rfl
    | some s => exact .same (withBytes_mem h)
  case string16 => exact .same (withBytes_mem h)
  case utf16 => exact .same (withBytes_mem h)
  case bytes => exact .same (withBytes_mem h)
  case byteArray => exact .same (withBytes_mem h)
  case parcelable => exact .same (withBytes_mem h)
  case fd n d => rw [appendFd_eq] at h; cases h; exact .same rfl
  case fds a par =>
    split at h
    · exact .same (appendFds_mem h)
    · obtain ⟨nf, _, h⟩ := bind_ok h
      obtain ⟨ni, _, h⟩ := bind_ok h
      exact .same (appendFds_mem h)
  case bufferObject => rw [appendBufferObject_eq] at h; cases h; exact .same rfl
  case localObject o => rw [appendLocalObject_eq] at h; cases h; cases o <;> exact .same rfl
  case remoteObject o => rw [appendRemoteObject_eq] at h; cases h; cases o <;> exact .same rfl
  case hidlVec b c s =>
    obtain ⟨⟨buf, w1⟩, hm, h⟩ := bind_ok h
    simp only [appendBufferObject_eq, bind, Except.bind] at h
    have g1 := memdup_mem hm
    have g2 : MemGrows w (if buf ≠ 0 then addCleanup w1 (.free buf) else w1) := by
      split
      · exact g1.trans (.same rfl)
      · exact g1
    cases h
    exact g2.trans (MemGrows.block e _ _)
  case hidlString a => exact appendHidlString_mem h
  case hidlStringCopy a em =>
    unfold appendHidlStringCopy at h
    split at h
    · exact appendHidlString_mem h
    · split at h
      · cases h
      · exact appendHidlString_mem h
      · rename_i s _ _
        have g : MemGrows w (strdup e w s).2 := ⟨[_], rfl⟩
        exact g.trans (appendHidlString_mem h)
  case hidlStringVec l =>
    obtain ⟨ds, hd, h⟩ := bind_ok h
    by_cases hlen : 0 < l.length
    · simp only [appendBufferObject_eq, bind, Except.bind, hlen, if_true] at h
      generalize hn1 : newBlock e w _ = n1 at h
      have g1 : MemGrows w n1.2 := by rw [← hn1]; exact .block e w _
      generalize hn2 : newBlock e _ _ = n2 at h
      have g2 : MemGrows w n2.2 := by
        rw [← hn2]; exact g1.trans (.block e _ _)
      split at h
      · have := (appendStringBuffers_grows (al := true) h).2
        exact g2.trans (.same this)
      · cases h
        exact g2
    · simp only [appendBufferObject_eq, bind, Except.bind, hlen, if_false, ne_eq,
        not_true_eq_false] at h
      cases h
      exact .block e w _
  case struct p t par =>
    cases t with
    | none => simp only [appendBufferObject_eq] at h; cases h; exact .same rfl
    | some t => exact .same (appendStruct_mem h)
  case structVec p c t =>
    cases t with
    | none =>
      simp only [] at h
      have g := appendStruct_mem h
      exact ⟨[_], g⟩
    | some t =>
      simp only [appendStructVec] at h
      have g := appendStruct_mem h
      exact ⟨[_], g⟩
  case fmqDescriptor d =>
    obtain ⟨_, _, h⟩ := bind_ok h
    obtain ⟨_, _, h⟩ := bind_ok h
    obtain ⟨_, _, h⟩ := bind_ok h
    obtain ⟨_, _, h⟩ := bind_ok h
    obtain ⟨_, _, h⟩ := bind_ok h
    obtain ⟨_, _, h⟩ := bind_ok h
    obtain ⟨_, _, h⟩ := bind_ok h
    obtain ⟨⟨v, w1⟩, h1, h⟩ := bind_ok h
    obtain ⟨⟨f, w2⟩, h2, h⟩ := bind_ok h
    simp only [appendBufferObject_eq, bind, Except.bind] at h
    have g1 := (memdup_mem h1).trans (memdup_mem h2)
    refine MemGrows.trans ?_ (.same (appendFds_mem h))
    have g2 : MemGrows w (if v ≠ 0 then addCleanup (addCleanup w2 (.free f)) (.free v)
        else addCleanup w2 (.free f)) := by
      split
      · exact g1.trans (.same rfl)
      · exact g1.trans (.same rfl)
    exact g2.trans (MemGrows.block e _ _)
  case malloc d =>
    cases h
    unfold Writer.malloc
    split
    · exact .same rfl
    · exact .block e w _
  case memdup b n =>
    obtain ⟨x, h1, h⟩ := map_ok h
    subst h
    unfold dupMemory at h1
    split at h1
    · cases h1; exact .same rfl
    · split at h1
      · cases h1
        unfold Writer.malloc
        split
        · exact .same rfl
        · exact .block e w _
      · cases h1
  case addCleanup f p => cases h; split <;> exact .same rfl
  case overwriteInt32 off v =>
    unfold overwriteInt32 at h
    split at h
    · exact .same (withBytes_mem h)
    · cases h; exact .same rfl

theorem runAll_mem {e : Env} (ops : List WOp) : ∀ {w w' : Writer}, WOp.runAll e w ops = .ok w' →
    (∀ m, WOp.memory m ∉ ops) → MemGrows w w' := by
  induction ops with
  | nil => intro w w' h _; cases h; exact .same rfl
  | cons op ops ih =>
    intro w w' h hm
    obtain ⟨w1, h1, h⟩ := bind_ok h
    refine (run_mem h1 ?_).trans (ih h (fun m hc => hm m (List.mem_cons_of_mem _ hc)))
    intro m hc
    exact hm m (by rw [hc]; exact List.mem_cons_self)

end Gb
