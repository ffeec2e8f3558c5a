import Verif.Spec.ReaderOps
import Verif.Lemmas.Reader
/-
Invariants of the reader.
-/
set_option autoImplicit false

namespace Gb
namespace Reader

/-- The state of a reader covering its whole buffer, positioned inside. -/
structure Inside (r : Reader) : Prop where
  fin_eq : r.fin = r.buf.length
  start_le : r.start ≤ r.pos
  pos_le : r.pos ≤ r.fin

/-- `r'` is `r` moved forward inside the buffer (by whole words if `al`). -/
structure Keeps (al : Bool) (r r' : Reader) : Prop where
  buf : r'.buf = r.buf
  start : r'.start = r.start
  fin : r'.fin = r.fin
  io : r'.io = r.io
  proto : r'.proto = r.proto
  objects : ∀ o ∈ r'.objects, o ∈ r.objects
  le : r.pos ≤ r'.pos
  inside : r'.pos ≤ r'.fin
  aligned : al = true → (r'.pos - r.pos) % 4 = 0

theorem Keeps.refl {al : Bool} {r : Reader} (h : r.Inside) : Keeps al r r :=
  ⟨rfl, rfl, rfl, rfl, rfl, fun _ h => h, Nat.le_refl _, h.pos_le, fun _ => by simp⟩

theorem Keeps.trans {al : Bool} {a b c : Reader} (h1 : Keeps al a b) (h2 : Keeps al b c) :
    Keeps al a c :=
  ⟨h2.buf.trans h1.buf, h2.start.trans h1.start, h2.fin.trans h1.fin, h2.io.trans h1.io,
   h2.proto.trans h1.proto, fun o ho => h1.objects o (h2.objects o ho),
   Nat.le_trans h1.le h2.le, h2.inside, fun h => by
     have := h1.aligned h; have := h2.aligned h; have := h1.le; have := h2.le; omega⟩

theorem Keeps.insideOf {al : Bool} {a b : Reader} (h : Keeps al a b) (hi : a.Inside) : b.Inside :=
  ⟨by rw [h.fin, h.buf]; exact hi.fin_eq,
   by rw [h.start]; exact Nat.le_trans hi.start_le h.le, h.inside⟩

theorem Keeps.mono {al : Bool} {a b : Reader} (h : Keeps true a b) : Keeps al a b :=
  { h with aligned := fun _ => h.aligned rfl }

theorem keeps_advance {al : Bool} {r : Reader} {n : Nat} (h : r.pos + n ≤ r.fin)
    (ha : al = true → n % 4 = 0) : Keeps al r (r.advance n) :=
  ⟨rfl, rfl, rfl, rfl, rfl, fun _ h => h, by simp [advance], h, fun h => by
    have := ha h; simp [advance]; omega⟩

theorem keeps_eat {al : Bool} {r : Reader} {n : Nat} (h : r.pos + n ≤ r.fin)
    (ha : al = true → n % 4 = 0) : Keeps al r (r.eatObject n) :=
  ⟨rfl, rfl, rfl, rfl, rfl, fun _ h => List.mem_of_mem_tail h, by simp [eatObject], h, fun h => by
    have := ha h; simp [eatObject]; omega⟩

/-- An outcome is harmless: the reader stays inside; the only undefined behaviour possible is
signed overflow, and only if `ovf`. -/
def Safe {α : Type} (al ovf : Bool) (r : Reader) (x : Res α) : Prop :=
  match x with
  | .ok _ r' => Keeps al r r'
  | .fail r' => Keeps al r r'
  | .ub k => k = .overflow ∧ ovf = true

theorem Safe.done {α : Type} {al ovf : Bool} {r : Reader} {x : Res α} (h : Safe al ovf r x) :
    Safe al ovf r x.done := by
  cases x <;> exact h

theorem Safe.map {α β : Type} {al ovf : Bool} {r : Reader} {x : Res α} {f : α → β}
    (h : Safe al ovf r x) : Safe al ovf r (x.map f) := by
  cases x <;> exact h

theorem Safe.mono {α : Type} {al ovf : Bool} {r : Reader} {x : Res α} (h : Safe true false r x) :
    Safe al ovf r x := by
  cases x with
  | ok a r' => exact Keeps.mono h
  | fail r' => exact Keeps.mono h
  | ub k => exact absurd h.2 (by simp)

theorem Safe.trans {α : Type} {al ovf : Bool} {r r1 : Reader} {x : Res α} (h1 : Keeps al r r1)
    (h : Safe al ovf r1 x) : Safe al ovf r x := by
  cases x with
  | ok a r' => exact h1.trans h
  | fail r' => exact h1.trans h
  | ub k => exact h

theorem safe_deref {α : Type} {al ovf : Bool} {r : Reader} {off n : Nat} {k : Bytes → Res α}
    (h : off + n ≤ r.buf.length) (hk : ∀ bs : Bytes, bs.length = n → Safe al ovf r (k bs)) :
    Safe al ovf r (r.deref off n k) := by
  unfold deref
  have := slice_isSome h
  split
  · rename_i bs hs
    exact hk bs (length_of_slice hs)
  · rename_i hs; rw [hs] at this; cases this

theorem safe_fail {α : Type} {al ovf : Bool} {r : Reader} (h : r.Inside) :
    Safe (α := α) al ovf r (.fail r) := Keeps.refl h

theorem canRead_le {r : Reader} {n : Nat} (h : r.Inside) (hc : r.canRead n = true) :
    r.pos + n ≤ r.fin := by
  have := h.pos_le
  simp only [canRead, remaining, if_pos this, decide_eq_true_eq] at hc
  omega

theorem safe_readWord {r : Reader} (h : r.Inside) (n : Nat) (hn : n % 4 = 0) :
    Safe true false r (r.readWord n) := by
  unfold readWord
  split
  · rename_i hc
    have := canRead_le h hc
    have := h.fin_eq
    refine safe_deref (by omega) fun bs _ => keeps_advance (by omega) (fun _ => hn)
  · exact safe_fail h

theorem safe_readByte {r : Reader} (h : r.Inside) (al : Bool) (hal : al = false) :
    Safe al false r r.readByte := by
  unfold readByte
  split
  · have := h.fin_eq
    refine safe_deref (by omega) fun bs _ => keeps_advance (by omega) (fun h => by simp [hal] at h)
  · exact safe_fail h

theorem safe_readUInt8 {r : Reader} (h : r.Inside) : Safe true false r r.readUInt8 := by
  unfold readUInt8
  split
  · rename_i hc
    have := canRead_le h hc
    have := h.fin_eq
    refine safe_deref (by omega) fun bs _ => keeps_advance (by omega) (fun _ => rfl)
  · exact safe_fail h

theorem safe_readUInt16 {r : Reader} (h : r.Inside) : Safe true false r r.readUInt16 := by
  unfold readUInt16
  split
  · rename_i hc
    have := canRead_le h hc
    have := h.fin_eq
    refine safe_deref (by omega) fun bs _ => keeps_advance (by omega) (fun _ => rfl)
  · exact safe_fail h

theorem safe_readString8 {r : Reader} (h : r.Inside) : Safe true false r r.readString8 := by
  have hf := h.fin_eq
  unfold readString8
  rw [if_pos (Or.inl (by omega))]
  simp only []
  split
  · split
    · have := le_align4 (scanNul r.buf r.pos r.fin + 1)
      have := align4_mod (scanNul r.buf r.pos r.fin + 1)
      exact safe_deref (by omega) fun bs _ => keeps_advance (by omega) (fun _ => by omega)
    · exact safe_fail h
  · exact safe_fail h

theorem safe_readNullableString8 {r : Reader} (h : r.Inside) :
    Safe true true r r.readNullableString8 := by
  have hf := h.fin_eq
  unfold readNullableString8
  split
  · refine safe_deref (by omega) fun bs _ => ?_
    simp only []
    split
    · exact keeps_advance (by omega) (fun _ => rfl)
    · split
      · split
        · split
          · have := le_align4 (leVal bs + 1)
            have := align4_mod (leVal bs + 1)
            refine safe_deref (by omega) fun s _ => ?_
            split
            · exact keeps_advance (by omega) (fun _ => by omega)
            · exact safe_fail h
          · exact safe_fail h
        · exact ⟨rfl, rfl⟩
      · exact safe_fail h
  · exact safe_fail h

theorem safe_readNullableUtf16 {r : Reader} (h : r.Inside) :
    Safe true true r r.readNullableUtf16 := by
  have hf := h.fin_eq
  unfold readNullableUtf16
  split
  · refine safe_deref (by omega) fun bs _ => ?_
    simp only []
    split
    · exact keeps_advance (by omega) (fun _ => rfl)
    · split
      · split
        · split
          · have := le_align4 ((leVal bs + 1) * 2)
            have := align4_mod ((leVal bs + 1) * 2)
            refine safe_deref (by omega) fun s _ => ?_
            split
            · exact keeps_advance (by omega) (fun _ => by omega)
            · exact safe_fail h
          · exact safe_fail h
        · exact ⟨rfl, rfl⟩
      · exact safe_fail h
  · exact safe_fail h

theorem safe_readNullableString16 {r : Reader} (h : r.Inside) :
    Safe true true r r.readNullableString16 := (safe_readNullableUtf16 h).map

theorem safe_readString16 {r : Reader} (h : r.Inside) : Safe true true r r.readString16 := by
  have := safe_readNullableString16 h
  unfold readString16
  split <;> simp_all [Safe]

theorem safe_readUtf16 {r : Reader} (h : r.Inside) : Safe true true r r.readUtf16 := by
  have := safe_readNullableUtf16 h
  unfold readUtf16
  split <;> simp_all [Safe]

/-- Byte arrays: safe only if the unread part is a whole number of words. -/
theorem safe_readByteArray {r : Reader} (h : r.Inside) (ha : (r.fin - r.pos) % 4 = 0) :
    Safe true false r r.readByteArray := by
  have hf := h.fin_eq
  have hp := h.pos_le
  unfold readByteArray
  split
  · rename_i hc
    have := canRead_le h hc
    refine safe_deref (by omega) fun bs _ => ?_
    simp only []
    split
    · exact keeps_advance (by omega) (fun _ => rfl)
    · split
      · rename_i hc2
        have := canRead_le h hc2
        have := align4_mod (leVal bs)
        have := align4_lt (leVal bs)
        exact safe_deref (by omega) fun d _ => keeps_advance (by omega) (fun _ => by omega)
      · exact safe_fail h
  · exact safe_fail h

theorem safe_readParcelable {r : Reader} (h : r.Inside) (al : Bool) (hal : al = false) :
    Safe al false r r.readParcelable := by
  unfold readParcelable
  have h1 := safe_readWord h 4 rfl
  unfold readUInt32
  split
  · rename_i heq; rw [heq] at h1; exact absurd h1.2 (by simp)
  · rename_i heq; rw [heq] at h1; exact Keeps.mono h1
  · rename_i v r1 heq
    rw [heq] at h1
    have hr1 : r1.Inside := Keeps.insideOf h1 h
    split
    · exact Keeps.mono h1
    · refine Safe.trans (Keeps.mono h1) ?_
      have h2 := safe_readWord hr1 4 rfl
      split
      · rename_i heq; rw [heq] at h2; exact absurd h2.2 (by simp)
      · rename_i heq; rw [heq] at h2; exact Keeps.mono h2
      · rename_i sz r2 heq
        rw [heq] at h2
        have hr2 : r2.Inside := Keeps.insideOf h2 hr1
        refine Safe.trans (Keeps.mono h2) ?_
        have := hr2.fin_eq
        split
        · simp only []
          split
          · exact safe_deref (by omega) fun d _ =>
              keeps_advance (by omega) (fun h => by simp [hal] at h)
          · exact Keeps.refl hr2
        · exact Keeps.refl hr2

theorem flatSize_ge (io : Io) : 16 ≤ io.flatSize := by cases io <;> decide

theorem safe_readFd {r : Reader} (h : r.Inside) : Safe true false r r.readFd := by
  have hf := h.fin_eq
  have hp := h.pos_le
  have hs := flatSize_ge r.io
  unfold readFd
  split
  · split
    · rename_i hc
      have : r.pos + r.io.flatSize ≤ r.fin := by
        simp only [bytesRemaining, remaining, if_pos hp] at hc
        omega
      refine safe_deref (by omega) fun ty _ => ?_
      split
      · refine safe_deref (by omega) fun d _ => keeps_eat (by omega) (fun _ => ?_)
        cases r.io <;> rfl
      · exact safe_fail h
    · exact safe_fail h
  · exact safe_fail h

/-- Objects: safe only if the protocol has no extra bytes. -/
theorem safe_readNullableObject {r : Reader} (h : r.Inside) (hx : r.proto.extra = 0) :
    Safe true false r r.readNullableObject := by
  have hf := h.fin_eq
  have hp := h.pos_le
  have hs := flatSize_ge r.io
  have hm : (r.io.flatSize + r.proto.extra) % 4 = 0 := by rw [hx]; cases r.io <;> rfl
  have hps : 8 + r.io.ptrSize ≤ r.io.flatSize := by cases r.io <;> decide
  unfold readNullableObject
  split
  · split
    · rename_i hc
      have : r.pos + r.io.flatSize ≤ r.fin := by
        simp only [bytesRemaining, remaining, if_pos hp] at hc
        omega
      refine safe_deref (by omega) fun ty _ => ?_
      split
      · exact safe_deref (by omega) fun d _ => keeps_eat (by omega) (fun _ => hm)
      · split
        · refine safe_deref (by omega) fun d _ => ?_
          split
          · exact keeps_eat (by omega) (fun _ => hm)
          · exact safe_fail h
        · exact safe_fail h
    · exact safe_fail h
  · exact safe_fail h

theorem decodeBufferObject_some {io : Io} {b : Bytes} {off : Nat} {o : BufferObj}
    (h : decodeBufferObject io b off = some o) : off + io.bufferObjSize ≤ b.length := by
  have : 0 < io.bufferObjSize := by cases io <;> decide
  unfold decodeBufferObject at h
  simp only [] at h
  split at h
  · split at h
    · omega
    · cases h
  · rw [if_neg (by omega)] at h
    cases h

theorem safe_readBufferObject {r : Reader} (h : r.Inside) :
    Safe true false r r.readBufferObject := by
  unfold readBufferObject
  split
  · split
    · rename_i o ho
      have := decodeBufferObject_some ho
      have := h.fin_eq
      refine keeps_eat (by omega) (fun _ => ?_)
      cases r.io <;> rfl
    · exact safe_fail h
  · exact safe_fail h

/-- Where the object comes from. -/
theorem readBufferObject_ok {r r' : Reader} {o : BufferObj} (h : r.readBufferObject = .ok o r') :
    r.pos ∈ r.objects ∧ decodeBufferObject r.io r.buf r.pos = some o := by
  unfold readBufferObject at h
  split at h
  · rename_i hc
    split at h
    · rename_i o' ho
      cases h
      refine ⟨?_, ho⟩
      simp only [canReadObject, Bool.and_eq_true] at hc
      obtain ⟨_, hc⟩ := hc
      split at hc
      · rename_i heq
        simp only [beq_iff_eq] at hc
        rw [heq, hc]; simp
      · cases hc
    · cases h
  · cases h

/-! ### HIDL reads -/

/-- Every buffer object at a pending object offset refers to mapped memory: binder_transaction in
the kernel has copied the buffer there. -/
def Delivered (m : Mem) (r : Reader) : Prop :=
  ∀ off ∈ r.objects, ∀ o, decodeBufferObject r.io r.buf off = some o →
    (m.load o.data o.size).isSome = true

/-- No buffer object is empty. -/
def NoEmptyBuffers (r : Reader) : Prop :=
  ∀ off ∈ r.objects, ∀ o, decodeBufferObject r.io r.buf off = some o → o.size ≠ 0

instance (m : Mem) (r : Reader) : Decidable (Delivered m r) :=
  decidable_of_iff (∀ off ∈ r.objects, (match decodeBufferObject r.io r.buf off with
    | some o => (m.load o.data o.size).isSome
    | none => true) = true) (by
      refine forall_congr' fun off => forall_congr' fun ho => ?_
      split <;> simp_all)

instance (r : Reader) : Decidable (NoEmptyBuffers r) :=
  decidable_of_iff (∀ off ∈ r.objects, (match decodeBufferObject r.io r.buf off with
    | some o => o.size != 0
    | none => true) = true) (by
      refine forall_congr' fun off => forall_congr' fun ho => ?_
      split <;> simp_all)

theorem Delivered.keeps {m : Mem} {al : Bool} {r r' : Reader} (h : Delivered m r)
    (hk : Keeps al r r') : Delivered m r' := by
  intro off ho o hd
  rw [hk.io, hk.buf] at hd
  exact h off (hk.objects off ho) o hd

theorem NoEmptyBuffers.keeps {al : Bool} {r r' : Reader} (h : NoEmptyBuffers r)
    (hk : Keeps al r r') : NoEmptyBuffers r' := by
  intro off ho o hd
  rw [hk.io, hk.buf] at hd
  exact h off (hk.objects off ho) o hd

theorem load_sub {m : Mem} {a n b k : Nat} (h : (m.load a n).isSome = true) (h1 : a ≤ b)
    (h2 : b + k ≤ a + n) : ∃ bs, m.load b k = some bs ∧ bs.length = k := by
  by_cases hk : k = 0
  · subst hk
    refine ⟨[], ?_, rfl⟩
    unfold Mem.load; simp
  · induction m with
    | nil =>
      unfold Mem.load at h
      rw [if_neg (by omega)] at h
      cases h
    | cons x m ih =>
      obtain ⟨base, blk⟩ := x
      unfold Mem.load at h ⊢
      rw [if_neg (by omega)] at h ⊢
      simp only [] at h ⊢
      split
      · refine ⟨_, rfl, ?_⟩
        simp only [List.length_take, List.length_drop]
        omega
      · rename_i hb
        split at h
        · omega
        · exact ih h

theorem safe_loadMem {α : Type} {al ovf : Bool} {m : Mem} {r : Reader} {a n b k : Nat}
    {f : Bytes → Res α} (h : (m.load a n).isSome = true) (h1 : a ≤ b) (h2 : b + k ≤ a + n)
    (hf : ∀ bs : Bytes, bs.length = k → m.load b k = some bs → Safe al ovf r (f bs)) :
    Safe al ovf r (loadMem m b k f) := by
  obtain ⟨bs, hb, hl⟩ := load_sub h h1 h2
  simp only [loadMem, hb]
  exact hf bs hl hb

theorem load_zero_mem {m : Mem} {a : Nat} : m.load a 0 = some [] := by
  unfold Mem.load; simp

theorem load_none_of_disjoint {m : Mem} {base k a n x : Nat}
    (hm : ∀ y ∈ m, disjoint base k y.1 y.2.length) (h1 : base ≤ x) (h2 : x < base + k)
    (h3 : a ≤ x) (h4 : x < a + n) : m.load a n = none := by
  induction m with
  | nil => unfold Mem.load; rw [if_neg (by omega)]
  | cons y m ih =>
    unfold Mem.load
    rw [if_neg (by omega)]
    obtain ⟨b2, k2⟩ := y
    have h5 := hm (b2, k2) (by simp)
    simp only [disjoint] at h5
    simp only []
    rw [if_neg (by omega)]
    exact ih (fun y hy' => hm y (by simp [hy']))

theorem cstr_some {m : Mem} (hd : m.Apart) {a len : Nat} {bs : Bytes}
    (h : m.load a (len + 1) = some bs) (hz : m.load (a + len) 1 = some [0]) :
    ∃ s, m.cstr a = some s := by
  induction m with
  | nil =>
    unfold Mem.load at h
    rw [if_neg (by omega)] at h
    cases h
  | cons x m ih =>
    obtain ⟨base, blk⟩ := x
    unfold Mem.load at h hz
    rw [if_neg (by omega)] at h hz
    simp only [] at h hz
    obtain ⟨hd1, hd2⟩ := List.pairwise_cons.mp hd
    simp only [] at hd1
    unfold Mem.cstr
    simp only []
    split at h
    · rename_i hin2
      rw [if_pos (by omega)] at hz ⊢
      simp only [Option.some.injEq] at hz
      have hmem : (0 : Byte) ∈ blk.drop (a - base) := by
        have h1 : (0 : Byte) ∈ (blk.drop (a + len - base)).take 1 := by rw [hz]; simp
        have h2 := List.mem_of_mem_take h1
        rw [show a + len - base = (a - base) + len by omega, ← List.drop_drop] at h2
        exact List.mem_of_mem_drop h2
      rw [if_pos hmem]
      exact ⟨_, rfl⟩
    · split
      · rw [load_none_of_disjoint hd1 (x := a) (by omega) (by omega) (by omega) (by omega)] at h
        cases h
      · split at hz
        · rw [load_none_of_disjoint hd1 (x := a + len) (by omega) (by omega) (by omega)
            (by omega)] at h
          cases h
        · exact ih hd2 h hz

theorem readBufferObject_cases {r : Reader} (hi : r.Inside) :
    (∃ r1, r.readBufferObject = .fail r1 ∧ Keeps true r r1) ∨
    (∃ o r1, r.readBufferObject = .ok o r1 ∧ Keeps true r r1 ∧
      r.pos ∈ r.objects ∧ decodeBufferObject r.io r.buf r.pos = some o) := by
  have h := safe_readBufferObject hi
  cases hx : r.readBufferObject with
  | ok o r1 =>
    rw [hx] at h
    exact Or.inr ⟨o, r1, rfl, h, readBufferObject_ok hx⟩
  | fail r1 => rw [hx] at h; exact Or.inl ⟨r1, rfl, h⟩
  | ub k => rw [hx] at h; exact absurd h.2 (by simp)

theorem safe_readHidlStruct {r : Reader} (h : r.Inside) (n : Nat) :
    Safe true false r (r.readHidlStruct n) := by
  unfold readHidlStruct
  rcases readBufferObject_cases h with ⟨r1, hx, hk⟩ | ⟨o, r1, hx, hk, _⟩
  · rw [hx]; exact hk
  · rw [hx]
    simp only []
    split <;> exact hk

theorem safe_readHidlVec {m : Mem} {r : Reader} (h : r.Inside) (hd : Delivered m r) :
    Safe true false r (readHidlVec m r) := by
  unfold readHidlVec
  rcases readBufferObject_cases h with ⟨r1, hx, hk⟩ | ⟨o, r1, hx, hk, hp, ho⟩
  · rw [hx]; exact hk
  · rw [hx]
    simp only []
    have hl := hd _ hp _ ho
    split
    · rename_i hc
      rw [hc.2] at hl
      refine safe_loadMem hl (Nat.le_refl _) (by omega) fun p _ _ => ?_
      refine safe_loadMem hl (by omega) (by omega) fun c _ _ => ?_
      split
      · rcases readBufferObject_cases (hk.insideOf h) with ⟨r2, hx2, hk2⟩ | ⟨o2, r2, hx2, hk2, _⟩
        · rw [hx2]; exact hk.trans hk2
        · rw [hx2]
          simp only []
          split <;> exact hk.trans hk2
      · split <;> exact hk
    · exact hk

theorem safe_readHidlVec1 {m : Mem} {r : Reader} (h : r.Inside) (hd : Delivered m r) (n : Nat) :
    Safe true false r (readHidlVec1 m r n) := by
  have := safe_readHidlVec h hd
  unfold readHidlVec1
  exact this.map

theorem safe_checkHidlString {m : Mem} (hm : m.Apart) {r : Reader} (h : r.Inside)
    {desc a n expected : Nat} {o : BufferObj} (hl : (m.load a n).isSome = true) (h1 : a ≤ desc)
    (h2 : desc + 16 ≤ a + n) (ho : (m.load o.data o.size).isSome = true) (hz : o.size ≠ 0) :
    Safe true false r (checkHidlString m desc expected o r) := by
  unfold checkHidlString
  split
  · refine safe_loadMem hl h1 (by omega) fun p _ _ => ?_
    refine safe_loadMem hl (by omega) (by omega) fun l hlen _ => ?_
    simp only []
    split
    · rename_i hc
      have hlt : leVal l < 2 ^ 32 := by
        have := leVal_lt l
        rw [hlen] at this
        have e : (256 : Nat) ^ 4 = 2 ^ 32 := by decide
        omega
      have hsz : o.size = leVal l + 1 := by
        have := hc.2
        omega
      rw [hc.1, hsz] at ho
      refine safe_loadMem ho (by omega) (by omega) fun z _ hz0 => ?_
      split
      · rename_i hz1
        subst hz1
        obtain ⟨bs, hbs⟩ := Option.isSome_iff_exists.mp ho
        obtain ⟨s, hs⟩ := cstr_some hm hbs hz0
        rw [hs]
        exact Keeps.refl h
      · exact Keeps.refl h
    · exact Keeps.refl h
  · exact Keeps.refl h

theorem safe_readHidlString {m : Mem} (hm : m.Apart) {r : Reader} (h : r.Inside)
    (hd : Delivered m r) (hn : NoEmptyBuffers r) : Safe true false r (readHidlString m r) := by
  unfold readHidlString
  rcases readBufferObject_cases h with ⟨r1, hx, hk⟩ | ⟨o, r1, hx, hk, hp, ho⟩
  · rw [hx]; exact hk
  · rw [hx]
    simp only []
    have hl := hd _ hp _ ho
    split
    · rename_i hc
      rw [hc.2] at hl
      rcases readBufferObject_cases (hk.insideOf h) with
        ⟨r2, hx2, hk2⟩ | ⟨o2, r2, hx2, hk2, hp2, ho2⟩
      · rw [hx2]; exact hk.trans hk2
      · rw [hx2]
        refine Safe.trans (hk.trans hk2) ?_
        exact safe_checkHidlString hm (hk2.insideOf (hk.insideOf h)) hl (Nat.le_refl _)
          (by omega) (hd.keeps hk _ hp2 _ ho2) (hn.keeps hk _ hp2 _ ho2)
    · exact hk

theorem safe_readStringVecLoop {m : Mem} (hm : m.Apart) {strings size : Nat}
    (hl : (m.load strings size).isSome = true) (n i : Nat) (hsz : 16 * (i + n) ≤ size)
    {r : Reader} (h : r.Inside) (hd : Delivered m r) (hn : NoEmptyBuffers r) :
    Safe true false r (readStringVecLoop m strings i n r) := by
  induction n generalizing i r with
  | zero => exact Keeps.refl h
  | succ n ih =>
    unfold readStringVecLoop
    rcases readBufferObject_cases h with ⟨r1, hx, hk⟩ | ⟨o, r1, hx, hk, hp, ho⟩
    · rw [hx]; exact hk
    · rw [hx]
      simp only []
      have h1 := hk.insideOf h
      have hs := safe_checkHidlString (expected := 16 * i) hm h1 hl
        (desc := strings + 16 * i) (by omega) (by omega) (hd _ hp _ ho) (hn _ hp _ ho)
      split
      · rename_i heq; rw [heq] at hs; exact hs
      · rename_i heq; rw [heq] at hs; exact hk.trans hs
      · rename_i heq; rw [heq] at hs; exact hk.trans hs
      · rename_i s r2 heq
        rw [heq] at hs
        have hk2 := hk.trans hs
        have ih' := ih (i + 1) (by omega) (Keeps.insideOf hs h1) (hd.keeps hk2) (hn.keeps hk2)
        have ih2 := Safe.trans hk2 ih'
        split
        · rename_i heq2; rw [heq2] at ih2; exact ih2
        · exact ih2

theorem safe_readHidlStringVec {m : Mem} (hm : m.Apart) {r : Reader} (h : r.Inside)
    (hd : Delivered m r) (hn : NoEmptyBuffers r) : Safe true false r (readHidlStringVec m r) := by
  unfold readHidlStringVec
  rcases readBufferObject_cases h with ⟨r1, hx, hk⟩ | ⟨o, r1, hx, hk, hp, ho⟩
  · rw [hx]; exact hk
  · rw [hx]
    simp only []
    have hl := hd _ hp _ ho
    split
    · rename_i hc
      rw [hc.2] at hl
      refine safe_loadMem hl (by omega) (by omega) fun p _ _ => ?_
      refine safe_loadMem hl (by omega) (by omega) fun c _ _ => ?_
      split
      · exact hk
      · have h1 := hk.insideOf h
        rcases readBufferObject_cases h1 with ⟨r2, hx2, hk2⟩ | ⟨o2, r2, hx2, hk2, hp2, ho2⟩
        · rw [hx2]; exact hk.trans hk2
        · rw [hx2]
          simp only []
          split
          · rename_i hc2
            have hl2 := hd.keeps hk _ hp2 _ ho2
            refine Safe.trans (hk.trans hk2) ?_
            exact safe_readStringVecLoop hm hl2 _ 0 (by omega) (hk2.insideOf h1)
              (hd.keeps (hk.trans hk2)) (hn.keeps (hk.trans hk2))
          · exact hk.trans hk2
    · exact hk

end Reader
end Gb
