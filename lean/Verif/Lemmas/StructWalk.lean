import Verif.Spec.Structs
import Verif.Lemmas.AndroidHidl
/-
HIDL structures which have been received: what Android reads is what's in memory.
-/
set_option autoImplicit false

namespace Gb.C84
open Writer Reader Kernel Android

theorem skips_add (a b : Nat) (r : Reader) : Reader.skips (a + b) r = (Reader.skips a r).bind (Reader.skips b) := by
  induction b with
  | zero => cases h : Reader.skips a r <;> simp [Reader.skips, h]
  | succ b ih =>
    rw [← Nat.add_assoc, Reader.skips, ih]
    cases h : Reader.skips a r <;> simp [Reader.skips]

/-- What's at `q` is `k` buffers after what's at `p`. -/
def Skip (c : Parcel) (pr : Protocol) (p q k : Nat) : Prop :=
  ∀ i, (∀ b', c.buffer p = some b' → c.offs[i]? = some p) →
    Reader.skips k (Reader.since c.io pr c.data c.offs p i) = some (Reader.since c.io pr c.data c.offs q (i + k)) ∧
    ∀ b', c.buffer q = some b' → c.offs[i + k]? = some q

theorem Skip.refl {c : Parcel} {pr : Protocol} {p : Nat} : Skip c pr p p 0 := fun _ h => ⟨rfl, h⟩

theorem Skip.trans {c : Parcel} {pr : Protocol} {p q r k l : Nat} (h1 : Skip c pr p q k) (h2 : Skip c pr q r l) :
    Skip c pr p r (k + l) := by
  intro i hi
  obtain ⟨a1, a2⟩ := h1 i hi
  obtain ⟨b1, b2⟩ := h2 (i + k) a2
  rw [skips_add, a1, Option.bind_some, b1, ← Nat.add_assoc]
  exact ⟨rfl, b2⟩

theorem Skip.one {c : Parcel} (hc : c.Delivered) {pr : Protocol} {p : Nat} {b : Buf} (h : c.buffer p = some b) :
    Skip c pr p b.next 1 := by
  intro i hi
  obtain ⟨_, _, ⟨po, hr, _⟩, hn⟩ := C80.buffer_inv hc h (hi b h) pr
  exact ⟨by simp only [Reader.skips, Option.bind_some, hr], hn⟩

theorem fieldAt_lt {b : Bytes} {p n : Nat} : fieldAt b p n < 256 ^ n := by
  unfold fieldAt
  refine Nat.lt_of_lt_of_le (leVal_lt _) (Nat.pow_le_pow_right (by omega) (by simp; omega))

theorem buffer_lt {c : Parcel} {p : Nat} {b : Buf} (h : c.buffer p = some b) :
    b.addr < 256 ^ word c.io ∧ b.len < 256 ^ word c.io := by
  unfold Parcel.buffer at h
  split at h
  · split at h
    · rename_i a len par n hg
      cases h
      unfold getObject at hg
      simp only at hg
      repeat' split at hg
      all_goals first
        | (simp only [Option.some.injEq, Prod.mk.injEq, KObj.buffer.injEq] at hg
           obtain ⟨⟨rfl, rfl, _⟩, _⟩ := hg
           exact ⟨fieldAt_lt, fieldAt_lt⟩)
        | simp at hg
    · cases h
  · cases h

section
variable {c : Parcel} {pr : Protocol}

def FieldsWalk (c : Parcel) (pr : Protocol) (fs : List WField) : Prop :=
  ∀ (d : Buf) (base p q : Nat) (toks : List Tok), c.fields d base p fs = some (toks, q) →
    sentFields (256 ^ word c.io) (256 ^ word c.io) c.mem (d.addr + base) fs = some toks ∧ ∃ k, Skip c pr p q k

theorem items_walk {fs : List WField} (hf : FieldsWalk c pr fs) {size : Nat} {d : Buf} {s : Bytes} :
    ∀ (n p q : Nat) (toks : List Tok),
    Android.inOrder (fun i p => (c.fields d (i * size) p fs).bind fun x =>
      some (.plain (blank fs ((s.drop (i * size)).take size)) :: x.1, x.2)) n p = some (toks, q) →
    Gb.inOrder (fun i => (sentFields (256 ^ word c.io) (256 ^ word c.io) c.mem (d.addr + i * size) fs).bind fun r =>
      some (.plain (blank fs ((s.drop (i * size)).take size)) :: r)) n = some toks ∧ ∃ k, Skip c pr p q k
  | 0, p, q, toks, h => by
    cases h
    exact ⟨rfl, 0, Skip.refl⟩
  | n + 1, p, q, toks, h => by
    rw [Android.inOrder] at h
    obtain ⟨⟨l, p1⟩, h1, h⟩ := C80.bind_some h
    obtain ⟨⟨r, p2⟩, h2, h⟩ := C80.bind_some h
    cases h
    obtain ⟨⟨r', p3⟩, h3, h2⟩ := C80.bind_some h2
    cases h2
    obtain ⟨a1, k, a2⟩ := items_walk hf n p p1 l h1
    obtain ⟨b1, k', b2⟩ := hf d (n * size) p1 _ r' h3
    refine ⟨?_, _, a2.trans b2⟩
    rw [Gb.inOrder, a1]
    simp only [Option.bind_eq_bind, Option.bind_some, b1]

mutual
theorem field_walk (hc : c.Delivered) : (f : WField) → ∀ (d : Buf) (base p q : Nat) (toks : List Tok),
    c.field d base p f = some (toks, q) →
    sentField (256 ^ word c.io) (256 ^ word c.io) c.mem (d.addr + base) f = some toks ∧ ∃ k, Skip c pr p q k
  | .ptr off size fs, d, base, p, q, toks, h => by
    simp only [Parcel.field, Option.bind_eq_bind] at h
    obtain ⟨b, hb, h⟩ := C80.bind_some h
    obtain ⟨s, hs, h⟩ := C80.bind_some h
    obtain ⟨⟨r, q'⟩, hr, h⟩ := C80.bind_some h
    cases h
    obtain ⟨b1, b2, b3, b4⟩ := C80.readEmbedded_inv hb
    obtain ⟨w1, k, w2⟩ := fields_walk hc fs b 0 b.next _ r hr
    obtain ⟨l1, l2⟩ := buffer_lt b1
    refine ⟨?_, _, (Skip.one hc b1).trans w2⟩
    have hn : c.mem.num (d.addr + base + off) 8 = some b.addr := by rw [Nat.add_assoc]; exact b4
    rw [Nat.add_zero] at w1
    simp only [sentField, Option.bind_eq_bind, hn, Option.bind_some, hs, w1]
    rw [if_pos ⟨l1, by omega⟩]
  | .str off, d, base, p, q, toks, h => by
    simp only [Parcel.field, Parcel.embeddedString, Option.bind_eq_bind] at h
    obtain ⟨⟨s, q'⟩, hx, h⟩ := C80.bind_some h
    cases h
    obtain ⟨n, hn, h⟩ := C80.bind_some hx
    obtain ⟨b, hb, h⟩ := C80.bind_some h
    obtain ⟨t, ht, h⟩ := C80.bind_some h
    split at h
    · rename_i hz
      cases h
      obtain ⟨b1, b2, b3, b4⟩ := C80.readEmbedded_inv hb
      obtain ⟨l1, l2⟩ := buffer_lt b1
      refine ⟨?_, _, Skip.one hc b1⟩
      have e1 : c.mem.num (d.addr + base + off) 8 = some b.addr := by rw [Nat.add_assoc]; exact b4
      have e2 : c.mem.num (d.addr + base + off + 8) 4 = some n := by rw [Nat.add_assoc d.addr]; exact hn
      simp only [sentField, Option.bind_eq_bind, e1, e2, Option.bind_some, ht]
      rw [if_pos ⟨hz, by omega⟩]
    · cases h
  | .vec off size fs, d, base, p, q, toks, h => by
    simp only [Parcel.field, Option.bind_eq_bind] at h
    obtain ⟨n, hn, h⟩ := C80.bind_some h
    obtain ⟨b, hb, h⟩ := C80.bind_some h
    obtain ⟨s, hs, h⟩ := C80.bind_some h
    obtain ⟨⟨l, q'⟩, hl, h⟩ := C80.bind_some h
    cases h
    obtain ⟨b1, b2, b3, b4⟩ := C80.readEmbedded_inv hb
    obtain ⟨w1, k, w2⟩ := items_walk (fields_walk hc fs) n b.next _ l hl
    obtain ⟨l1, l2⟩ := buffer_lt b1
    refine ⟨?_, _, (Skip.one hc b1).trans w2⟩
    have e1 : c.mem.num (d.addr + base + off) 8 = some b.addr := by rw [Nat.add_assoc]; exact b4
    have e2 : c.mem.num (d.addr + base + off + 8) 4 = some n := by rw [Nat.add_assoc d.addr]; exact hn
    simp only [sentField, Option.bind_eq_bind, e1, e2, Option.bind_some, hs, w1]
    rw [if_pos ⟨l1, by omega⟩]
  | .vecNoType off, d, base, p, q, toks, h => by simp only [Parcel.field] at h; cases h

theorem fields_walk (hc : c.Delivered) : (fs : List WField) → FieldsWalk c pr fs
  | [], d, base, p, q, toks, h => by
    simp only [Parcel.fields] at h
    cases h
    exact ⟨by simp only [sentFields], 0, Skip.refl⟩
  | f :: fs, d, base, p, q, toks, h => by
    simp only [Parcel.fields, Option.bind_eq_bind] at h
    obtain ⟨⟨l, p1⟩, h1, h⟩ := C80.bind_some h
    obtain ⟨⟨r, p2⟩, h2, h⟩ := C80.bind_some h
    cases h
    obtain ⟨a1, k, a2⟩ := field_walk hc f d base p p1 l h1
    obtain ⟨b1, k', b2⟩ := fields_walk hc fs d base p1 _ r h2
    refine ⟨?_, _, a2.trans b2⟩
    simp only [sentFields, Option.bind_eq_bind, a1, b1, Option.bind_some]
end

theorem struct_walk (hc : c.Delivered) {p q i size : Nat} {fs : List WField} {v : List Tok}
    (h : c.readStruct size fs p = some (v, q)) (hi : c.offs[i]? = some p) (pr : Protocol) :
    ∃ a p1 k, (Reader.since c.io pr c.data c.offs p i).readHidlStruct size =
        .ok (some a) (Reader.since c.io pr c.data c.offs p1 (i + 1)) ∧ a ≠ 0 ∧
      sentStruct (256 ^ word c.io) (256 ^ word c.io) c.mem a size fs = some v ∧
      Reader.skips k (Reader.since c.io pr c.data c.offs p1 (i + 1)) =
        some (Reader.since c.io pr c.data c.offs q (i + 1 + k)) := by
  simp only [Parcel.readStruct, Option.bind_eq_bind] at h
  obtain ⟨d, hd, h⟩ := C80.bind_some h
  obtain ⟨s, hs, h⟩ := C80.bind_some h
  obtain ⟨⟨l, q'⟩, hl, h⟩ := C80.bind_some h
  cases h
  obtain ⟨hd1, hd2, hd3⟩ := C80.readBuffer_inv hd
  obtain ⟨_, ha, ⟨po, hr, _⟩, hnext⟩ := C80.buffer_inv hc hd1 hi pr
  obtain ⟨w1, k, w2⟩ := fields_walk (pr := pr) hc fs d 0 d.next _ l hl
  obtain ⟨l1, l2⟩ := buffer_lt hd1
  refine ⟨d.addr, d.next, k, ?_, ha, ?_, (w2 _ hnext).1⟩
  · unfold readHidlStruct
    rw [hr]
    simp only
    rw [if_pos hd3]
  · rw [Nat.add_zero] at w1
    simp only [sentStruct, Option.bind_eq_bind, hs, w1, Option.bind_some]
    rw [if_pos ⟨l1, by omega⟩]

theorem structVec_walk (hc : c.Delivered) {p q i size : Nat} {fs : List WField} {v : List Tok}
    (h : c.readStructVec size fs p = some (v, q)) (hi : c.offs[i]? = some p) (hz : 0 < size) (pr : Protocol) :
    ∃ a n p1 k, readHidlVec c.mem (Reader.since c.io pr c.data c.offs p i) =
        .ok (some { ptr := a, count := n, elemsize := if n = 0 then 0 else size })
          (Reader.since c.io pr c.data c.offs p1 (i + 2)) ∧ a ≠ 0 ∧
      sentVec (256 ^ word c.io) (256 ^ word c.io) c.mem a n size fs = some v ∧
      Reader.skips k (Reader.since c.io pr c.data c.offs p1 (i + 2)) =
        some (Reader.since c.io pr c.data c.offs q (i + 2 + k)) := by
  simp only [Parcel.readStructVec, Parcel.field, Option.bind_eq_bind] at h
  obtain ⟨d, hd, h⟩ := C80.bind_some h
  obtain ⟨n, hn, h⟩ := C80.bind_some h
  obtain ⟨b, hb, h⟩ := C80.bind_some h
  obtain ⟨s, hs, h⟩ := C80.bind_some h
  obtain ⟨⟨l, q'⟩, hl, h⟩ := C80.bind_some h
  cases h
  rw [Nat.zero_add] at hb
  obtain ⟨hd1, hd2, hd3⟩ := C80.readBuffer_inv hd
  obtain ⟨_, ha, ⟨po, hr, _⟩, hnext⟩ := C80.buffer_inv hc hd1 hi pr
  obtain ⟨hb1, hb2, hb3, hb4⟩ := C80.readEmbedded_inv hb
  obtain ⟨_, ha2, ⟨po2, hr2, _⟩, hnext2⟩ := C80.buffer_inv hc hb1 (hnext _ hb1) pr
  obtain ⟨w1, k, w2⟩ := items_walk (fields_walk (pr := pr) hc fs) n b.next _ l hl
  obtain ⟨l1, l2⟩ := buffer_lt hb1
  obtain ⟨hn1, hn2⟩ := C80.numAt_inv hn
  obtain ⟨hp1, hp2⟩ := C80.numAt_inv hb4
  rw [Nat.add_zero] at hp1 hn1
  refine ⟨b.addr, n, b.next, k, ?_, ha2, ?_, (w2 _ hnext2).1⟩
  · unfold readHidlVec
    rw [hr]
    simp only
    rw [if_pos ⟨ha, hd3⟩]
    simp only [loadMem, hn1, hp1]
    rw [leVal_leBytes_of_lt hn2, leVal_leBytes_of_lt hp2, if_pos ha2, hr2]
    simp only [hb3]
    by_cases h0 : n = 0
    · subst h0
      simp
    · have : 0 < n * size := Nat.mul_pos (by omega) hz
      rw [if_pos ⟨trivial, .inr ⟨h0, by omega, Nat.mul_mod_right _ _⟩⟩, if_pos h0, if_neg h0,
        Nat.mul_div_cancel_left _ (by omega)]
  simp only [sentVec, Option.bind_eq_bind, hs, w1, Option.bind_some]
  rw [if_pos ⟨l1, by omega⟩]

end
end Gb.C84
