import Verif.Lemmas.Reader
/-
C08. Parcelable framing.
-/
set_option autoImplicit false

namespace Gb.C08

/-- C08: a parcelable (or NULL) appended to any parcel and followed by anything is read back
exactly, and the reader ends up right after it. -/
theorem C08_parcelable_round_trip (e : Env) (w : Writer) (d : Option Bytes)
    (hd : ∀ b, d = some b → b.length + 4 < 2 ^ 32) (post : Bytes)
    (objects : List Nat) (hasReg : Bool) :
    ∃ w', w.appendParcelable e d = .ok w' ∧
      ∃ r', (Reader.init w.io w.protocol (w'.bytes ++ post) objects hasReg w.bytes.length
          ((w'.bytes ++ post).length - w.bytes.length)).readParcelable = .ok d r' ∧
        r'.pos = w'.bytes.length ∧ r'.objects = objects := by
  cases d with
  | none =>
    refine ⟨{ w with bytes := w.bytes ++ leBytes 4 0 }, ?_, ?_⟩
    · simp only [Writer.appendParcelable, Writer.withBytes, bufAppendParcelable, bufAppendWord_eq]
      rfl
    · have hrest : (Reader.init w.io w.protocol (w.bytes ++ leBytes 4 0 ++ post) objects hasReg
          w.bytes.length ((w.bytes ++ leBytes 4 0 ++ post).length - w.bytes.length)).Rest
          (leBytes 4 0 ++ post) :=
        ⟨by simp [Reader.init], by simp [Reader.init], by simp [Reader.init]⟩
      have h1 := Reader.readUInt32_rest hrest (by decide)
      simp only [Reader.readParcelable, h1, if_true]
      refine ⟨_, rfl, ?_, rfl⟩
      simp [Reader.advance, Reader.init]
  | some b =>
    have hlen := hd b rfl
    refine ⟨{ w with bytes := w.bytes ++ (leBytes 4 1 ++ (leBytes 4 (b.length + 4) ++ b)) }, ?_, ?_⟩
    · simp only [Writer.appendParcelable, Writer.withBytes, bufAppendParcelable, bufAppendWord_eq,
        bind, Except.bind, Except.map, List.append_assoc]
    · generalize hr : Reader.init w.io w.protocol (w.bytes ++ (leBytes 4 1 ++ (leBytes 4 (b.length + 4)
        ++ b)) ++ post) objects hasReg w.bytes.length ((w.bytes ++ (leBytes 4 1 ++
        (leBytes 4 (b.length + 4) ++ b)) ++ post).length - w.bytes.length) = r
      have hrest : r.Rest (leBytes 4 1 ++ (leBytes 4 (b.length + 4) ++ (b ++ post))) := by
        subst hr
        exact ⟨by simp [Reader.init], by simp [Reader.init], by simp [Reader.init]⟩
      have hpos : r.pos = w.bytes.length := by subst hr; rfl
      have hobj : r.objects = objects := by subst hr; rfl
      have h1 := Reader.readUInt32_rest hrest (by decide)
      have hrest1 := hrest.advance (n := 4) (by simp)
      have h2 := Reader.readUInt32_rest hrest1 hlen
      have hrest2 := hrest1.advance (n := 4) (by simp)
      have hfin := hrest2.fin_pos
      simp only [List.length_append] at hfin
      simp only [Reader.readParcelable, h1, h2]
      rw [if_neg (by decide), if_pos (by omega), if_pos (by omega)]
      rw [Reader.deref_rest hrest2 (by omega)]
      refine ⟨_, rfl, ?_, hobj⟩
      simp [Reader.advance, hpos]
      omega

/-- A NULL, an empty and an odd-sized parcelable. -/
example : ∀ d ∈ [none, some [], some [1, 2, 3]], ∀ b : Bytes, d = some b → b.length + 4 < 2 ^ 32 := by
  intro d hd b hb
  simp only [List.mem_cons, List.not_mem_nil, or_false] at hd
  rcases hd with rfl | rfl | rfl <;> cases hb <;> decide

/-- The claim "right after it" is not kept for malformed data: the size word is consumed although
the read fails (C04 covers only fixed-size items). -/
example : ∃ r r' : Reader, r.readParcelable = .ok none r' ∧ r'.pos = 8 :=
  ⟨Reader.init .io64 .aidl [1, 0, 0, 0, 3, 0, 0, 0] [] true 0 8, _, rfl, by decide⟩

end Gb.C08
