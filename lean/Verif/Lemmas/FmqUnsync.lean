import Verif.Lemmas.Fmq
import Verif.Spec.Fmq
/-
Helper lemmas about unsynchronized fast message queues.
-/
set_option autoImplicit false

namespace Gb.Fmq

structure UWriteOk (c : Cfg) (s : State) (o : WriteOp) : Prop where
  len : o.data.length = o.items * c.item
  size : o.data.length ≤ c.size
  base : o.base = s.wp % c.size
  i : o.i ≤ o.data.length
  plan : ∀ cont, o.cont = some cont → ∀ j, j < o.data.length →
    pos c o.base cont o.items j = (s.wp + j) % c.size
  done : ∀ j, j < o.i → o.data[j]? = some (s.ring ((s.wp + j) % c.size))

structure UReadOk (c : Cfg) (s : State) (o : ReadOp) : Prop where
  room : s.rp + o.items * c.item ≤ s.wp
  full : s.wp ≤ s.rp + c.size
  base : o.base = s.rp % c.size
  len : o.buf.length ≤ o.items * c.item
  plan : ∀ cont, o.cont = some cont → ∀ j, j < o.items * c.item →
    pos c o.base cont o.items j = (s.rp + j) % c.size
  done : ∀ j, j < o.buf.length → o.buf[j]? = s.sent[s.rp + j]?

/-- How much has been copied. -/
def State.cur (s : State) : Nat := match s.writer with | some o => o.i | none => 0

structure UInv (c : Cfg) (s : State) : Prop where
  wp : s.wp = s.sent.length
  le : s.rp ≤ s.wp
  rdvd : c.item ∣ s.rp
  wdvd : c.item ∣ s.wp
  one : s.writer = none ∨ s.reader = none
  kept : ∀ k, k < s.wp → s.wp + s.cur ≤ k + c.size → s.sent[k]? = some (s.ring (k % c.size))
  got : ∀ p b, (p, b) ∈ s.reads → ∀ j, j < b.length → b[j]? = s.sent[p + j]?
  gotLe : ∀ p b, (p, b) ∈ s.reads → p + b.length ≤ s.wp
  writer : ∀ o, s.writer = some o → UWriteOk c s o
  reader : ∀ o, s.reader = some o → UReadOk c s o

theorem uinv_step {c : Cfg} (hc : c.Ok) (hy : c.sync = false) {s s' : State} {l : Label}
    (hi : UInv c s) (ha : Alone c s l) (h : step c s l = .ok s') (hb : s'.sent.length < 2 ^ 64) :
    UInv c s' := by
  have hm := (sent_mono h).length_le
  obtain ⟨hwp, hle, hrd, hwd, hone, hk, hgot, hgl, hw, hr⟩ := hi
  have hw64 : s.wp < 2 ^ 64 := by omega
  have hs64 : sub64 s.wp s.rp = s.wp - s.rp := sub64_eq hle hw64
  cases l with
  | wBegin data items =>
    simp only [step] at h
    split at h
    · rename_i h0
      have hcur : s.cur = 0 := by simp [State.cur, h0.1]
      split at h
      · cases h
      · split at h
        · cases h
          exact ⟨hwp, hle, hrd, hwd, hone, hk, hgot, hgl, hw, hr⟩
        · rename_i base hbw
          cases h
          simp only [beginWrite, hy, Bool.false_eq_true, false_and, false_or] at hbw
          split at hbw
          · cases hbw
          · rename_i h1
            split at hbw
            · cases hbw
            · cases hbw
              refine ⟨hwp, hle, hrd, hwd, .inr ha, ?_, hgot, hgl, ?_, ?_⟩
              · rw [hcur] at hk; exact hk
              · intro o ho
                cases ho
                have h4 := (Nat.le_div_iff_mul_le hc.item).1 (Nat.le_of_not_lt h1)
                refine ⟨h0.2.2, ?_, rfl, Nat.zero_le _, (fun cont h => by cases h), fun j hj => absurd hj (Nat.not_lt_zero _)⟩
                simp only
                omega
              · intro o ho
                rw [show s.reader = none from ha] at ho
                cases ho
    · cases h
  | wPlan =>
    simp only [step] at h
    split at h
    · rename_i o ho
      have hwo := hw o ho
      split at h
      · split at h
        · cases h
        · cases h
          have hrn : s.reader = none := by
            rcases hone with h | h
            · rw [h] at ho; cases ho
            · exact h
          refine ⟨hwp, hle, hrd, hwd, .inr hrn, ?_, hgot, hgl, ?_, ?_⟩
          · simp only [State.cur, ho] at hk ⊢; exact hk
          · intro o' ho'
            cases ho'
            refine ⟨hwo.1, hwo.2, hwo.3, hwo.4, ?_, hwo.6⟩
            intro cont hcont j hj
            cases hcont
            have h1 := hwo.len
            have h2 := hwo.size
            have h3 := hc.small
            simp only at hj
            by_cases he : s.rp = 0 ∧ s.wp = c.size
            · have h0 : availWriteCont c s.rp s.wp = 0 := by
                have : availWrite c s.rp s.wp = 0 := by
                  simp only [availWrite, availRead, hs64, hc.size32]
                  rw [sub64_eq (by omega) (by omega)]
                  omega
                simp only [availWriteCont, this]
                split
                · omega
                · rfl
              simp only [hwo.base, h0, Nat.zero_div]
              have hn : 0 < o.items := by
                rcases Nat.eq_zero_or_pos o.items with h | h
                · rw [h] at h1; omega
                · exact h
              simp only [pos, hn, if_true, Nat.zero_mul, Nat.not_lt_zero, if_false, Nat.sub_zero, he.2]
              rw [Nat.add_mod_left, Nat.mod_eq_of_lt (by omega)]
            have hT : c.size - s.wp % c.size ≤ availWrite c s.rp s.wp ∨
                o.items * c.item ≤ availWrite c s.rp s.wp := by
              simp only [availWrite, availRead, hs64, hc.size32]
              rcases ha o ho with h | h | h
              · by_cases hf : s.wp ≤ c.size
                · rw [sub64_eq (by omega) (by omega)]
                  left
                  rw [Nat.mod_eq_of_lt (by omega)]; omega
                · rw [sub64_lt (by omega) (by omega)]
                  left; omega
              · rw [sub64_eq (by omega) (by omega)]
                right; omega
              · rw [sub64_lt (by omega) (by omega)]
                left; omega
            have := pos_eq hc (T := availWrite c s.rp s.wp) (n := o.items) (j := j) hwd (by omega)
              hT (by omega)
            simp only [hwo.base, availWriteCont, hc.size32]
            exact this
          · intro o' ho'
            rw [show s.reader = none from hrn] at ho'
            cases ho'
      · cases h
    · cases h
  | wCopy =>
    simp only [step] at h
    split at h
    · rename_i o ho
      have hwo := hw o ho
      have hrn : s.reader = none := by
        rcases hone with h | h
        · rw [h] at ho; cases ho
        · exact h
      split at h
      · rename_i cont b hcont hb'
        split at h
        · cases h
          have hil : o.i < o.data.length := by
            rcases Nat.lt_or_ge o.i o.data.length with h | h
            · exact h
            · rw [List.getElem?_eq_none h] at hb'; cases hb'
          have hp := hwo.plan cont hcont o.i hil
          have h2 := hwo.size
          refine ⟨hwp, hle, hrd, hwd, .inr hrn, ?_, hgot, hgl, ?_, ?_⟩
          · intro k hk1 hk2
            simp only [State.cur] at hk1 hk2 ⊢
            rw [hk k hk1 (by simp only [State.cur, ho]; omega), upd_ne _ _ ?_]
            rw [hp]
            exact mod_ne (by omega) (by omega)
          · intro o' ho'
            cases ho'
            refine ⟨hwo.1, hwo.2, hwo.3, hil, hwo.5, ?_⟩
            intro j hj
            simp only at hj ⊢
            by_cases hji : j = o.i
            · subst hji
              rw [hp, upd_same, hb']
            · rw [upd_ne]
              · exact hwo.done j (by omega)
              · rw [hp]
                exact mod_ne (by omega) (by omega)
          · intro o' ho'
            rw [show s.reader = none from hrn] at ho'
            cases ho'
        · cases h
      · cases h
    · cases h
  | wEnd =>
    simp only [step] at h
    split at h
    · rename_i o ho
      have hwo := hw o ho
      have hrn : s.reader = none := by
        rcases hone with h | h
        · rw [h] at ho; cases ho
        · exact h
      split at h
      · rename_i h0
        cases h
        simp only [List.length_append] at hb hm
        have h1 := hwo.len
        have h2 := hwo.size
        have he : endWrite c s.wp o.items = s.wp + o.data.length := by
          unfold endWrite; rw [← h1]; exact Nat.mod_eq_of_lt (by omega)
        refine ⟨?_, ?_, hrd, ?_, .inl rfl, ?_, ?_, ?_, ?_, ?_⟩
        · simp only [he, List.length_append]; omega
        · simp only [he]; omega
        · simp only [he, h1]
          exact Nat.dvd_add hwd (Nat.dvd_mul_left _ _)
        · intro k hk1 hk2
          simp only [he, State.cur] at hk1 hk2 ⊢
          by_cases hk' : k < s.wp
          · rw [List.getElem?_append_left (by omega)]
            exact hk k hk' (by simp only [State.cur, ho]; omega)
          · rw [List.getElem?_append_right (by omega)]
            have := hwo.done (k - s.sent.length) (by omega)
            rw [this]
            congr 3
            omega
        · intro p b hpb j hj
          have := hgl p b hpb
          simp only
          rw [List.getElem?_append_left (by omega)]
          exact hgot p b hpb j hj
        · intro p b hpb
          have := hgl p b hpb
          simp only [he]
          omega
        · intro o' ho'; cases ho'
        · intro o' ho'
          rw [show s.reader = none from hrn] at ho'
          cases ho'
      · cases h
    · cases h
  | rBegin items =>
    simp only [step] at h
    split at h
    · rename_i h0
      split at h
      · cases h
      · split at h
        · cases h
          exact ⟨hwp, hle, hrd, hwd, hone, hk, hgot, hgl, hw, hr⟩
        · cases h
          have ha : s.writer = none := ha
          refine ⟨hwp, Nat.le_refl _, hwd, hwd, .inl ha, hk, hgot, hgl, ?_, ?_⟩
          · intro o' ho'
            rw [show s.writer = none from ha] at ho'
            cases ho'
          · intro o' ho'
            rw [show s.reader = none from h0.1] at ho'
            cases ho'
        · rename_i base hbr
          cases h
          have ha : s.writer = none := ha
          simp only [beginRead, hs64] at hbr
          split at hbr
          · cases hbr
          · split at hbr
            · cases hbr
            · split at hbr
              · cases hbr
              · rename_i h1
                cases hbr
                rw [Nat.mod_eq_of_lt h0.2.2] at h1
                refine ⟨hwp, hle, hrd, hwd, .inl ha, hk, hgot, hgl, fun o ho => ?_, fun o ho => ?_⟩
                · rw [show s.writer = none from ha] at ho
                  cases ho
                · cases ho
                  exact ⟨(by simp only; omega), (by simp only; omega), rfl, (by simp), (fun cont h => by cases h), (by simp)⟩
    · cases h
  | rPlan =>
    simp only [step] at h
    split at h
    · rename_i o ho
      have hro := hr o ho
      have hwn : s.writer = none := by
        rcases hone with h | h
        · exact h
        · rw [h] at ho; cases ho
      split at h
      · split at h
        · cases h
        · cases h
          refine ⟨hwp, hle, hrd, hwd, .inl hwn, hk, hgot, hgl, fun o ho => ?_, ?_⟩
          · rw [show s.writer = none from hwn] at ho
            cases ho
          · intro o' ho'
            cases ho'
            refine ⟨hro.1, hro.2, hro.3, hro.4, ?_, hro.6⟩
            intro cont hcont j hj
            cases hcont
            have h2 := hro.room
            have h3 := hro.full
            have := pos_eq hc (T := sub64 s.wp s.rp) (n := o.items) (j := j) hrd (by omega)
              (by omega) hj
            simp only [hro.base, availReadCont]
            exact this
      · cases h
    · cases h
  | rCopy =>
    simp only [step] at h
    split at h
    · rename_i o ho
      have hro := hr o ho
      have hwn : s.writer = none := by
        rcases hone with h | h
        · exact h
        · rw [h] at ho; cases ho
      split at h
      · rename_i cont hcont
        split at h
        · rename_i hlen
          split at h
          · cases h
            have hp := hro.plan cont hcont _ hlen
            have h2 := hro.room
            have h3 := hro.full
            refine ⟨hwp, hle, hrd, hwd, .inl hwn, hk, hgot, hgl, fun o ho => ?_, ?_⟩
            · rw [show s.writer = none from hwn] at ho
              cases ho
            · intro o' ho'
              cases ho'
              refine ⟨hro.1, hro.2, hro.3, (by simp; omega), hro.5, ?_⟩
              intro j hj
              simp only [List.length_append, List.length_cons, List.length_nil] at hj
              simp only
              by_cases hjl : j = o.buf.length
              · subst hjl
                rw [List.getElem?_append_right (Nat.le_refl _), Nat.sub_self,
                  hk _ (by omega) (by simp only [State.cur, hwn]; omega), hp]
                rfl
              · rw [List.getElem?_append_left (by omega)]
                exact hro.done j (by omega)
          · cases h
        · cases h
      · cases h
    · cases h
  | rEnd =>
    simp only [step] at h
    split at h
    · rename_i o ho
      have hro := hr o ho
      have hwn : s.writer = none := by
        rcases hone with h | h
        · exact h
        · rw [h] at ho; cases ho
      split at h
      · rename_i h0
        cases h
        have h2 := hro.room
        have h3 := hro.full
        have he : endRead c s.rp s.wp o.items = s.rp + o.items * c.item := by
          simp only [endRead, hs64]
          rw [if_neg (by omega)]
          exact Nat.mod_eq_of_lt (by omega)
        refine ⟨hwp, ?_, ?_, hwd, .inl hwn, hk, ?_, ?_, ?_, ?_⟩
        · simp only [he]; omega
        · simp only [he]
          exact Nat.dvd_add hrd (Nat.dvd_mul_left _ _)
        · intro p b hpb j hj
          rcases List.mem_append.1 hpb with hpb | hpb
          · exact hgot p b hpb j hj
          · rw [List.mem_singleton] at hpb
            cases hpb
            exact hro.done j hj
        · intro p b hpb
          rcases List.mem_append.1 hpb with hpb | hpb
          · exact hgl p b hpb
          · rw [List.mem_singleton] at hpb
            cases hpb
            simp only
            omega
        · intro o' ho'
          rw [show s.writer = none from hwn] at ho'
          cases ho'
        · intro o' ho'; cases ho'
      · cases h
    · cases h

theorem uinv_reach {c : Cfg} (hc : c.Ok) (hy : c.sync = false) {s : State}
    (h : ReachIf (step c) (Alone c) {} s) (hb : s.sent.length < 2 ^ 64) : UInv c s := by
  induction h with
  | init =>
    exact ⟨rfl, Nat.le_refl _, Nat.dvd_zero _, Nat.dvd_zero _, .inl rfl,
      fun k h1 h2 => absurd h1 (Nat.not_lt_zero _), (fun p b h => by cases h), (fun p b h => by cases h),
      (fun o h => by cases h), (fun o h => by cases h)⟩
  | step l _ hok hs ih =>
    have := (sent_mono hs).length_le
    exact uinv_step hc hy (ih (by omega)) hok hs hb

end Gb.Fmq
