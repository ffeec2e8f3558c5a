import Verif.Model.Fmq
/-
Helper lemmas about fast message queues.
-/
set_option autoImplicit false

namespace Gb.Fmq

/-- The item size fits in the quantum, the queue consists of whole items and its size fits in the
32 bit variable in gbinder_fmq_available_to_write_bytes. -/
structure Cfg.Ok (c : Cfg) : Prop where
  item : 0 < c.item
  size : 0 < c.size
  whole : c.item ∣ c.size
  small : c.size < 2 ^ 32

theorem sub64_eq {a b : Nat} (h : b ≤ a) (ha : a < 2 ^ 64) : sub64 a b = a - b := by
  unfold sub64; omega

theorem sub64_lt {a b : Nat} (h : a < b) (hb : b < 2 ^ 64) : sub64 a b = 2 ^ 64 + a - b := by
  unfold sub64; omega

theorem sub64_bound (a b : Nat) : sub64 a b < 2 ^ 64 := by
  unfold sub64; omega

theorem Cfg.Ok.size32 {c : Cfg} (h : c.Ok) : c.size32 = c.size := Nat.mod_eq_of_lt h.small

theorem mod_dvd {a n d : Nat} (hn : d ∣ n) (ha : d ∣ a) : d ∣ a % n := (Nat.dvd_mod_iff hn).2 ha

theorem add_mod_lt {w j n : Nat} (h : w % n + j < n) : (w + j) % n = w % n + j := by
  have := Nat.mod_add_mod w n j
  rw [Nat.mod_eq_of_lt h] at this
  exact this.symm

theorem add_mod_wrap {w j n : Nat} (h : n ≤ w % n + j) (h2 : w % n + j < 2 * n) :
    (w + j) % n = w % n + j - n := by
  have := Nat.mod_add_mod w n j
  rw [← this, Nat.mod_eq_sub_mod h, Nat.mod_eq_of_lt (by omega)]

/-- Where things are copied. -/
theorem pos_eq {c : Cfg} (h : c.Ok) {p n T j : Nat} (hp : c.item ∣ p) (hn : n * c.item ≤ c.size)
    (hT : c.size - p % c.size ≤ T ∨ n * c.item ≤ T) (hj : j < n * c.item) :
    pos c (p % c.size) ((if c.size - p % c.size < T then c.size - p % c.size else T) / c.item) n j =
      (p + j) % c.size := by
  have hlt := Nat.mod_lt p h.size
  have hd : c.item ∣ c.size - p % c.size := Nat.dvd_sub h.whole (mod_dvd h.whole hp)
  obtain ⟨q, hq⟩ := hd
  have key : ∀ cont, (cont = q ∨ (n ≤ cont ∧ n * c.item ≤ c.size - p % c.size)) →
      pos c (p % c.size) cont n j = (p + j) % c.size := by
    intro cont hc
    rcases hc with hc | ⟨h1, h2⟩
    · subst hc
      rw [Nat.mul_comm] at hq
      unfold pos
      by_cases h1 : cont < n
      · rw [if_pos h1]
        by_cases h2 : j < cont * c.item
        · rw [if_pos h2, add_mod_lt (by omega)]
        · rw [if_neg h2, add_mod_wrap (by omega) (by omega)]
          omega
      · rw [if_neg h1, add_mod_lt]
        have : n * c.item ≤ cont * c.item := Nat.mul_le_mul_right _ (by omega)
        omega
    · unfold pos
      rw [if_neg (by omega), add_mod_lt (by omega)]
  apply key
  by_cases h1 : c.size - p % c.size < T
  · left
    rw [if_pos h1, hq, Nat.mul_div_cancel_left _ h.item]
  · rw [if_neg h1]
    rcases hT with hT | hT
    · left
      have : T = c.item * q := by omega
      rw [this, Nat.mul_div_cancel_left _ h.item]
    · right
      exact ⟨(Nat.le_div_iff_mul_le h.item).2 hT, by omega⟩

/-- The state of a synchronized queue. -/
structure WriteOk (c : Cfg) (s : State) (o : WriteOp) : Prop where
  len : o.data.length = o.items * c.item
  room : s.wp + o.data.length ≤ s.rp + c.size
  base : o.base = s.wp % c.size
  i : o.i ≤ o.data.length
  plan : ∀ cont, o.cont = some cont → ∀ j, j < o.data.length →
    pos c o.base cont o.items j = (s.wp + j) % c.size
  done : ∀ j, j < o.i → o.data[j]? = some (s.ring ((s.wp + j) % c.size))

structure ReadOk (c : Cfg) (s : State) (o : ReadOp) : Prop where
  room : s.rp + o.items * c.item ≤ s.wp
  base : o.base = s.rp % c.size
  len : o.buf.length ≤ o.items * c.item
  plan : ∀ cont, o.cont = some cont → ∀ j, j < o.items * c.item →
    pos c o.base cont o.items j = (s.rp + j) % c.size
  done : ∀ j, j < o.buf.length → o.buf[j]? = s.sent[s.rp + j]?

structure Inv (c : Cfg) (s : State) : Prop where
  wp : s.wp = s.sent.length
  le : s.rp ≤ s.wp
  full : s.wp ≤ s.rp + c.size
  rdvd : c.item ∣ s.rp
  wdvd : c.item ∣ s.wp
  unread : ∀ k, s.rp ≤ k → k < s.wp → s.sent[k]? = some (s.ring (k % c.size))
  got : s.reads.flatMap (·.2) = s.sent.take s.rp
  writer : ∀ o, s.writer = some o → WriteOk c s o
  reader : ∀ o, s.reader = some o → ReadOk c s o

theorem mod_ne {a b n : Nat} (h : a < b) (h2 : b < a + n) : a % n ≠ b % n := by
  intro h'
  have h1 := Nat.div_add_mod a n
  have h3 := Nat.div_add_mod b n
  rw [h'] at h1
  have : a / n < b / n := by
    rcases Nat.lt_or_ge (a / n) (b / n) with h | h
    · exact h
    · have := Nat.mul_le_mul_left n h
      omega
  have : n * (a / n + 1) ≤ n * (b / n) := Nat.mul_le_mul_left n this
  rw [Nat.mul_add, Nat.mul_one] at this
  omega

theorem sent_mono {c : Cfg} {s s' : State} {l : Label} (h : step c s l = .ok s') :
    s.sent <+: s'.sent := by
  cases l <;> simp only [step] at h <;> (repeat' split at h) <;> cases h <;> simp

theorem inv_step {c : Cfg} (hc : c.Ok) (hy : c.sync = true) {s s' : State} {l : Label}
    (hi : Inv c s) (h : step c s l = .ok s') (hb : s'.sent.length < 2 ^ 64) : Inv c s' := by
  have hm := (sent_mono h).length_le
  obtain ⟨hwp, hle, hfull, hrd, hwd, hun, hgot, hw, hr⟩ := hi
  have hw64 : s.wp < 2 ^ 64 := by omega
  have hs64 : sub64 s.wp s.rp = s.wp - s.rp := sub64_eq hle hw64
  have ha64 : availWrite c s.rp s.wp = c.size - (s.wp - s.rp) := by
    have := hc.small
    simp only [availWrite, availRead, hs64, hc.size32]
    exact sub64_eq (by omega) (by omega)
  cases l with
  | wBegin data items =>
    simp only [step] at h
    split at h
    · rename_i h0
      split at h
      · cases h
      · split at h
        · cases h
          exact ⟨hwp, hle, hfull, hrd, hwd, hun, hgot, hw, hr⟩
        · rename_i base hbw
          cases h
          simp only [beginWrite, hy, true_and] at hbw
          split at hbw
          · cases hbw
          · rename_i h1
            split at hbw
            · cases hbw
            · rename_i h2
              cases hbw
              refine ⟨hwp, hle, hfull, hrd, hwd, hun, hgot, ?_, fun o ho => ?_⟩
              · intro o ho
                cases ho
                have h3 : items ≤ availWrite c s.rp s.wp / c.item := by omega
                have h4 := (Nat.le_div_iff_mul_le hc.item).1 h3
                refine ⟨h0.2.2, ?_, rfl, Nat.zero_le _, (fun cont h => by cases h), fun j hj => absurd hj (Nat.not_lt_zero _)⟩
                simp only
                omega
              · exact ⟨(hr o ho).1, (hr o ho).2, (hr o ho).3, (hr o ho).4, (hr o ho).5⟩
    · cases h
  | wPlan =>
    simp only [step] at h
    split at h
    · rename_i o ho
      have hwo := hw o ho
      split at h
      · split at h
        · cases h
        · cases h
          refine ⟨hwp, hle, hfull, hrd, hwd, hun, hgot, ?_, fun o ho => ?_⟩
          · intro o' ho'
            cases ho'
            refine ⟨hwo.1, hwo.2, hwo.3, hwo.4, ?_, hwo.6⟩
            intro cont hcont j hj
            cases hcont
            have h1 := hwo.len
            have h2 := hwo.room
            have := pos_eq hc (T := availWrite c s.rp s.wp) (n := o.items) (j := j) hwd (by omega)
              (by omega) (by simp only at hj; omega)
            simp only [hwo.base, availWriteCont, hc.size32]
            exact this
          · exact ⟨(hr o ho).1, (hr o ho).2, (hr o ho).3, (hr o ho).4, (hr o ho).5⟩
      · cases h
    · cases h
  | wCopy =>
    simp only [step] at h
    split at h
    · rename_i o ho
      have hwo := hw o ho
      split at h
      · rename_i cont b hcont hb'
        split at h
        · cases h
          have hil : o.i < o.data.length := by
            rcases Nat.lt_or_ge o.i o.data.length with h | h
            · exact h
            · rw [List.getElem?_eq_none h] at hb'; cases hb'
          have hp := hwo.plan cont hcont o.i hil
          have h2 := hwo.room
          refine ⟨hwp, hle, hfull, hrd, hwd, ?_, hgot, ?_, ?_⟩
          · intro k hk1 hk2
            simp only at hk1 hk2 ⊢
            rw [hun k hk1 hk2, upd_ne _ _ ?_]
            rw [hp]
            exact mod_ne (by omega) (by omega)
          · intro o' ho'
            cases ho'
            refine ⟨hwo.1, hwo.2, hwo.3, hil, hwo.5, ?_⟩
            intro j hj
            simp only at hj ⊢
            by_cases hji : j = o.i
            · subst hji
              rw [hp, upd_same, hb']
            · rw [upd_ne]
              · exact hwo.done j (by omega)
              · rw [hp]
                exact mod_ne (by omega) (by omega)
          · intro o' ho'
            exact ⟨(hr o' ho').1, (hr o' ho').2, (hr o' ho').3, (hr o' ho').4, (hr o' ho').5⟩
        · cases h
      · cases h
    · cases h
  | wEnd =>
    simp only [step] at h
    split at h
    · rename_i o ho
      have hwo := hw o ho
      split at h
      · rename_i h0
        cases h
        simp only [List.length_append] at hb hm
        have h1 := hwo.len
        have h2 := hwo.room
        have he : endWrite c s.wp o.items = s.wp + o.data.length := by
          unfold endWrite; rw [← h1]; exact Nat.mod_eq_of_lt (by omega)
        refine ⟨?_, ?_, ?_, hrd, ?_, ?_, ?_, ?_, ?_⟩
        · simp only [he, List.length_append]; omega
        · simp only [he]; omega
        · simp only [he]; omega
        · simp only [he, h1]
          exact Nat.dvd_add hwd (Nat.dvd_mul_left _ _)
        · intro k hk1 hk2
          simp only [he] at hk1 hk2 ⊢
          by_cases hk : k < s.wp
          · rw [List.getElem?_append_left (by omega)]
            exact hun k hk1 hk
          · rw [List.getElem?_append_right (by omega)]
            have := hwo.done (k - s.sent.length) (by omega)
            rw [this]
            congr 3
            omega
        · simp only
          rw [hgot, List.take_append_of_le_length (by omega)]
        · intro o' ho'; cases ho'
        · intro o' ho'
          have hro := hr o' ho'
          refine ⟨?_, hro.2, hro.3, hro.4, ?_⟩
          · have := hro.1
            simp only [he]; omega
          · intro j hj
            have := hro.1
            have := hro.3
            simp only
            rw [List.getElem?_append_left (by omega)]
            exact hro.done j hj
      · cases h
    · cases h
  | rBegin items =>
    simp only [step] at h
    split at h
    · rename_i h0
      split at h
      · cases h
      · split at h
        · cases h
          exact ⟨hwp, hle, hfull, hrd, hwd, hun, hgot, hw, hr⟩
        · rename_i hbr
          exfalso
          simp only [beginRead, hs64] at hbr
          repeat' split at hbr
          all_goals first | omega | cases hbr
        · rename_i base hbr
          cases h
          simp only [beginRead, hs64] at hbr
          split at hbr
          · cases hbr
          · split at hbr
            · cases hbr
            · split at hbr
              · cases hbr
              · rename_i h1
                cases hbr
                rw [Nat.mod_eq_of_lt h0.2.2] at h1
                refine ⟨hwp, hle, hfull, hrd, hwd, hun, hgot, fun o ho => ?_, fun o ho => ?_⟩
                · exact ⟨(hw o ho).1, (hw o ho).2, (hw o ho).3, (hw o ho).4, (hw o ho).5, (hw o ho).6⟩
                · cases ho
                  exact ⟨(by simp only; omega), rfl, (by simp), (fun cont h => by cases h), (by simp)⟩
    · cases h
  | rPlan =>
    simp only [step] at h
    split at h
    · rename_i o ho
      have hro := hr o ho
      split at h
      · split at h
        · cases h
        · cases h
          refine ⟨hwp, hle, hfull, hrd, hwd, hun, hgot, fun o ho => ?_, ?_⟩
          · exact ⟨(hw o ho).1, (hw o ho).2, (hw o ho).3, (hw o ho).4, (hw o ho).5, (hw o ho).6⟩
          · intro o' ho'
            cases ho'
            refine ⟨hro.1, hro.2, hro.3, ?_, hro.5⟩
            intro cont hcont j hj
            cases hcont
            have h2 := hro.room
            have := pos_eq hc (T := sub64 s.wp s.rp) (n := o.items) (j := j) hrd (by omega)
              (by omega) hj
            simp only [hro.base, availReadCont]
            exact this
      · cases h
    · cases h
  | rCopy =>
    simp only [step] at h
    split at h
    · rename_i o ho
      have hro := hr o ho
      split at h
      · rename_i cont hcont
        split at h
        · rename_i hlen
          split at h
          · cases h
            have hp := hro.plan cont hcont _ hlen
            have h2 := hro.room
            refine ⟨hwp, hle, hfull, hrd, hwd, hun, hgot, fun o ho => ?_, ?_⟩
            · exact ⟨(hw o ho).1, (hw o ho).2, (hw o ho).3, (hw o ho).4, (hw o ho).5, (hw o ho).6⟩
            · intro o' ho'
              cases ho'
              refine ⟨hro.1, hro.2, (by simp; omega), hro.4, ?_⟩
              intro j hj
              simp only [List.length_append, List.length_cons, List.length_nil] at hj
              simp only
              by_cases hjl : j = o.buf.length
              · subst hjl
                rw [List.getElem?_append_right (Nat.le_refl _), Nat.sub_self, hun _ (by omega) (by omega), hp]
                rfl
              · rw [List.getElem?_append_left (by omega)]
                exact hro.done j (by omega)
          · cases h
        · cases h
      · cases h
    · cases h
  | rEnd =>
    simp only [step] at h
    split at h
    · rename_i o ho
      have hro := hr o ho
      split at h
      · rename_i h0
        cases h
        have h2 := hro.room
        have he : endRead c s.rp s.wp o.items = s.rp + o.items * c.item := by
          simp only [endRead, hs64]
          rw [if_neg (by omega)]
          exact Nat.mod_eq_of_lt (by omega)
        refine ⟨hwp, ?_, ?_, ?_, hwd, ?_, ?_, ?_, ?_⟩
        · simp only [he]; omega
        · simp only [he]; omega
        · simp only [he]
          exact Nat.dvd_add hrd (Nat.dvd_mul_left _ _)
        · intro k hk1 hk2
          simp only [he] at hk1
          exact hun k (by omega) hk2
        · simp only [he, List.flatMap_append, hgot, List.flatMap_cons, List.flatMap_nil, List.append_nil]
          rw [List.take_add]
          congr 1
          apply List.ext_getElem?
          intro j
          by_cases hj : j < o.buf.length
          · rw [hro.done j hj, List.getElem?_take_of_lt (by omega), List.getElem?_drop]
          · rw [List.getElem?_eq_none (by omega), List.getElem?_eq_none]
            simp; omega
        · intro o' ho'
          have hwo := hw o' ho'
          refine ⟨hwo.1, ?_, hwo.3, hwo.4, hwo.5, hwo.6⟩
          have := hwo.2
          simp only [he]
          omega
        · intro o' ho'; cases ho'
      · cases h
    · cases h

theorem inv_reach {c : Cfg} (hc : c.Ok) (hy : c.sync = true) {s : State} (h : Reach (step c) {} s)
    (hb : s.sent.length < 2 ^ 64) : Inv c s := by
  refine Reach.invariant (P := fun s => s.sent.length < 2 ^ 64 → Inv c s) ?_ ?_ h hb
  · intro _
    exact ⟨rfl, Nat.le_refl _, Nat.zero_le _, Nat.dvd_zero _, Nat.dvd_zero _,
      fun k h1 h2 => absurd h2 (Nat.not_lt_zero _), rfl, (fun o h => by cases h), (fun o h => by cases h)⟩
  · intro s l s' hi hs hb'
    have := (sent_mono hs).length_le
    exact inv_step hc hy (hi (by omega)) hs hb'

end Gb.Fmq
