import Verif.Spec.FmqPeer
import Verif.Lemmas.Fmq
/-
Helper lemmas: message queues shared with another process.
-/
set_option autoImplicit false

namespace Gb.FmqPeer
open Gb.Fmq

theorem window_length (c : Cfg) (s : State) (k n : Nat) : (window c s k n).length = n := by simp [window]

theorem window_get {c : Cfg} {s : State} {k n j : Nat} (h : j < n) :
    (window c s k n)[j]? = some (s.ring ((k + j) % c.size)) := by
  simp [window, h]

theorem inv_init (c : Cfg) : Inv c {} :=
  ⟨rfl, Nat.le_refl _, Nat.zero_le _, Nat.dvd_zero _, Nat.dvd_zero _,
    fun k h1 h2 => absurd h2 (Nat.not_lt_zero _), rfl, (fun o h => by cases h), (fun o h => by cases h)⟩

theorem writer_of_reads {c : Cfg} {s s' : State} {l : Label} (hl : reads l = true) (h : step c s l = .ok s') :
    s'.writer = s.writer := by
  cases l <;> first | cases hl | skip
  all_goals simp only [step] at h; (repeat' split at h) <;> cases h <;> rfl

theorem reader_of_writes {c : Cfg} {s s' : State} {l : Label} (hl : reads l = false) (h : step c s l = .ok s') :
    s'.reader = s.reader ∧ s'.rp = s.rp ∧ s'.reads = s.reads := by
  cases l <;> first | cases hl | skip
  all_goals simp only [step] at h; (repeat' split at h) <;> cases h <;> exact ⟨rfl, rfl, rfl⟩

theorem in_mono {c : Cfg} {s s' : State} {m : Move} (h : stepIn c s m = .ok s') : s.sent <+: s'.sent := by
  cases m with
  | own l =>
    simp only [stepIn] at h
    split at h
    · exact sent_mono h
    · cases h
  | put p b => simp only [stepIn] at h; split at h <;> cases h; exact List.prefix_refl _
  | publish n => simp only [stepIn] at h; split at h <;> cases h; exact List.prefix_append _ _
  | take n => cases h

theorem in_step {c : Cfg} (hc : c.Ok) (hy : c.sync = true) {s s' : State} {m : Move}
    (hi : Inv c s) (hw : s.writer = none) (h : stepIn c s m = .ok s') (hb : s'.sent.length < 2 ^ 64) :
    Inv c s' ∧ s'.writer = none := by
  cases m with
  | own l =>
    simp only [stepIn] at h
    split at h
    · rename_i hl
      exact ⟨inv_step hc hy hi h hb, (writer_of_reads hl h).trans hw⟩
    · cases h
  | put p b =>
    simp only [stepIn] at h
    split at h
    · rename_i h0
      cases h
      refine ⟨⟨hi.wp, hi.le, hi.full, hi.rdvd, hi.wdvd, ?_, hi.got, ?_, ?_⟩, hw⟩
      · intro k h1 h2
        simp only
        rw [hi.unread k h1 h2, upd_ne _ _ (h0.2 k h2 h1)]
      · intro o ho
        rw [show _ = none from hw] at ho
        cases ho
      · intro o ho
        have := hi.reader o ho
        exact ⟨this.1, this.2, this.3, this.4, this.5⟩
    · cases h
  | publish n =>
    simp only [stepIn] at h
    split at h
    · rename_i h0
      cases h
      simp only [List.length_append, window_length] at hb
      have hwp := hi.wp
      have hle := hi.le
      have he : (s.wp + n * c.item) % 2 ^ 64 = s.wp + n * c.item := Nat.mod_eq_of_lt (by omega)
      refine ⟨⟨?_, ?_, ?_, hi.rdvd, ?_, ?_, ?_, ?_, ?_⟩, hw⟩
      · simp only [he, List.length_append, window_length]; omega
      · simp only [he]; omega
      · simp only [he]; omega
      · simp only [he]; exact Nat.dvd_add hi.wdvd (Nat.dvd_mul_left _ _)
      · intro k h1 h2
        simp only [he] at h1 h2 ⊢
        by_cases hk : k < s.wp
        · rw [List.getElem?_append_left (by omega)]
          exact hi.unread k h1 hk
        · rw [List.getElem?_append_right (by omega), window_get (by omega)]
          congr 3
          omega
      · simp only
        rw [hi.got, List.take_append_of_le_length (by omega)]
      · intro o ho
        rw [show _ = none from hw] at ho
        cases ho
      · intro o ho
        have hro := hi.reader o ho
        refine ⟨?_, hro.2, hro.3, hro.4, ?_⟩
        · have := hro.1
          simp only [he]; omega
        · intro j hj
          have := hro.1
          have := hro.3
          simp only
          rw [List.getElem?_append_left (by omega)]
          exact hro.done j hj
    · cases h
  | take n => cases h

theorem in_reach {c : Cfg} (hc : c.Ok) (hy : c.sync = true) {s : State} (h : Reach (stepIn c) {} s)
    (hb : s.sent.length < 2 ^ 64) : Inv c s ∧ s.writer = none := by
  refine Reach.invariant (P := fun s => s.sent.length < 2 ^ 64 → Inv c s ∧ s.writer = none) ?_ ?_ h hb
  · exact fun _ => ⟨inv_init c, rfl⟩
  · intro s l s' hi hs hb'
    have := (in_mono hs).length_le
    obtain ⟨h1, h2⟩ := hi (by omega)
    exact in_step hc hy h1 h2 hs hb'

theorem out_mono {c : Cfg} {s s' : State} {m : Move} (h : stepOut c s m = .ok s') : s.sent <+: s'.sent := by
  cases m with
  | own l =>
    simp only [stepOut] at h
    split at h
    · cases h
    · exact sent_mono h
  | put p b => cases h
  | publish n => cases h
  | take n => simp only [stepOut] at h; split at h <;> cases h; exact List.prefix_refl _

theorem out_step {c : Cfg} (hc : c.Ok) (hy : c.sync = true) {s s' : State} {m : Move}
    (hi : Inv c s) (hr : s.reader = none) (h : stepOut c s m = .ok s') (hb : s'.sent.length < 2 ^ 64) :
    Inv c s' ∧ s'.reader = none := by
  cases m with
  | own l =>
    simp only [stepOut] at h
    split at h
    · cases h
    · rename_i hl
      exact ⟨inv_step hc hy hi h hb, (reader_of_writes (by simpa using hl) h).1.trans hr⟩
  | put p b => cases h
  | publish n => cases h
  | take n =>
    simp only [stepOut] at h
    split at h
    · rename_i h0
      cases h
      have hwp := hi.wp
      simp only at hb
      have he : (s.rp + n * c.item) % 2 ^ 64 = s.rp + n * c.item := Nat.mod_eq_of_lt (by omega)
      have hf := hi.full
      refine ⟨⟨hwp, ?_, ?_, ?_, hi.wdvd, ?_, ?_, ?_, ?_⟩, hr⟩
      · simp only [he]; omega
      · simp only [he]; omega
      · simp only [he]; exact Nat.dvd_add hi.rdvd (Nat.dvd_mul_left _ _)
      · intro k h1 h2
        simp only [he] at h1
        exact hi.unread k (by omega) h2
      · simp only [he, List.flatMap_append, hi.got, List.flatMap_cons, List.flatMap_nil, List.append_nil]
        rw [List.take_add]
        congr 1
        apply List.ext_getElem?
        intro j
        by_cases hj : j < n * c.item
        · rw [window_get hj, List.getElem?_take_of_lt hj, List.getElem?_drop, hi.unread _ (by omega) (by omega)]
        · rw [List.getElem?_eq_none (by rw [window_length]; omega), List.getElem?_eq_none]
          simp; omega
      · intro o ho
        have hwo := hi.writer o ho
        refine ⟨hwo.1, ?_, hwo.3, hwo.4, hwo.5, hwo.6⟩
        have := hwo.2
        simp only [he]
        omega
      · intro o ho
        rw [show _ = none from hr] at ho
        cases ho
    · cases h

theorem out_reach {c : Cfg} (hc : c.Ok) (hy : c.sync = true) {s : State} (h : Reach (stepOut c) {} s)
    (hb : s.sent.length < 2 ^ 64) : Inv c s ∧ s.reader = none := by
  refine Reach.invariant (P := fun s => s.sent.length < 2 ^ 64 → Inv c s ∧ s.reader = none) ?_ ?_ h hb
  · exact fun _ => ⟨inv_init c, rfl⟩
  · intro s l s' hi hs hb'
    have := (out_mono hs).length_le
    obtain ⟨h1, h2⟩ := hi (by omega)
    exact out_step hc hy h1 h2 hs hb'

end Gb.FmqPeer
