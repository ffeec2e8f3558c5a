import Verif.Model.DeviceCalls
import Verif.Lemmas.DeviceLife
/-
As long as no looper hangs, the number of a descriptor doesn't change while somebody is about to use it.
-/
set_option autoImplicit false

namespace Gb.DeviceCalls

open Device

/-- A driver which remains keeps its descriptor. -/
def Same (s s' : Device.State) : Prop := ∀ d x x', s.drv d = some x → s'.drv d = some x' → x'.fd = x.fd

theorem Same.refl {s s' : Device.State} (h : s'.drv = s.drv) : Same s s' := by
  intro d x x' h1 h2
  rw [h, h1] at h2
  cases h2
  rfl

theorem Same.unref {s s' : Device.State} (i : Inv s) {d : Nat} {h : Holder} (e : Device.unref s d h = .ok s') : Same s s' := by
  obtain ⟨_, _, x, hx, _, hd⟩ := Res.unref i.res e
  intro d' y y' h1 h2
  rw [hd] at h2
  by_cases hdd : d' = d
  · subst hdd
    rw [upd_same] at h2
    rw [hx] at h1
    cases h1
    split at h2
    · cases h2
    · cases h2; rfl
  · rw [upd_ne _ _ hdd, h1] at h2
    cases h2; rfl

theorem Same.ref {s s' : Device.State} {d : Nat} {h : Holder} (e : Device.ref s d h = .ok s') : Same s s' := by
  unfold Device.ref at e
  split at e
  · cases e
  · rename_i x hx
    split at e
    · cases e
    · cases e
      intro d' y y' h1 h2
      simp only at h2
      by_cases hdd : d' = d
      · subst hdd
        rw [upd_same] at h2
        rw [hx] at h1
        cases h1; cases h2; rfl
      · rw [upd_ne _ _ hdd, h1] at h2
        cases h2; rfl

theorem Same.step {s s' : Device.State} (i : Inv s) {l : Device.Label} (hok : Smooth s l) (e : Device.step s l = .ok s') :
    Same s s' := by
  cases l with
  | «open» a =>
    simp only [Device.step, open_] at e
    split at e
    · cases e; exact .refl rfl
    · split at e
      · cases e
      · split at e
        · cases e; exact .refl rfl
        · split at e
          · cases e; exact .refl rfl
          · split at e
            · cases e; exact .refl rfl
            · split at e
              · cases e
              · cases e
                intro d y y' h1 h2
                have hlt := i.res.lt d (y.fd, y.vm) (by simp [hwOf, h1])
                simp only [sysOpen] at h2
                rw [upd_ne _ _ (by omega), h1] at h2
                cases h2; rfl
  | looper d n =>
    simp only [Device.step] at e
    split at e
    · exact .ref e
    · cases e
  | looperFree d n =>
    simp only [Device.step] at e
    split at e
    · exact .unref i e
    · cases e
  | received d n h =>
    simp only [Device.step] at e
    split at e
    · obtain ⟨s1, h1, e⟩ := andThen_ok e
      obtain ⟨s2, h2, e⟩ := andThen_ok e
      cases e
      have := Same.ref h2
      intro d x x' a b
      exact this d x x' (by rw [use_drv h1]; exact a) b
    · cases e
  | access n =>
    have := access_ok e
    subst this
    exact .refl rfl
  | release n objects =>
    simp only [Device.step] at e
    split at e
    · cases e
    · obtain ⟨s0, h0, e⟩ := andThen_ok e
      obtain ⟨s1, h1, e⟩ := andThen_ok e
      obtain ⟨s2, h2, e⟩ := andThen_ok e
      cases e
      have : s0 = s := by
        split at h0
        · exact access_ok h0
        · cases h0; rfl
      subst this
      have := Same.unref (i.use h1) h2
      intro d x x' a b
      exact this d x x' (by rw [use_drv h1]; exact a) b
  | use d h =>
    simp only [Device.step] at e
    split at e
    · exact .refl (use_drv e)
    · cases e
  | stuck d => exact absurd hok id
  | finalize d =>
    simp only [Device.step] at e
    split at e
    · exact .unref i e
    · cases e
  | appOpen fd =>
    simp only [Device.step] at e
    split at e
    · cases e
    · cases e; exact .refl rfl
  | appClose fd =>
    simp only [Device.step] at e
    split at e
    · cases e; exact .refl rfl
    · cases e

end Gb.DeviceCalls
