import Verif.Spec.Device
/-
Descriptors and mappings of the drivers: the invariant.
-/
set_option autoImplicit false

namespace Gb.Device

theorem fdOwner_snoc (n : Nat) (log : List Ev) (e : Ev) :
    fdOwner n (log ++ [e]) = (fdOwner n log).bind fun o => fdStep n o e := by
  simp [fdOwner]

theorem isMapped_snoc (n : Nat) (log : List Ev) (e : Ev) :
    isMapped n (log ++ [e]) = (isMapped n log).bind fun o => mapStep n o e := by
  simp [isMapped]

theorem fdOwner_app (n : Nat) (log : List Ev) (e : Ev) (l : List Ev) :
    fdOwner n (log ++ e :: l) = fdOwner n ((log ++ [e]) ++ l) := by simp

/-- The descriptor and the mapping of each driver. -/
abbrev Hw := Nat → Option (Option Nat × Option Nat)

/-- What the process has is what the drivers and the application have. -/
structure Res (hw : Hw) (fds maps : Nat → Bool) (next : Nat) (log : List Ev) : Prop where
  owner : ∀ n, fdOwner n log ≠ none
  fds : ∀ n, fds n = true ↔ fdOwner n log ≠ some .nobody
  lib : ∀ n, fdOwner n log = some .lib ↔ ∃ d v, hw d = some (some n, v)
  map : ∀ n, isMapped n log = some (maps n)
  maps : ∀ n, maps n = true ↔ ∃ d f, hw d = some (f, some n)
  uniqFd : ∀ d d' n v v', hw d = some (some n, v) → hw d' = some (some n, v') → d = d'
  uniqVm : ∀ d d' n v v', hw d = some (v, some n) → hw d' = some (v', some n) → d = d'
  both : ∀ d f v, hw d = some (f, v) → (f = none ↔ v = none)
  lt : ∀ d x, hw d = some x → d < next

variable {hw : Hw} {fds maps : Nat → Bool} {next : Nat} {log : List Ev}

theorem Res.init : Res (fun _ => none) (fun _ => false) (fun _ => false) 0 [] := by
  constructor <;> simp [fdOwner, isMapped]

/-- Something which has to do neither with descriptors nor with mappings. -/
theorem Res.other (r : Res hw fds maps next log) {e : Ev} (hf : ∀ n o, fdStep n o e = some o)
    (hm : ∀ n o, mapStep n o e = some o) : Res hw fds maps next (log ++ [e]) := by
  have h1 : ∀ n, fdOwner n (log ++ [e]) = fdOwner n log := by
    intro n; rw [fdOwner_snoc]; cases h : fdOwner n log <;> simp [hf]
  have h2 : ∀ n, isMapped n (log ++ [e]) = isMapped n log := by
    intro n; rw [isMapped_snoc]; cases h : isMapped n log <;> simp [hm]
  constructor <;> (try simp only [h1, h2])
  · exact r.owner
  · exact r.fds
  · exact r.lib
  · exact r.map
  · exact r.maps
  · exact r.uniqFd
  · exact r.uniqVm
  · exact r.both
  · exact r.lt

/-- The library's own descriptor is used. -/
theorem Res.ioctl (r : Res hw fds maps next log) {d : Nat} {f v : Option Nat} (h : hw d = some (f, v)) :
    Res hw fds maps next (log ++ [.ioctl f]) := by
  have h1 : ∀ n, fdOwner n (log ++ [.ioctl f]) = fdOwner n log := by
    intro n
    rw [fdOwner_snoc]
    cases f with
    | none => cases ho : fdOwner n log <;> simp [fdStep]
    | some m =>
      by_cases hn : m = n
      · subst hn
        have := (r.lib m).2 ⟨d, v, h⟩
        simp [this, fdStep]
      · cases ho : fdOwner n log <;> simp [fdStep, hn]
  have h2 : ∀ n, isMapped n (log ++ [.ioctl f]) = isMapped n log := by
    intro n; rw [isMapped_snoc]; cases h : isMapped n log <;> simp [mapStep]
  constructor <;> (try simp only [h1, h2])
  · exact r.owner
  · exact r.fds
  · exact r.lib
  · exact r.map
  · exact r.maps
  · exact r.uniqFd
  · exact r.uniqVm
  · exact r.both
  · exact r.lt

/-- Opened, asked for the version and closed again. -/
theorem Res.tried (r : Res hw fds maps next log) {fd : Nat} (h : fds fd = false) :
    Res hw (upd (upd fds fd true) fd false) maps next (log ++ [.opened fd] ++ [.ioctl (some fd)] ++ [.closed (some fd)]) := by
  have hn : fdOwner fd log = some .nobody := by
    have := r.fds fd
    rw [h] at this
    simpa using this
  have h0 : upd (upd fds fd true) fd false = fds := by
    funext n
    by_cases hn : n = fd
    · subst hn; rw [upd_same, h]
    · rw [upd_ne _ _ hn, upd_ne _ _ hn]
  have h1 : ∀ n, fdOwner n (log ++ [.opened fd] ++ [.ioctl (some fd)] ++ [.closed (some fd)]) = fdOwner n log := by
    intro n
    rw [fdOwner_snoc, fdOwner_snoc, fdOwner_snoc]
    by_cases hf : fd = n
    · subst hf; simp [hn, fdStep]
    · cases ho : fdOwner n log <;> simp [fdStep, hf]
  have h2 : ∀ n, isMapped n (log ++ [.opened fd] ++ [.ioctl (some fd)] ++ [.closed (some fd)]) = isMapped n log := by
    intro n
    rw [isMapped_snoc, isMapped_snoc, isMapped_snoc]
    cases h : isMapped n log <;> simp [mapStep]
  rw [h0]
  constructor <;> (try simp only [h1, h2])
  · exact r.owner
  · exact r.fds
  · exact r.lib
  · exact r.map
  · exact r.maps
  · exact r.uniqFd
  · exact r.uniqVm
  · exact r.both
  · exact r.lt

/-- A driver is created. -/
theorem Res.create (r : Res hw fds maps next log) {fd vm : Nat} (h : fds fd = false) (hv : maps vm = false) :
    Res (upd hw next (some (some fd, some vm))) (upd fds fd true) (upd maps vm true) (next + 1)
      (log ++ [.opened fd] ++ [.ioctl (some fd)] ++ [.mapped vm] ++ [.ioctl (some fd)]) := by
  have hn : fdOwner fd log = some .nobody := by
    have := r.fds fd
    rw [h] at this
    simpa using this
  have hw0 : hw next = none := by
    cases hh : hw next with
    | none => rfl
    | some x => exact absurd (r.lt _ _ hh) (by omega)
  have h1 : ∀ n, fdOwner n (log ++ [.opened fd] ++ [.ioctl (some fd)] ++ [.mapped vm] ++ [.ioctl (some fd)]) =
      if n = fd then some .lib else fdOwner n log := by
    intro n
    rw [fdOwner_snoc, fdOwner_snoc, fdOwner_snoc, fdOwner_snoc]
    by_cases hf : fd = n
    · subst hf; simp [hn, fdStep]
    · have hf' : n ≠ fd := fun h => hf h.symm
      cases ho : fdOwner n log <;> simp [fdStep, hf, hf']
  have h2 : ∀ n, isMapped n (log ++ [.opened fd] ++ [.ioctl (some fd)] ++ [.mapped vm] ++ [.ioctl (some fd)]) =
      some (upd maps vm true n) := by
    intro n
    rw [isMapped_snoc, isMapped_snoc, isMapped_snoc, isMapped_snoc, r.map]
    by_cases hf : vm = n
    · subst hf; simp [mapStep, hv, upd_same]
    · have hf' : n ≠ vm := fun h => hf h.symm
      simp [mapStep, hf, upd_ne _ _ hf']
  have nofd : ∀ d v, hw d ≠ some (some fd, v) := by
    intro d v hd
    have := (r.lib fd).2 ⟨d, v, hd⟩
    rw [hn] at this
    cases this
  have novm : ∀ d v, hw d ≠ some (v, some vm) := by
    intro d v hd
    have := (r.maps vm).2 ⟨d, v, hd⟩
    rw [hv] at this
    cases this
  have hlt := r.lt
  constructor
  · intro n; rw [h1]; split
    · simp
    · exact r.owner n
  · intro n; rw [h1]
    by_cases hf : n = fd
    · subst hf; simp [upd_same]
    · rw [upd_ne _ _ hf, if_neg hf]; exact r.fds n
  · intro n; rw [h1]
    by_cases hf : n = fd
    · subst hf
      simp only [if_true, true_iff]
      exact ⟨next, some vm, upd_same _ _ _⟩
    · rw [if_neg hf, r.lib]
      constructor
      · rintro ⟨d, v, hd⟩
        have := hlt _ _ hd
        exact ⟨d, v, by rw [upd_ne _ _ (by omega)]; exact hd⟩
      · rintro ⟨d, v, hd⟩
        by_cases hdn : d = next
        · subst hdn; rw [upd_same] at hd; simp at hd; exact absurd hd.1.symm hf
        · rw [upd_ne _ _ hdn] at hd; exact ⟨d, v, hd⟩
  · exact h2
  · intro n
    by_cases hf : n = vm
    · subst hf
      rw [upd_same]
      simp only [true_iff]
      exact ⟨next, some fd, upd_same _ _ _⟩
    · rw [upd_ne _ _ hf, r.maps]
      constructor
      · rintro ⟨d, v, hd⟩
        have := hlt _ _ hd
        exact ⟨d, v, by rw [upd_ne _ _ (by omega)]; exact hd⟩
      · rintro ⟨d, v, hd⟩
        by_cases hdn : d = next
        · subst hdn; rw [upd_same] at hd; simp at hd; exact absurd hd.2.symm hf
        · rw [upd_ne _ _ hdn] at hd; exact ⟨d, v, hd⟩
  · have := r.uniqFd; unfold upd; grind
  · have := r.uniqVm; unfold upd; grind
  · have := r.both; unfold upd; grind
  · unfold upd; grind

/-- A driver is closed. -/
theorem Res.close (r : Res hw fds maps next log) {d fd vm : Nat} (h : hw d = some (some fd, some vm)) :
    Res (upd hw d (some (none, none))) (upd fds fd false) (upd maps vm false) next
      (log ++ [.unmapped vm] ++ [.closed (some fd)]) := by
  have hn : fdOwner fd log = some .lib := (r.lib fd).2 ⟨d, _, h⟩
  have hv : maps vm = true := (r.maps vm).2 ⟨d, _, h⟩
  have h1 : ∀ n, fdOwner n (log ++ [.unmapped vm] ++ [.closed (some fd)]) =
      if n = fd then some .nobody else fdOwner n log := by
    intro n
    rw [fdOwner_snoc, fdOwner_snoc]
    by_cases hf : fd = n
    · subst hf; simp [hn, fdStep]
    · have hf' : n ≠ fd := fun h => hf h.symm
      cases ho : fdOwner n log <;> simp [fdStep, hf, hf']
  have h2 : ∀ n, isMapped n (log ++ [.unmapped vm] ++ [.closed (some fd)]) = some (upd maps vm false n) := by
    intro n
    rw [isMapped_snoc, isMapped_snoc, r.map]
    by_cases hf : vm = n
    · subst hf; simp [mapStep, hv, upd_same]
    · have hf' : n ≠ vm := fun h => hf h.symm
      simp [mapStep, hf, upd_ne _ _ hf']
  constructor
  · intro n; rw [h1]; split
    · simp
    · exact r.owner n
  · intro n; rw [h1]
    by_cases hf : n = fd
    · subst hf; simp [upd_same]
    · rw [upd_ne _ _ hf, if_neg hf]; exact r.fds n
  · intro n; rw [h1]
    by_cases hf : n = fd
    · subst hf
      simp only [if_true]
      have := r.uniqFd
      unfold upd
      constructor
      · intro h; cases h
      · rintro ⟨d', v, hd⟩; grind
    · rw [if_neg hf, r.lib]
      constructor
      · rintro ⟨d', v, hd⟩
        refine ⟨d', v, ?_⟩
        rw [upd_ne]
        · exact hd
        · rintro rfl; rw [h] at hd; simp at hd; exact hf hd.1.symm
      · rintro ⟨d', v, hd⟩
        by_cases hdn : d' = d
        · subst hdn; rw [upd_same] at hd; simp at hd
        · rw [upd_ne _ _ hdn] at hd; exact ⟨d', v, hd⟩
  · exact h2
  · intro n
    by_cases hf : n = vm
    · subst hf
      rw [upd_same]
      have := r.uniqVm
      unfold upd
      constructor
      · intro h; cases h
      · rintro ⟨d', v, hd⟩; grind
    · rw [upd_ne _ _ hf, r.maps]
      constructor
      · rintro ⟨d', v, hd⟩
        refine ⟨d', v, ?_⟩
        rw [upd_ne]
        · exact hd
        · rintro rfl; rw [h] at hd; simp at hd; exact hf hd.2.symm
      · rintro ⟨d', v, hd⟩
        by_cases hdn : d' = d
        · subst hdn; rw [upd_same] at hd; simp at hd
        · rw [upd_ne _ _ hdn] at hd; exact ⟨d', v, hd⟩
  · have := r.uniqFd; unfold upd; grind
  · have := r.uniqVm; unfold upd; grind
  · have := r.both; unfold upd; grind
  · have := r.lt; unfold upd; grind

/-- A driver which is closed is freed. -/
theorem Res.drop (r : Res hw fds maps next log) {d : Nat} (h : hw d = some (none, none)) :
    Res (upd hw d none) fds maps next log := by
  constructor
  · exact r.owner
  · exact r.fds
  · intro n
    rw [r.lib]
    unfold upd
    constructor
    · rintro ⟨d', v, hd⟩; exact ⟨d', v, by grind⟩
    · rintro ⟨d', v, hd⟩; exact ⟨d', v, by grind⟩
  · exact r.map
  · intro n
    rw [r.maps]
    unfold upd
    constructor
    · rintro ⟨d', v, hd⟩; exact ⟨d', v, by grind⟩
    · rintro ⟨d', v, hd⟩; exact ⟨d', v, by grind⟩
  · have := r.uniqFd; unfold upd; grind
  · have := r.uniqVm; unfold upd; grind
  · have := r.both; unfold upd; grind
  · have := r.lt; unfold upd; grind

theorem Res.appOpen (r : Res hw fds maps next log) {fd : Nat} (h : fds fd = false) :
    Res hw (upd fds fd true) maps next (log ++ [.appOpened fd]) := by
  have hn : fdOwner fd log = some .nobody := by
    have := r.fds fd
    rw [h] at this
    simpa using this
  have h1 : ∀ n, fdOwner n (log ++ [.appOpened fd]) = if n = fd then some .app else fdOwner n log := by
    intro n
    rw [fdOwner_snoc]
    by_cases hf : fd = n
    · subst hf; simp [hn, fdStep]
    · have hf' : n ≠ fd := fun h => hf h.symm
      cases ho : fdOwner n log <;> simp [fdStep, hf, hf']
  have h2 : ∀ n, isMapped n (log ++ [.appOpened fd]) = isMapped n log := by
    intro n; rw [isMapped_snoc]; cases h : isMapped n log <;> simp [mapStep]
  constructor <;> (try simp only [h1, h2])
  · intro n; split
    · simp
    · exact r.owner n
  · intro n
    by_cases hf : n = fd
    · subst hf; simp [upd_same]
    · rw [upd_ne _ _ hf, if_neg hf]; exact r.fds n
  · intro n
    rw [← r.lib]
    by_cases hf : n = fd
    · subst hf; simp [hn]
    · rw [if_neg hf]
  · exact r.map
  · exact r.maps
  · exact r.uniqFd
  · exact r.uniqVm
  · exact r.both
  · exact r.lt

theorem Res.appClose (r : Res hw fds maps next log) {fd : Nat} (hn : fdOwner fd log = some .app) :
    Res hw (upd fds fd false) maps next (log ++ [.appClosed fd]) := by
  have h1 : ∀ n, fdOwner n (log ++ [.appClosed fd]) = if n = fd then some .nobody else fdOwner n log := by
    intro n
    rw [fdOwner_snoc]
    by_cases hf : fd = n
    · subst hf; simp [hn, fdStep]
    · have hf' : n ≠ fd := fun h => hf h.symm
      cases ho : fdOwner n log <;> simp [fdStep, hf, hf']
  have h2 : ∀ n, isMapped n (log ++ [.appClosed fd]) = isMapped n log := by
    intro n; rw [isMapped_snoc]; cases h : isMapped n log <;> simp [mapStep]
  constructor <;> (try simp only [h1, h2])
  · intro n; split
    · simp
    · exact r.owner n
  · intro n
    by_cases hf : n = fd
    · subst hf; simp [upd_same]
    · rw [upd_ne _ _ hf, if_neg hf]; exact r.fds n
  · intro n
    rw [← r.lib]
    by_cases hf : n = fd
    · subst hf; simp [hn]
    · rw [if_neg hf]
  · exact r.map
  · exact r.maps
  · exact r.uniqFd
  · exact r.uniqVm
  · exact r.both
  · exact r.lt

/-- The references. -/
structure Refs (drv : Nat → Option Drv) (buf : Nat → Option Nat) : Prop where
  nonempty : ∀ d x, drv d = some x → x.refs ≠ []
  nodup : ∀ d x, drv d = some x → x.refs.Nodup
  buf : ∀ n d, buf n = some d ↔ ∃ x, drv d = some x ∧ .buffer n ∈ x.refs

def hwOf (drv : Nat → Option Drv) : Hw := fun d => (drv d).map fun x => (x.fd, x.vm)

theorem hwOf_upd (drv : Nat → Option Drv) (d : Nat) (x : Option Drv) :
    hwOf (upd drv d x) = upd (hwOf drv) d (x.map fun x => (x.fd, x.vm)) := by
  funext n
  unfold hwOf upd
  split <;> rfl

/-- A change which is none. -/
theorem upd_eq {α : Type} (f : Nat → α) (k : Nat) : upd f k (f k) = f := by
  funext n
  unfold upd
  split <;> simp_all

structure Inv (s : State) : Prop where
  res : Res (hwOf s.drv) s.fds s.maps s.next s.log
  refs : Refs s.drv s.buf

theorem Inv.init : Inv {} := by
  constructor
  · exact Res.init
  · constructor <;> simp

end Gb.Device
