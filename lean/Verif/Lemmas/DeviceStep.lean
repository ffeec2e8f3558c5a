import Verif.Lemmas.Device
/-
Descriptors and mappings of the drivers: each step keeps the invariant.
-/
set_option autoImplicit false

namespace Gb.Device

theorem hwOf_same {drv : Nat → Option Drv} {d : Nat} {x x' : Drv} (h : drv d = some x) (hf : x'.fd = x.fd) (hv : x'.vm = x.vm) :
    hwOf (upd drv d (some x')) = hwOf drv := by
  rw [hwOf_upd]
  have : hwOf drv d = (some x').map fun x => (x.fd, x.vm) := by simp [hwOf, h, hf, hv]
  rw [← this, upd_eq]

theorem hwOf_refs {drv : Nat → Option Drv} {d : Nat} {x : Drv} (h : drv d = some x) (l : List Holder) :
    hwOf (upd drv d (some { x with refs := l })) = hwOf drv := hwOf_same h rfl rfl

theorem upd_upd {α : Type} (f : Nat → α) (k : Nat) (v w : α) : upd (upd f k v) k w = upd f k w := by
  funext n
  unfold upd
  split <;> rfl

/-- Closing, with the invariant of the resources only. -/
theorem Res.closed {s : State} (r : Res (hwOf s.drv) s.fds s.maps s.next s.log) {d : Nat} {x : Drv} (h : s.drv d = some x) :
    let s' := Gb.Device.close s d x
    Res (hwOf s'.drv) s'.fds s'.maps s'.next s'.log ∧ s'.drv = upd s.drv d (some { x with fd := none, vm := none }) ∧
      s'.buf = s.buf := by
  intro s'
  have hx : hwOf s.drv d = some (x.fd, x.vm) := by simp [hwOf, h]
  have hb := r.both _ _ _ hx
  cases hv : x.vm with
  | none =>
    have hf : x.fd = none := hb.2 hv
    have : s' = s := by simp [s', Gb.Device.close, hv]
    have hxx : ({ x with fd := none, vm := none } : Drv) = x := by cases x; simp_all
    rw [this, hxx, ← h, upd_eq]
    exact ⟨r, rfl, rfl⟩
  | some vm =>
    cases hf : x.fd with
    | none => exact absurd (hb.1 hf) (by simp [hv])
    | some fd =>
      have e : s' = { s with
          maps := upd s.maps vm false
          fds := upd s.fds fd false
          log := s.log ++ [.unmapped vm] ++ [.closed (some fd)]
          drv := upd s.drv d (some { x with fd := none, vm := none }) } := by
        simp [s', Gb.Device.close, hv, hf, sysClose]
      rw [e]
      refine ⟨?_, rfl, rfl⟩
      rw [hwOf_upd]
      exact r.close (by rw [hx, hf, hv])

/-- A reference is dropped: the resources. -/
theorem Res.unref {s s' : State} (r : Res (hwOf s.drv) s.fds s.maps s.next s.log) {d : Nat} {h : Holder}
    (e : Gb.Device.unref s d h = .ok s') :
    Res (hwOf s'.drv) s'.fds s'.maps s'.next s'.log ∧ s'.buf = s.buf ∧
      ∃ x, s.drv d = some x ∧ h ∈ x.refs ∧
        s'.drv = upd s.drv d (if x.refs.erase h = [] then none else some { x with refs := x.refs.erase h }) := by
  unfold Gb.Device.unref at e
  split at e
  · cases e
  · rename_i x hx
    split at e
    · rename_i hm
      simp only [] at e
      have r1 : Res (hwOf (upd s.drv d (some { x with refs := x.refs.erase h }))) s.fds s.maps s.next s.log := by
        rw [hwOf_refs hx]; exact r
      by_cases he : x.refs.erase h = []
      · rw [if_pos he] at e
        cases e
        have := Res.closed (s := { s with drv := upd s.drv d (some { x with refs := x.refs.erase h }) }) r1 (upd_same _ _ _)
        obtain ⟨r2, hd, hb⟩ := this
        refine ⟨?_, hb, x, hx, hm, ?_⟩
        · refine Res.other ?_ (by intro n o; rfl) (by intro n o; rfl)
          rw [hwOf_upd]
          refine r2.drop ?_
          rw [hd]
          simp [hwOf, upd_same]
        · simp only [hd, if_pos he, upd_upd]
      · rw [if_neg he] at e
        cases e
        refine ⟨r1, rfl, x, hx, hm, ?_⟩
        rw [if_neg he]
    · cases e

/-- A reference is dropped by someone else than a buffer. -/
theorem Refs.unref {drv : Nat → Option Drv} {buf : Nat → Option Nat} (r : Refs drv buf) {d : Nat} {x : Drv} {h : Holder}
    (hx : drv d = some x) (hm : h ∈ x.refs) (hh : ∀ n, h ≠ .buffer n) :
    Refs (upd drv d (if x.refs.erase h = [] then none else some { x with refs := x.refs.erase h })) buf := by
  have hnd := r.nodup _ _ hx
  have hme : ∀ a, a ∈ x.refs.erase h ↔ a ≠ h ∧ a ∈ x.refs := fun a => hnd.mem_erase_iff
  constructor
  · have := r.nonempty; unfold upd; grind
  · have := r.nodup; unfold upd; grind
  · intro n d'
    rw [r.buf]
    by_cases hd : d' = d
    · subst hd
      rw [upd_same]
      constructor
      · rintro ⟨x', h1, h2⟩
        rw [hx] at h1; cases h1
        have : (Holder.buffer n) ∈ x.refs.erase h := (hme _).2 ⟨fun h => hh n h.symm, h2⟩
        rw [if_neg (List.ne_nil_of_mem this)]
        exact ⟨_, rfl, this⟩
      · rintro ⟨x', h1, h2⟩
        split at h1
        · cases h1
        · cases h1
          exact ⟨x, hx, ((hme _).1 h2).2⟩
    · rw [upd_ne _ _ hd]

/-- And by a buffer which is freed. -/
theorem Refs.release {drv : Nat → Option Drv} {buf : Nat → Option Nat} (r : Refs drv buf) {d n : Nat} {x : Drv}
    (hx : drv d = some x) (hm : .buffer n ∈ x.refs) :
    Refs (upd drv d (if x.refs.erase (.buffer n) = [] then none else some { x with refs := x.refs.erase (.buffer n) }))
      (upd buf n none) := by
  have hnd := r.nodup _ _ hx
  have hme : ∀ a, a ∈ x.refs.erase (.buffer n) ↔ a ≠ .buffer n ∧ a ∈ x.refs := fun a => hnd.mem_erase_iff
  have hb : buf n = some d := (r.buf _ _).2 ⟨x, hx, hm⟩
  constructor
  · have := r.nonempty; unfold upd; grind
  · have := r.nodup; unfold upd; grind
  · intro m d'
    by_cases hmn : m = n
    · subst hmn
      rw [upd_same]
      constructor
      · intro h; cases h
      · rintro ⟨x', h1, h2⟩
        by_cases hd : d' = d
        · subst hd
          rw [upd_same] at h1
          split at h1
          · cases h1
          · cases h1
            exact absurd rfl ((hme _).1 h2).1
        · rw [upd_ne _ _ hd] at h1
          have := (r.buf _ _).2 ⟨x', h1, h2⟩
          rw [hb] at this
          cases this
          exact absurd rfl hd
    · rw [upd_ne _ _ hmn, r.buf]
      by_cases hd : d' = d
      · subst hd
        rw [upd_same]
        constructor
        · rintro ⟨x', h1, h2⟩
          rw [hx] at h1; cases h1
          have : (Holder.buffer m) ∈ x.refs.erase (.buffer n) := (hme _).2 ⟨by simpa using hmn, h2⟩
          rw [if_neg (List.ne_nil_of_mem this)]
          exact ⟨_, rfl, this⟩
        · rintro ⟨x', h1, h2⟩
          split at h1
          · cases h1
          · cases h1
            exact ⟨x, hx, ((hme _).1 h2).2⟩
      · rw [upd_ne _ _ hd]

/-- The same references. -/
theorem Refs.same {drv : Nat → Option Drv} {buf : Nat → Option Nat} (r : Refs drv buf) {d : Nat} {x x' : Drv}
    (hx : drv d = some x) (he : x'.refs = x.refs) : Refs (upd drv d (some x')) buf := by
  constructor
  · have := r.nonempty; unfold upd; grind
  · have := r.nodup; unfold upd; grind
  · intro n d'
    rw [r.buf]
    by_cases hd : d' = d
    · subst hd
      simp [upd_same, hx, he]
    · rw [upd_ne _ _ hd]

theorem Inv.unref {s s' : State} (i : Inv s) {d : Nat} {h : Holder} (hh : ∀ n, h ≠ .buffer n)
    (e : Gb.Device.unref s d h = .ok s') : Inv s' := by
  obtain ⟨r, hb, x, hx, hm, hd⟩ := Res.unref i.res e
  refine ⟨r, ?_⟩
  rw [hb, hd]
  exact i.refs.unref hx hm hh

theorem Inv.use {s s' : State} (i : Inv s) {d : Nat} (e : Gb.Device.use s d = .ok s') : Inv s' := by
  unfold Gb.Device.use at e
  split at e
  · cases e
  · rename_i x hx
    cases e
    exact ⟨i.res.ioctl (d := d) (v := x.vm) (by simp [hwOf, hx]), i.refs⟩

theorem Inv.open_ {s s' : State} (i : Inv s) {a : Answers} (e : Gb.Device.open_ s a = .ok s') : Inv s' := by
  unfold Gb.Device.open_ at e
  split at e
  · cases e
    exact ⟨i.res.other (by intro n o; rfl) (by intro n o; rfl), i.refs⟩
  · rename_i fd _
    split at e
    · cases e
    · rename_i hfd
      have hfd : s.fds fd = false := by simpa using hfd
      have bad : Inv { sysClose { sysOpen s fd with log := (sysOpen s fd).log ++ [.ioctl (some fd)] } (some fd) with
          log := (sysClose { sysOpen s fd with log := (sysOpen s fd).log ++ [.ioctl (some fd)] } (some fd)).log ++ [.refused] } :=
        ⟨(i.res.tried hfd).other (by intro n o; rfl) (by intro n o; rfl), i.refs⟩
      simp only [] at e
      split at e
      · cases e; exact bad
      · split at e
        · cases e; exact bad
        · rename_i io _
          split at e
          · cases e; exact bad
          · rename_i vm _
            split at e
            · cases e
            · rename_i hvm
              have hvm : s.maps vm = false := by simpa [sysOpen] using hvm
              cases e
              have fresh : s.drv s.next = none := by
                cases hh : s.drv s.next with
                | none => rfl
                | some x => exact absurd (i.res.lt s.next (x.fd, x.vm) (by simp [hwOf, hh])) (by omega)
              constructor
              · have := (i.res.create hfd hvm).other (e := .created s.next io) (by intro n o; rfl) (by intro n o; rfl)
                simp only [sysOpen]
                rw [hwOf_upd]
                simpa using this
              · have hr := i.refs
                simp only [sysOpen]
                constructor
                · have := hr.nonempty; unfold upd; grind
                · have := hr.nodup; unfold upd; grind
                · intro n d
                  rw [hr.buf]
                  by_cases hd : d = s.next
                  · subst hd; simp [upd_same, fresh]
                  · rw [upd_ne _ _ hd]

theorem Inv.step {s s' : State} (i : Inv s) {l : Label} (hok : Decent s l) (e : Gb.Device.step s l = .ok s') : Inv s' := by
  cases l with
  | «open» a => exact i.open_ e
  | looper d n =>
    simp only [Gb.Device.step] at e
    split at e
    · unfold ref at e
      split at e
      · cases e
      · rename_i x hx
        split at e
        · cases e
        · rename_i hn
          cases e
          refine ⟨by rw [hwOf_refs hx]; exact i.res, ?_⟩
          have hr := i.refs
          constructor
          · have := hr.nonempty; unfold upd; grind
          · have := hr.nodup; unfold upd; grind
          · intro m d'
            rw [hr.buf]
            by_cases hd : d' = d
            · subst hd; simp [upd_same, hx]
            · simp only [upd_ne _ _ hd]
    · cases e
  | looperFree d n =>
    simp only [Gb.Device.step] at e
    split at e
    · exact i.unref (by simp) e
    · cases e
  | received d n h =>
    simp only [Gb.Device.step] at e
    split at e
    · rename_i hc
      have hc := hc.2
      cases hu : Gb.Device.use s d with
      | no => rw [hu] at e; cases e
      | ub => rw [hu] at e; cases e
      | ok s1 =>
        have i1 := i.use hu
        have hb : s1.buf = s.buf := by
          unfold Gb.Device.use at hu
          split at hu <;> cases hu
          rfl
        simp only [hu, Out.andThen, ref] at e
        cases hx : s1.drv d with
        | none => rw [hx] at e; cases e
        | some x =>
          simp only [hx] at e
          by_cases hm : .buffer n ∈ x.refs
          · rw [if_pos hm] at e; cases e
          · rw [if_neg hm] at e
            cases e
            refine ⟨by rw [hwOf_refs hx]; exact i1.res, ?_⟩
            have hr := i1.refs
            have hnb : s1.buf n = none := by rw [hb]; exact hc
            show Refs (upd s1.drv d (some { x with refs := .buffer n :: x.refs })) (upd s1.buf n (some d))
            constructor
            · have := hr.nonempty; unfold upd; grind
            · have := hr.nodup; unfold upd; grind
            · intro m d'
              by_cases hmn : m = n
              · subst hmn
                rw [upd_same]
                by_cases hd : d' = d
                · subst hd; simp [upd_same]
                · rw [upd_ne _ _ hd, ← hr.buf, hnb]
                  simp only [Option.some.injEq, reduceCtorEq, iff_false]
                  exact fun h => hd h.symm
              · rw [upd_ne _ _ hmn, hr.buf]
                by_cases hd : d' = d
                · subst hd; simp [upd_same, hx, hmn]
                · rw [upd_ne _ _ hd]
    · cases e
  | access n =>
    simp only [Gb.Device.step, access] at e
    split at e
    · cases e
    · split at e
      · cases e
      · split at e
        · cases e
        · cases e; exact i
  | release n objects =>
    simp only [Gb.Device.step] at e
    split at e
    · cases e
    · rename_i d hbn
      have ha : ∃ e', (if objects then access s n else Out.ok s) = e' ∧ (e' = .ok s ∨ e' = .ub) := by
        refine ⟨_, rfl, ?_⟩
        cases objects
        · exact .inl rfl
        · simp only [if_true, access, hbn]
          split
          · exact .inr rfl
          · split
            · exact .inr rfl
            · exact .inl rfl
      obtain ⟨e', h1, h2⟩ := ha
      rw [h1] at e
      rcases h2 with rfl | rfl
      · simp only [Out.andThen] at e
        cases hu : Gb.Device.use s d with
        | no => rw [hu] at e; cases e
        | ub => rw [hu] at e; cases e
        | ok s1 =>
          have i1 := i.use hu
          rw [hu] at e
          simp only [] at e
          cases hr : Gb.Device.unref s1 d (.buffer n) with
          | no => rw [hr] at e; cases e
          | ub => rw [hr] at e; cases e
          | ok s2 =>
            rw [hr] at e
            simp only [] at e
            cases e
            obtain ⟨r, hb, x, hx, hm, hd⟩ := Res.unref i1.res hr
            refine ⟨r, ?_⟩
            show Refs s2.drv (upd s2.buf n none)
            rw [hb, hd]
            exact i1.refs.release hx hm
      · cases e
  | use d h =>
    simp only [Gb.Device.step] at e
    split at e
    · exact i.use e
    · cases e
  | stuck d =>
    simp only [Gb.Device.step] at e
    split at e
    · split at e
      · cases e
      · rename_i x hx
        cases e
        obtain ⟨r, hd, hb⟩ := Res.closed i.res hx
        refine ⟨r, ?_⟩
        rw [hd, hb]
        exact i.refs.same hx rfl
    · cases e
  | finalize d =>
    simp only [Gb.Device.step] at e
    split at e
    · exact i.unref (by simp) e
    · cases e
  | appOpen fd =>
    simp only [Gb.Device.step] at e
    split at e
    · cases e
    · rename_i h
      cases e
      exact ⟨i.res.appOpen (by simpa using h), i.refs⟩
  | appClose fd =>
    simp only [Gb.Device.step] at e
    split at e
    · cases e
      exact ⟨i.res.appClose hok, i.refs⟩
    · cases e

theorem Inv.reach {s : State} (h : ReachIf Gb.Device.step Decent {} s) : Inv s := by
  induction h with
  | init => exact Inv.init
  | step l _ hok hs ih => exact ih.step hok hs

theorem Smooth.decent {s : State} {l : Label} (h : Smooth s l) : Decent s l := by
  cases l <;> first | exact h | exact trivial

theorem decent_of_smooth {s : State} (h : ReachIf Gb.Device.step Smooth {} s) : ReachIf Gb.Device.step Decent {} s := by
  induction h with
  | init => exact .init
  | step l _ hok hs ih => exact .step l ih hok.decent hs

end Gb.Device
