import Verif.Lemmas.DeviceLife
import Verif.Lemmas.DeviceCalls
/-
C65: opening and closing of devices.
-/
set_option autoImplicit false

namespace Gb.C65

open Device

/-! ### Opening -/

theorem ioFor_eq (v : Int) : ioFor v = supported v := by
  unfold ioFor supported
  split
  · subst_vars; rfl
  · split
    · subst_vars; rfl
    · split <;> simp_all

/-- C65: a device is opened if and only if the kernel lets it be opened and mapped and speaks one of the supported
versions of the interface, which determines the layout of everything that's exchanged with it. Otherwise nothing remains
of the attempt. -/
theorem C65_open {s s' : State} {a : Answers} (h : step s (.open a) = .ok s') :
    (∃ fd v io vm, a.fd = some fd ∧ a.version = some v ∧ supported v = some io ∧ a.vm = some vm ∧
      s'.drv = upd s.drv s.next (some { refs := [.ipc], fd := some fd, vm := some vm, io := io }) ∧
      s'.fds = upd s.fds fd true ∧ s'.maps = upd s.maps vm true ∧ .created s.next io ∈ s'.log) ∨
    ((a.fd = none ∨ a.version = none ∨ (∃ v, a.version = some v ∧ supported v = none) ∨ a.vm = none) ∧
      s'.drv = s.drv ∧ s'.fds = s.fds ∧ s'.maps = s.maps ∧ ∃ l, s'.log = s.log ++ l ++ [.refused] ∧
        ∀ d io, .created d io ∉ l) := by
  simp only [step, open_] at h
  split at h
  · rename_i hf
    cases h
    exact .inr ⟨.inl hf, rfl, rfl, rfl, [], by simp, by simp⟩
  · rename_i fd hf
    split at h
    · cases h
    · rename_i hfree
      have hback : upd (upd s.fds fd true) fd false = s.fds := by
        funext n
        unfold upd
        split
        · subst_vars; simpa using hfree
        · rfl
      have bad : ∀ t, t = ({ sysClose { sysOpen s fd with log := (sysOpen s fd).log ++ [.ioctl (some fd)] } (some fd) with
          log := (sysClose { sysOpen s fd with log := (sysOpen s fd).log ++ [.ioctl (some fd)] } (some fd)).log ++ [.refused] } :
            State) → t.drv = s.drv ∧ t.fds = s.fds ∧ t.maps = s.maps ∧ ∃ l, t.log = s.log ++ l ++ [.refused] ∧
        ∀ d io, .created d io ∉ l := by
        intro t ht
        subst ht
        refine ⟨rfl, hback, rfl, [.opened fd, .ioctl (some fd), .closed (some fd)], ?_, by simp⟩
        simp [sysClose, sysOpen]
      split at h
      · rename_i hv
        cases h
        exact .inr ⟨.inr (.inl hv), bad _ rfl⟩
      · rename_i v hv
        rw [ioFor_eq] at h
        split at h
        · rename_i hio
          cases h
          exact .inr ⟨.inr (.inr (.inl ⟨v, hv, hio⟩)), bad _ rfl⟩
        · rename_i io hio
          split at h
          · rename_i hm
            cases h
            exact .inr ⟨.inr (.inr (.inr hm)), bad _ rfl⟩
          · rename_i vm hm
            split at h
            · cases h
            · cases h
              exact .inl ⟨fd, v, io, vm, hf, hv, hio, hm, rfl, rfl, rfl, by simp [sysOpen]⟩

/-! ### Descriptors and mappings -/

/-- C65: whatever devices are opened, used, closed and let go of, and in whatever order, the library closes each
descriptor it has opened once, and uses it only before that. It has exactly the descriptors of the devices which are open.
(The number is read and used at once here, see `C65_calls_partial` and `C65_fails_reused` for threads which are interrupted.) -/
theorem C65_fds {s : State} (h : ReachIf step Decent {} s) (n : Nat) :
    fdOwner n s.log ≠ none ∧
      (fdOwner n s.log = some .lib ↔ ∃ d x, s.drv d = some x ∧ x.fd = some n) := by
  have i := Inv.reach h
  refine ⟨i.res.owner n, ?_⟩
  rw [i.res.lib]
  constructor
  · rintro ⟨d, v, hd⟩
    simp only [hwOf, Option.map_eq_some_iff] at hd
    obtain ⟨x, hx, e⟩ := hd
    exact ⟨d, x, hx, by simp at e; exact e.1⟩
  · rintro ⟨d, x, hx, e⟩
    exact ⟨d, x.vm, by simp [hwOf, hx, e]⟩

/-- C65: the same for the memory. -/
theorem C65_maps {s : State} (h : ReachIf step Decent {} s) (n : Nat) :
    isMapped n s.log ≠ none ∧
      (isMapped n s.log = some true ↔ ∃ d x, s.drv d = some x ∧ x.vm = some n) := by
  have i := Inv.reach h
  rw [i.res.map]
  refine ⟨by simp, ?_⟩
  simp only [Option.some.injEq]
  rw [i.res.maps]
  constructor
  · rintro ⟨d, v, hd⟩
    simp only [hwOf, Option.map_eq_some_iff] at hd
    obtain ⟨x, hx, e⟩ := hd
    exact ⟨d, x, hx, by simp at e; exact e.2⟩
  · rintro ⟨d, x, hx, e⟩
    exact ⟨d, x.fd, by simp [hwOf, hx, e]⟩

/-- C65: no two devices share a descriptor or a mapping, and a device has both or none. -/
theorem C65_apart {s : State} (h : ReachIf step Decent {} s) {d d' : Nat} {x x' : Drv} (hx : s.drv d = some x)
    (hx' : s.drv d' = some x') :
    (d ≠ d' → (x.fd = none ∨ x.fd ≠ x'.fd) ∧ (x.vm = none ∨ x.vm ≠ x'.vm)) ∧ (x.fd = none ↔ x.vm = none) := by
  have i := Inv.reach h
  have e : hwOf s.drv d = some (x.fd, x.vm) := by simp [hwOf, hx]
  have e' : hwOf s.drv d' = some (x'.fd, x'.vm) := by simp [hwOf, hx']
  refine ⟨fun hne => ⟨?_, ?_⟩, i.res.both _ _ _ e⟩
  · cases hf : x.fd with
    | none => exact .inl rfl
    | some n =>
      refine .inr fun heq => hne ?_
      rw [hf] at e
      rw [← heq] at e'
      exact i.res.uniqFd _ _ _ _ _ e e'
  · cases hf : x.vm with
    | none => exact .inl rfl
    | some n =>
      refine .inr fun heq => hne ?_
      rw [hf] at e
      rw [← heq] at e'
      exact i.res.uniqVm _ _ _ _ _ e e'

/-- C65: a device lives exactly as long as someone refers to it, be it a buffer which has been received through it, and
is freed once. -/
theorem C65_life {s : State} (h : ReachIf step Decent {} s) (d : Nat) :
    life d s.log ≠ none ∧ (life d s.log = some true ↔ ∃ k, holds s d k = true) ∧
      ∀ n, s.buf n = some d → holds s d (.buffer n) = true := by
  have i := Inv.reach h
  have l := Life.reach h d
  rw [l]
  refine ⟨by simp, ?_, ?_⟩
  · simp only [Option.some.injEq]
    constructor
    · intro hs
      obtain ⟨x, hx⟩ := Option.isSome_iff_exists.1 hs
      obtain ⟨k, hk⟩ := List.exists_mem_of_ne_nil _ (i.refs.nonempty _ _ hx)
      exact ⟨k, by simp [holds, hx, hk]⟩
    · rintro ⟨k, hk⟩
      exact Option.isSome_iff_ne_none.2 (holds_drv hk)
  · intro n hn
    obtain ⟨x, hx, hm⟩ := (i.refs.buf _ _).1 hn
    simp [holds, hx, hm]

/-- C65: when nobody refers to any device, nothing of theirs is left. -/
theorem C65_end {s : State} (h : ReachIf step Decent {} s) (hn : ∀ d k, holds s d k = false) (n : Nat) :
    fdOwner n s.log ≠ some .lib ∧ isMapped n s.log = some false := by
  have hd : ∀ d, s.drv d = none := by
    intro d
    cases hx : s.drv d with
    | none => rfl
    | some x =>
      obtain ⟨k, hk⟩ := List.exists_mem_of_ne_nil _ ((Inv.reach h).refs.nonempty _ _ hx)
      have := hn d k
      simp [holds, hx, hk] at this
  constructor
  · rw [Ne, (C65_fds h n).2]
    rintro ⟨d, x, hx, _⟩
    rw [hd] at hx
    cases hx
  · have := C65_maps h n
    cases hm : isMapped n s.log with
    | none => exact absurd hm this.1
    | some b =>
      cases b
      · rfl
      · obtain ⟨d, x, hx, _⟩ := this.2.1 hm
        rw [hd] at hx
        cases hx

/-! ### What has been received -/

/-- C65, as long as no looper hangs: nothing that may happen is undefined, and what has been received stays where it
is as long as the buffer exists, even when the GBinderIpc and all its loopers are gone. (With a looper which hangs it's not
true, see `C65_fails_stuck`.) -/
theorem C65_received_partial {s : State} (h : ReachIf step Smooth {} s) :
    (∀ l, step s l ≠ .ub) ∧
      ∀ n d, s.buf n = some d → step s (.access n) = .ok s ∧
        ∃ x vm, s.drv d = some x ∧ x.vm = some vm ∧ isMapped vm s.log = some true := by
  have hd := decent_of_smooth h
  have i := Inv.reach hd
  have o := AllOpen.reach h
  refine ⟨?_, ?_⟩
  · intro l hl
    obtain ⟨n, d, x, _, hx, hv, _⟩ := i.ub hl
    exact o _ _ hx hv
  · intro n d hn
    obtain ⟨x, hx, _⟩ := (i.refs.buf _ _).1 hn
    have hv := o _ _ hx
    refine ⟨by simp [step, access, hn, hx, hv], ?_⟩
    cases hvm : x.vm with
    | none => exact absurd hvm hv
    | some vm => exact ⟨x, vm, hx, hvm, (C65_maps hd vm).2.2 ⟨d, x, hx, hvm⟩⟩

/-- C65: even if a looper hangs, the only thing which may go wrong is access to what has been received through its device. -/
theorem C65_hangs {s : State} (h : ReachIf step Decent {} s) {l : Label} (hl : step s l = .ub) :
    ∃ n d x, s.buf n = some d ∧ s.drv d = some x ∧ x.vm = none ∧ (l = .access n ∨ l = .release n true) :=
  (Inv.reach h).ub hl

/-! ### Examples -/

def smooth (s : State) : Label → Bool
  | .appClose fd => decide (fdOwner fd s.log = some .app)
  | .stuck _ => false
  | _ => true

def runIf (s : State) : List Label → Option State
  | [] => some s
  | l :: ls =>
    if smooth s l then
      match step s l with
      | .ok s' => runIf s' ls
      | _ => none
    else none

theorem runIf_reach {ls : List Label} : ∀ {s0 s : State}, ReachIf step Smooth {} s0 →
    runIf s0 ls = some s → ReachIf step Smooth {} s := by
  induction ls with
  | nil =>
    intro s0 s h0 h
    cases h
    exact h0
  | cons l ls ih =>
    intro s0 s h0 h
    simp only [runIf] at h
    split at h
    · rename_i hok
      split at h
      · rename_i s1 h1
        refine ih (h0.step l ?_ h1) h
        cases l <;> simp_all [Smooth, Decent, smooth]
      · cases h
    · cases h

def good (fd vm : Nat) (v : Int) : Answers := { fd := some fd, version := some v, vm := some vm, threads := true }

/-- Two devices; a third one can't be opened; the first one is let go of, but a transaction which has been received through it is
still there; its descriptor number is used by the application when that's freed too. -/
def story : List Label :=
  [.open (good 3 0 8), .looper 0 0, .open (good 4 1 7), .open (good 5 2 9), .received 0 7 (.looper 0), .looperFree 0 0,
    .finalize 0, .access 7]

def after : List Label := [.release 7 true, .appOpen 3, .use 1 .ipc]

/-- A concrete case: the hypotheses of `C65_received_partial` (and, with `decent_of_smooth`, of the others) are met with a buffer
whose device is referred to by nobody else. -/
example : ∃ s, ReachIf step Smooth {} s ∧ s.buf 7 = some 0 ∧ holds s 0 .ipc = false ∧ fdOwner 3 s.log = some .lib ∧
    fdOwner 5 s.log = some .nobody := by
  obtain ⟨s, hs, h⟩ := Option.map_eq_some_iff.1
    (show (runIf {} story).map (fun s => decide (s.buf 7 = some 0 ∧ holds s 0 .ipc = false ∧ fdOwner 3 s.log = some .lib ∧
      fdOwner 5 s.log = some .nobody)) = some true by decide +kernel)
  exact ⟨s, runIf_reach .init hs, of_decide_eq_true h⟩

/-- And afterwards. -/
example : ∃ s, ReachIf step Smooth {} s ∧ s.buf 7 = none ∧ life 0 s.log = some false ∧ fdOwner 3 s.log = some .app ∧
    fdOwner 4 s.log = some .lib ∧ isMapped 0 s.log = some false := by
  obtain ⟨s, hs, h⟩ := Option.map_eq_some_iff.1
    (show (runIf {} (story ++ after)).map (fun s => decide (s.buf 7 = none ∧ life 0 s.log = some false ∧
      fdOwner 3 s.log = some .app ∧ fdOwner 4 s.log = some .lib ∧ isMapped 0 s.log = some false)) = some true by decide +kernel)
  exact ⟨s, runIf_reach .init hs, of_decide_eq_true h⟩

/-- A concrete case of `C65_open`, either way. -/
example : (step {} (.open (good 3 0 8))).holds (fun s => decide (.created 0 .io64 ∈ s.log)) = true ∧
    (step {} (.open (good 3 0 6))).holds (fun s => decide (.refused ∈ s.log ∧ s.fds 3 = false)) = true := by
  decide +kernel

theorem run_if {S L : Type} {step : S → L → Out S} {C : S → L → Prop} {init : S} : ∀ {ls : List L} {s0 : S},
    (∀ l ∈ ls, ∀ s, C s l) → ReachIf step C init s0 → ∀ {p : S → Bool}, (exec step s0 ls).holds p = true →
      ∃ s, ReachIf step C init s ∧ p s = true := by
  intro ls
  induction ls with
  | nil => intro s0 _ h0 p h; exact ⟨s0, h0, h⟩
  | cons l ls ih =>
    intro s0 hd h0 p h
    simp only [exec] at h
    cases hs : step s0 l with
    | ok s1 =>
      rw [hs] at h
      exact ih (fun l hl => hd l (List.mem_cons_of_mem _ hl)) (h0.step l (hd l List.mem_cons_self s0) hs) h
    | no => rw [hs] at h; cases h
    | ub => rw [hs] at h; cases h

/-- C65 is not true if a looper hangs: when it doesn't terminate in time, the device is closed although a transaction which has
been received through it is still being handled, and its contents isn't there any more. -/
theorem C65_fails_stuck : ∃ s, ReachIf step Decent {} s ∧ s.buf 7 = some 0 ∧ step s (.access 7) = .ub := by
  have h : (exec step {} [.open (good 3 0 8), .looper 0 0, .received 0 7 (.looper 0), .stuck 0]).holds
      (fun s => decide (s.buf 7 = some 0) && (step s (.access 7)).isUb) = true := by decide +kernel
  have hr : ∀ {ls : List Label} {s0 : State}, (∀ l ∈ ls, ∀ s, Decent s l) → ReachIf step Decent {} s0 → ∀ {p : State → Bool},
      (exec step s0 ls).holds p = true → ∃ s, ReachIf step Decent {} s ∧ p s = true := by
    intro ls
    induction ls with
    | nil => intro s0 _ h0 p h; exact ⟨s0, h0, h⟩
    | cons l ls ih =>
      intro s0 hd h0 p h
      simp only [exec] at h
      cases hs : step s0 l with
      | ok s1 =>
        rw [hs] at h
        exact ih (fun l hl => hd l (List.mem_cons_of_mem _ hl)) (h0.step l (hd l List.mem_cons_self s0) hs) h
      | no => rw [hs] at h; cases h
      | ub => rw [hs] at h; cases h
  obtain ⟨s, r, hp⟩ := hr (by simp [Decent]) .init h
  simp only [Bool.and_eq_true, decide_eq_true_eq] at hp
  exact ⟨s, r, hp.1, Out.isUb_iff.1 hp.2⟩

/-! ### Threads -/

/-- The application closes its own descriptors only. -/
def DecentCalls (s : DeviceCalls.State) : DeviceCalls.Label → Prop
  | .dev l => Decent s.dev l
  | _ => True

/-- And no looper hangs. -/
def SmoothCalls (s : DeviceCalls.State) : DeviceCalls.Label → Prop
  | .dev l => Smooth s.dev l
  | _ => True

/-- C65: if threads are interrupted between reading the number of the descriptor and calling the kernel, or have to call it once
again, it's as if they weren't, as long as no looper hangs: the same happens when the number is read and used at once. So
the claims above are true of any number of threads. (With a looper which hangs it's not true, see `C65_fails_reused`.) -/
theorem C65_calls_partial {s : DeviceCalls.State} (h : ReachIf DeviceCalls.step SmoothCalls {} s) :
    ReachIf step Smooth {} s.dev ∧
      ∀ c ∈ s.calls, ∃ x n, s.dev.drv c.dev = some x ∧ x.fd = c.fd ∧ c.fd = some n ∧ fdOwner n s.dev.log = some .lib := by
  have key : ReachIf step Smooth {} s.dev ∧
      ∀ c ∈ s.calls, holds s.dev c.dev c.by_ = true ∧ ∃ x, s.dev.drv c.dev = some x ∧ x.fd = c.fd := by
    induction h with
    | init => exact ⟨.init, by simp⟩
    | @step s s' l _ hok hs ih =>
    obtain ⟨hr, hc⟩ := ih
    cases l with
    | dev l =>
      simp only [DeviceCalls.step] at hs
      split at hs
      · rename_i t ht
        split at hs
        · rename_i hk
          cases hs
          refine ⟨hr.step l hok ht, ?_⟩
          intro c hm
          obtain ⟨_, x, hx, hf⟩ := hc c hm
          have hh : holds t c.dev c.by_ = true := List.all_eq_true.1 hk c hm
          obtain ⟨x', hx'⟩ := Option.ne_none_iff_exists'.1 (holds_drv hh)
          exact ⟨hh, x', hx', (DeviceCalls.Same.step (Inv.reach (decent_of_smooth hr)) hok ht _ _ _ hx hx').trans hf⟩
        · cases hs
      · cases hs
      · cases hs
    | load d k =>
      simp only [DeviceCalls.step] at hs
      split at hs
      · rename_i hh
        split at hs
        · cases hs
        · rename_i x hx
          cases hs
          refine ⟨hr, ?_⟩
          intro c hm
          rcases List.mem_cons.1 hm with rfl | hm
          · exact ⟨hh, x, hx, rfl⟩
          · exact hc c hm
      · cases hs
    | call c again =>
      simp only [DeviceCalls.step] at hs
      split at hs
      · rename_i hm
        cases hs
        obtain ⟨hh, x, hx, hf⟩ := hc c hm
        refine ⟨hr.step (.use c.dev c.by_) trivial ?_, ?_⟩
        · simp only [step, hh, if_true, use, hx, hf]
        · intro c' hm'
          have hm' : c' ∈ s.calls := by
            cases again
            · exact List.mem_of_mem_erase hm'
            · exact hm'
          exact hc c' hm'
      · cases hs
  refine ⟨key.1, ?_⟩
  intro c hm
  obtain ⟨hh, x, hx, hf⟩ := key.2 c hm
  have hv := AllOpen.reach key.1 _ _ hx
  have hd := decent_of_smooth key.1
  have hb := (C65_apart hd hx hx).2
  cases hn : x.fd with
  | none => exact absurd (hb.1 hn) hv
  | some n => exact ⟨x, n, hx, hf, hf ▸ hn, (C65_fds hd n).2.2 ⟨_, x, hx, hn⟩⟩

/-- A looper, the main thread and the application, which closes and opens something else. -/
def threads : List DeviceCalls.Label :=
  [.dev (.open (good 3 0 8)), .dev (.looper 0 0), .load 0 (.looper 0), .dev (.appOpen 4), .load 0 .ipc,
    .call ⟨0, .looper 0, some 3⟩ true]

/-- A concrete case of `C65_calls_partial`, with two calls in progress. -/
example : ∃ s, ReachIf DeviceCalls.step SmoothCalls {} s ∧ s.calls.length = 2 := by
  have h : (exec DeviceCalls.step {} threads).holds (fun s => decide (s.calls.length = 2)) = true := by decide +kernel
  obtain ⟨s, r, hp⟩ := run_if (C := SmoothCalls) (by simp [threads, SmoothCalls, Smooth, Decent]) .init h
  exact ⟨s, r, by simpa using hp⟩

/-- C65 isn't true if a looper hangs, for another reason: if the thread is about to call the kernel (because it has been interrupted by
a signal, for instance) when the device is closed, and the application opens something else (which gets the same number), the
thread calls the kernel with a descriptor which belongs to the application. -/
theorem C65_fails_reused : ∃ s, ReachIf DeviceCalls.step DecentCalls {} s ∧ s.dev.log =
    [.opened 3, .ioctl (some 3), .mapped 0, .ioctl (some 3), .created 0 .io64, .ioctl (some 3), .unmapped 0, .closed (some 3),
      .appOpened 3, .ioctl (some 3)] ∧ fdOwner 3 s.dev.log = none := by
  have h : (exec DeviceCalls.step {} [.dev (.open (good 3 0 8)), .dev (.looper 0 0), .load 0 (.looper 0),
      .call ⟨0, .looper 0, some 3⟩ true, .dev (.stuck 0), .dev (.appOpen 3), .call ⟨0, .looper 0, some 3⟩ false]).holds
      (fun s => decide (s.dev.log =
    [.opened 3, .ioctl (some 3), .mapped 0, .ioctl (some 3), .created 0 .io64, .ioctl (some 3), .unmapped 0, .closed (some 3),
      .appOpened 3, .ioctl (some 3)] ∧ fdOwner 3 s.dev.log = none)) = true := by decide +kernel
  obtain ⟨s, r, hp⟩ := run_if (C := DecentCalls) (by simp [DecentCalls, Decent]) .init h
  exact ⟨s, r, by simpa using hp⟩

end Gb.C65
