import Verif.Lemmas.Nested
/-
C90. Each call gets its own reply, no matter how calls are nested.
-/
set_option autoImplicit false

namespace Gb.C90
open Nested

/-- C90: what a call returns is the reply which was made to that very call, by a thread which has made it; no matter how deeply calls
are nested, how many chains of calls there are, who has failed and who has died. -/
theorem C90_own {s : State} (h : Reach step {} s) {t k i : Nat} (he : .result t k i ∈ s.log) :
    k = i ∧ .made t i ∈ s.log ∧ .answered i ∈ s.log := (Told.reach h).result t k i he

/-- C90: a call fails only because of an error which is about that very call. -/
theorem C90_failed {s : State} (h : Reach step {} s) {t k : Nat} {i : Option Nat} (he : .failed t k i ∈ s.log) :
    i = some k ∧ .made t k ∈ s.log := (Told.reach h).failed t k i he

/-- C90: no reply (and no error) is dropped, or taken for the confirmation that something has been sent. -/
theorem C90_lost {s : State} (h : Reach step {} s) (t i : Nat) : .lost t i ∉ s.log := (Told.reach h).lost t i

/-- C90: a call ends at most once. -/
theorem C90_once {s : State} (h : Reach step {} s) (i : Nat) : ends i s.log ≤ 1 := by
  rcases (Told.reach h).once i with h | ⟨h, _⟩ <;> omega

/-- C90: a thread which handles a call is handling the last one of its chain, so it's that one which it replies to (and the calls which
it makes belong to that chain); and there's nothing for it in the kernel that it could take for something else. -/
theorem C90_active {s : State} (h : Reach step {} s) {t i : Nat} {fs : List Frame} (ht : s.dead t = false)
    (hf : s.frames t = .handle i :: fs) :
    s.todo t = [] ∧ ∃ h0 x c, s.chain h0 = x :: c ∧ x.to = some t ∧ x.id = i := (Inv.reach h).active ht hf

theorem mem_expected {t : Nat} {f : Frame} {c : List Tx} (h : f ∈ expected t c) :
    ∃ x ∈ c, (f = .handle x.id ∧ x.to = some t) ∨ (f = .call x.id ∧ x.src = t) := by
  induction c with
  | nil => cases h
  | cons x c ih =>
    simp only [expected, List.mem_append] at h
    rcases h with (h | h) | h
    · split at h
      · exact ⟨x, List.mem_cons_self, .inl ⟨List.mem_singleton.1 h, by assumption⟩⟩
      · cases h
    · split at h
      · exact ⟨x, List.mem_cons_self, .inr ⟨List.mem_singleton.1 h, by assumption⟩⟩
      · cases h
    · obtain ⟨y, hy, h⟩ := ih h
      exact ⟨y, List.mem_cons_of_mem _ hy, h⟩

/-- C90: if there's nothing for a thread in the kernel, then it isn't waiting until something it has sent is handled, and each call
which it's waiting for hasn't been replied to. -/
theorem C90_waits {s : State} (h : Reach step {} s) {t : Nat} (ht : s.dead t = false) (hw : s.todo t = []) :
    .oneway ∉ s.frames t ∧ .replied ∉ s.frames t ∧
    ∀ i, .call i ∈ s.frames t → ∃ h0, ∃ x ∈ s.chain h0, x.id = i ∧ x.src = t := by
  obtain ⟨h0, hr, _⟩ := (Inv.reach h).fine t ht
  rw [hw] at hr
  simp only [run, Option.some.injEq] at hr
  rw [hr]
  refine ⟨fun hm => ?_, fun hm => ?_, fun i hm => ?_⟩
  · obtain ⟨x, _, h | h⟩ := mem_expected hm <;> cases h.1
  · obtain ⟨x, _, h | h⟩ := mem_expected hm <;> cases h.1
  · obtain ⟨x, hx, h | h⟩ := mem_expected hm
    · cases h.1
    · have := h.1
      simp only [Frame.call.injEq] at this
      exact ⟨h0, x, hx, this.symm, h.2⟩

/-- Those who handle calls reply, the kernel notices who's gone, and threads which wait read what there is. Nobody calls anything. -/
def Replying : Label → Prop
  | .read _ | .reply _ _ _ | .reap _ => True
  | _ => False

/-- An execution of such steps, none of which concerns other chains. -/
def Leads (h0 : Nat) (s s' : State) : Prop :=
  ∃ ls, (∀ l ∈ ls, Replying l) ∧ exec step s ls = .ok s' ∧ s'.dead = s.dead ∧ ∀ k, k ≠ h0 → s'.chain k = s.chain k

theorem Leads.refl (h0 : Nat) (s : State) : Leads h0 s s := ⟨[], by simp, rfl, rfl, fun _ _ => rfl⟩

theorem Leads.trans {h0 : Nat} {a b c : State} (h : Leads h0 a b) (h' : Leads h0 b c) : Leads h0 a c := by
  obtain ⟨ls, h1, h2, h3, h4⟩ := h
  obtain ⟨ls', h1', h2', h3', h4'⟩ := h'
  refine ⟨ls ++ ls', ?_, ?_, by rw [h3', h3], fun k hk => by rw [h4' k hk, h4 k hk]⟩
  · intro l hl
    rcases List.mem_append.1 hl with hl | hl
    · exact h1 l hl
    · exact h1' l hl
  · rw [exec_append, h2]
    exact h2'

theorem Leads.single {h0 : Nat} {a b : State} {l : Label} (hl : Replying l) (hs : step a l = .ok b) (hd : b.dead = a.dead)
    (hc : ∀ k, k ≠ h0 → b.chain k = a.chain k) : Leads h0 a b :=
  ⟨[l], by simpa using hl, by simp [exec, hs], hd, hc⟩

theorem Leads.reach {h0 : Nat} {a b : State} (h : Leads h0 a b) (hr : Reach step {} a) : Reach step {} b := by
  obtain ⟨ls, _, h, _⟩ := h
  obtain ⟨l0, h0⟩ := hr
  exact ⟨l0 ++ ls, by rw [exec_append, h0]; exact h⟩

theorem drain {s : State} (hr : Reach step {} s) {t : Nat} (ht : s.dead t = false) (h0 : Nat) (n : Nat) (hn : (s.todo t).length = n) :
    ∃ s', Leads h0 s s' ∧ s'.todo t = [] ∧ s'.chain = s.chain := by
  induction n generalizing s with
  | zero => exact ⟨s, Leads.refl h0 s, List.length_eq_zero_iff.1 hn, rfl⟩
  | succ n ih =>
    cases hw : s.todo t with
    | nil => rw [hw] at hn; cases hn
    | cons w ws =>
      have hs : step s (.read t) = .ok { s with
          todo := upd s.todo t ws, frames := upd s.frames t (react t (s.frames t) w).1
          log := s.log ++ (react t (s.frames t) w).2 } := by
        simp only [step, hw, ht]
        split
        · cases ‹false = true›
        · split
          · rename_i hf
            have := ((Inv.reach hr).active ht hf).1
            rw [hw] at this
            cases this
          · rfl
      obtain ⟨s', h1, h2, h3⟩ := ih (hr.step hs) ht (by simp only [upd_same]; rw [hw] at hn; simpa using hn)
      exact ⟨s', (Leads.single (l := .read t) trivial hs rfl fun _ _ => rfl).trans h1, h2, h3⟩

theorem unwind_length (dead : Nat → Bool) (x : Tx) (c : List Tx) : (unwind dead (x :: c)).1.length ≤ c.length := by
  induction c generalizing x with
  | nil => simp only [unwind]; split <;> simp
  | cons y c ih =>
    rw [unwind]
    split
    · have := ih y
      simp only [List.length_cons]
      omega
    · simp

theorem abort_chain {s : State} {h0 : Nat} {x : Tx} {c : List Tx} (hc : s.chain h0 = x :: c) :
    ((s.abort h0).chain h0).length ≤ c.length ∧ (s.abort h0).dead = s.dead ∧ ∀ k, k ≠ h0 → (s.abort h0).chain k = s.chain k := by
  have := unwind_length s.dead x c
  simp only [State.abort, hc]
  split
  · rename_i c' h
    rw [h] at this
    exact ⟨by simp only [upd_same]; exact this, rfl, fun k hk => upd_ne _ _ hk⟩
  · rename_i c' u i h
    rw [h] at this
    exact ⟨by simp only [State.post, upd_same]; exact this, rfl, fun k hk => upd_ne _ _ hk⟩

theorem pop {s : State} (hr : Reach step {} s) {h0 : Nat} {x : Tx} {c : List Tx} (hc : s.chain h0 = x :: c) :
    ∃ s', Leads h0 s s' ∧ (s'.chain h0).length ≤ c.length := by
  obtain ⟨a1, a2, a3⟩ := abort_chain hc
  cases hx : x.to with
  | none => exact ⟨s.abort h0, Leads.single (l := .reap h0) trivial (by simp [step, hc, hx]) a2 a3, a1⟩
  | some u =>
    by_cases hd : s.dead u = true
    · exact ⟨s.abort h0, Leads.single (l := .reap h0) trivial (by simp [step, hc, hx, hd]) a2 a3, a1⟩
    · have hd : s.dead u = false := by simpa using hd
      obtain ⟨s1, h1, h2, h3⟩ := drain hr hd h0 _ rfl
      have hr1 := h1.reach hr
      have hd1 : s1.dead u = false := by
        obtain ⟨_, _, _, e, _⟩ := h1
        rw [e]; exact hd
      have hc1 : s1.chain h0 = x :: c := by rw [h3]; exact hc
      have hf : s1.frames u = expected u (s1.chain h0) := by
        rcases (Inv.reach hr1).cases h0 hd1 (by rw [h2]; rfl) with he | he
        · exact he
        · rw [hc1, expected, if_pos hx] at he
          cases he
      rw [hc1, expected, if_pos hx] at hf
      simp only [List.cons_append, List.nil_append] at hf
      generalize (if x.src = u then [Frame.call x.id] else []) ++ expected u c = fs at hf
      have hc2 : (State.post { s1 with frames := upd s1.frames u (Frame.replied :: fs) } u Work.complete).chain h0 = x :: c := hc1
      obtain ⟨b1, b2, b3⟩ := abort_chain hc2
      refine ⟨_, h1.trans (Leads.single (l := .reply u h0 false) trivial ?_ b2 b3), b1⟩
      simp only [step, hd1, hf, hc1, hx]
      simp

theorem empty {s : State} (hr : Reach step {} s) (h0 n : Nat) (hn : (s.chain h0).length ≤ n) :
    ∃ s', Leads h0 s s' ∧ s'.chain h0 = [] := by
  induction n generalizing s with
  | zero => exact ⟨s, Leads.refl h0 s, List.length_eq_zero_iff.1 (by omega)⟩
  | succ n ih =>
    cases hc : s.chain h0 with
    | nil => exact ⟨s, Leads.refl h0 s, hc⟩
    | cons x c =>
      obtain ⟨s1, h1, h2⟩ := pop hr hc
      obtain ⟨s2, h3, h4⟩ := ih (h1.reach hr) (by rw [hc] at hn; simp only [List.length_cons] at hn; omega)
      exact ⟨s2, h1.trans h3, h4⟩

/-- C90: whatever a thread is waiting for, it'll get there if those who handle calls reply to them: all of its calls return. Nobody is
waiting for something that has already happened, or for each other. -/
theorem C90_returns {s : State} (h : Reach step {} s) {t : Nat} (ht : s.dead t = false) :
    ∃ ls s', (∀ l ∈ ls, Replying l) ∧ exec step s ls = .ok s' ∧ s'.frames t = [] ∧ s'.todo t = [] := by
  obtain ⟨h0, hr, ho⟩ := (Inv.reach h).fine t ht
  obtain ⟨s1, h1, h2⟩ := empty h h0 _ (Nat.le_refl _)
  have hd1 : s1.dead t = false := by obtain ⟨_, _, _, e, _⟩ := h1; rw [e]; exact ht
  obtain ⟨s2, h3, h4, h5⟩ := drain (h1.reach h) hd1 h0 _ rfl
  have h6 := h1.trans h3
  obtain ⟨ls, h7, h8, h9, h10⟩ := h6
  refine ⟨ls, s2, h7, h8, ?_, h4⟩
  have hd2 : s2.dead t = false := by rw [h9]; exact ht
  obtain ⟨k, hk, _⟩ := (Inv.reach (h3.reach (h1.reach h))).fine t hd2
  rw [h4] at hk
  simp only [run, Option.some.injEq] at hk
  rw [hk]
  by_cases he : k = h0
  · subst he
    rw [h5, h2]
    rfl
  · rw [h10 k he]
    exact ho k he

/-- The thread 0 calls, the thread 1 calls it back, which calls 1 again; all of that is replied to. -/
def nested : List Label :=
  [.call 0 0, .pick 1 0, .read 1, .callTo 1 0 0, .read 0, .read 0, .callTo 0 0 1, .oneway 2, .read 1, .read 1, .oneway 1, .read 1,
   .reply 1 0 true, .read 0, .read 0, .reply 0 0 true, .read 1, .read 1, .reply 1 0 true, .read 0, .read 0, .read 1, .read 2]

example : (exec step {} nested).holds (fun s => decide (s.log = [.made 0 0, .made 1 1, .made 0 2, .answered 2, .result 0 2 2,
    .answered 1, .result 1 1 1, .answered 0, .result 0 0 0] ∧ s.frames 0 = [] ∧ s.frames 1 = [] ∧ s.todo 0 = [] ∧
    s.todo 1 = [] ∧ s.chain 0 = [])) = true := by decide +kernel

/-- The same, but the thread 1 dies while the thread 0 is handling its call. -/
def deadly : List Label :=
  [.call 0 0, .pick 1 0, .read 1, .callTo 1 0 0, .read 0, .read 0, .die 1, .reply 0 0 true, .read 0, .read 0]

example : (exec step {} deadly).holds (fun s => decide (s.log = [.made 0 0, .made 1 1, .failed 0 0 (some 0)] ∧
    s.frames 0 = [] ∧ s.todo 0 = [] ∧ s.chain 0 = [])) = true := by decide +kernel

/-- In the middle of that: a thread which is waiting, with nothing to read. -/
example : (exec step {} (nested.take 9)).holds (fun s => decide (s.dead 0 = false ∧ s.todo 0 = [.complete] ∧
    s.frames 0 = [.call 2, .handle 1, .call 0] ∧ s.frames 1 = [.call 1, .handle 0])) = true := by decide +kernel

example : (exec step {} (nested.take 5)).holds (fun s => decide (s.dead 1 = false ∧ s.frames 1 = [.call 1, .handle 0] ∧
    s.todo 1 = [.complete])) = true := by decide +kernel

end Gb.C90
