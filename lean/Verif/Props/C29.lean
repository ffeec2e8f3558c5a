import Verif.Lemmas.HandlesReg
/-
C29: while a remote object for a handle is referenced and alive, every lookup of that handle
returns the same object, and its death notification is delivered to that object.

As stated this is not true (`C29_fails_*`): objects remove themselves from the table by handle, and
death notifications carry nothing but the handle, so a handle which is reused by the kernel while
something is left of the previous object with the same handle causes confusion. What is proved
(`C29_*_partial`) is that the property holds as long as that doesn't happen (Spec/Handles.lean).
-/
set_option autoImplicit false

namespace Gb.C29
open Gb.RemoteObj

/-- Somebody other than those who are about to release the object has a reference. -/
def Held (s : State) (p : Nat) : Prop := 0 < s.user p ∨ p ∈ s.found ∨ ∃ b, ⟨p, b⟩ ∈ s.tasks

theorem held_table {s : State} (h : ReachIf step Fresh {} s) {p : Nat} {o : Obj}
    (ho : s.objs p = some o) (hd : o.dead = false) (hh : Held s p) : s.table o.handle = some p := by
  have hi := inv_reach h.reach
  have hp : 0 < s.user p + s.f p + s.t p := by
    rcases hh with hh | hh | ⟨b, hh⟩
    · omega
    · have : 0 < s.f p := pos_of_mem hh (by simp)
      omega
    · have : 0 < s.t p := pos_of_mem hh (by simp)
      omega
  have hr := refs_eq hi ho
  rcases (uniq_reach h).tab p o ho (.inl hd) with h1 | ⟨h1, h2⟩ | h1
  · exact h1
  · omega
  · have := zero_of_fin hi ho h1; omega

/-- The lookup returns the object (another reference to it), and doesn't create or return
anything else. -/
theorem C29_lookup_partial {s : State} (h : ReachIf step Fresh {} s) {p : Nat} {o : Obj}
    (ho : s.objs p = some o) (hd : o.dead = false) (hh : Held s p) (c : Create) (id : Nat) :
    ∃ s', step s (.lookup o.handle c id) = .ok s' ∧ s'.user p = s.user p + 1 ∧
      s'.objs p = some { o with refs := o.refs + 1 } ∧
      (∀ q, q ≠ p → s'.user q = s.user q ∧ s'.objs q = s.objs q) ∧ s'.table = s.table ∧
      s'.log = s.log := by
  have ht := held_table h ho hd hh
  have hr := refs_eq (inv_reach h.reach) ho
  have hp : 0 < o.refs := by
    rcases hh with hh | hh | ⟨b, hh⟩
    · omega
    · have : 0 < s.f p := pos_of_mem hh (by simp)
      omega
    · have : 0 < s.t p := pos_of_mem hh (by simp)
      omega
  have h0 : ¬ o.refs = 0 := by omega
  refine ⟨{ s with user := upd s.user p (s.user p + 1), objs := upd s.objs p (some { o with refs := o.refs + 1 }) }, ?_, ?_, ?_, ?_, rfl, rfl⟩
  · simp only [step, ht, State.addRef, ho, h0, if_false]
  · exact upd_same _ _ _
  · exact upd_same _ _ _
  · intro q hq
    exact ⟨upd_ne _ _ hq, upd_ne _ _ hq⟩

/-- There's never more than one object for a handle. -/
theorem C29_one_partial {s : State} (h : ReachIf step Fresh {} s) {p q : Nat} {o o' : Obj}
    (hp : s.objs p = some o) (hq : s.objs q = some o') (he : o.handle = o'.handle) : p = q :=
  (uniq_reach h).one p q o o' hp hq he

/-- The death notification for a handle has been requested by the object for that handle. -/
theorem C29_death_partial {s s' : State} (h : ReachIf step Fresh {} s) {p : Nat} {o : Obj}
    (ho : s.objs p = some o) (hs : step s (.deadBinder o.handle) = .ok s') :
    s'.incoming = (o.handle, p) :: s.incoming := by
  simp only [step] at hs
  split at hs
  · rename_i a ha
    cases hs
    obtain ⟨o', h1, h2, -⟩ := (uniq_reach h).reg _ _ ha
    rw [(uniq_reach h).one p a o o' ho h1 h2.symm]
  · cases hs

/-- And that's the object which gets it. -/
theorem C29_delivered_partial {s : State} (h : ReachIf step Fresh {} s) {p a : Nat} {o : Obj}
    (ho : s.objs p = some o) (hd : o.dead = false) (hh : Held s p)
    (hm : (o.handle, a) ∈ s.incoming) :
    a = p ∧ ∃ s', step s (.deliver o.handle a) = .ok s' ∧ s'.found = p :: s.found := by
  have ht := held_table h ho hd hh
  have hpa := (uniq_reach h).inc _ _ p o hm ho rfl
  have hr := refs_eq (inv_reach h.reach) ho
  have hp : 0 < o.refs := by
    rcases hh with hh | hh | ⟨b, hh⟩
    · omega
    · have : 0 < s.f p := pos_of_mem hh (by simp)
      omega
    · have : 0 < s.t p := pos_of_mem hh (by simp)
      omega
  have h0 : ¬ o.refs = 0 := by omega
  refine ⟨hpa.symm, { s with incoming := s.incoming.erase (o.handle, a), found := p :: s.found, objs := upd s.objs p (some { o with refs := o.refs + 1 }) }, ?_, rfl⟩
  simp only [step, hm, if_true, ht, State.addRef, ho, h0, if_false]

/-- While the object is alive and referenced, the kernel has been asked to tell it about the death of the other side, or the
notification is on the way. -/
theorem C29_watched_partial {s : State} (h : ReachIf step Fresh {} s) {p : Nat} {o : Obj}
    (ho : s.objs p = some o) (hd : o.dead = false) (hh : Held s p) :
    s.reg o.handle = some p ∨ (o.handle, p) ∈ s.incoming ∨ p ∈ s.found ∨ ⟨p, false⟩ ∈ s.tasks :=
  watched_reach h p o ho hd (held_table h ho hd hh)

/-- An object dies, its last reference is released, and then the handle is used again. -/
example : ∃ s, ReachIf step Fresh {} s ∧ ∃ o, s.objs 8 = some o ∧ o.dead = false ∧ o.handle = 5 ∧
    Held s 8 ∧ (5, 8) ∈ s.incoming := by
  apply Exists.intro
  apply And.intro
  · refine .step (.deadBinder 5) (.step (.lookup 5 .acquired 8)
      (.step (.free 7) (.step (.invalidate 7) (.step (.settle 7) (.step (.dispose 7) (.step (.unref 7)
        (.step (.done 7) (.step (.bury 7) (.step (.run 7) (.step (.notify 7) (.step (.deliver 5 7)
          (.step (.deadBinder 5) (.step (.lookup 5 .alive 7) .init ?_ rfl)
      trivial rfl) trivial rfl) trivial rfl) trivial rfl) trivial rfl) trivial rfl) trivial rfl)
      trivial rfl) trivial rfl) trivial rfl) trivial rfl) ?_ rfl) trivial rfl
    · intro _ _
      exact ⟨fun p o hp => (by cases hp), fun a ha => (by cases ha)⟩
    · intro _ _
      refine ⟨fun p o hp => ?_, fun a ha => ?_⟩
      · by_cases h7 : p = 7
        · subst h7; cases hp
        · simp [State.add, upd, h7, create] at hp
      · cases ha
  · exact ⟨_, rfl, rfl, rfl, .inl (by decide), by decide⟩

/-- The object 7 died while somebody had a reference to it. The handle has been reused, the object
8 is alive. When the last reference to 7 is released, the handle is removed from the table. The
next lookup creates yet another object, and 8 will never find out that the remote has died. -/
theorem C29_fails_reuse : (exec step {} [.lookup 5 .acquired 7, .deadBinder 5, .deliver 5 7, .notify 7,
    .run 7, .bury 7, .done 7, .lookup 5 .acquired 8, .unref 7, .dispose 7,
    .lookup 5 .acquired 9]).holds (fun s =>
      s.objs 8 == some ⟨1, 5, false, true⟩ && s.user 8 == 1 &&
      s.objs 9 == some ⟨1, 5, false, true⟩ && s.user 9 == 1 && s.table 5 == some 9) = true := by
  decide +kernel

/-- The last reference to the object 7 is being released by one thread, when another thread asks
for an object with the same handle. No-one has died, but then the first thread removes the new
object from the table, and even tells the kernel not to send the death notification. -/
theorem C29_fails_race : (exec step {} [.lookup 5 .acquired 7, .unref 7, .dispose 7,
    .lookup 5 .acquired 8, .settle 7, .invalidate 7, .free 7]).holds (fun s =>
      s.objs 8 == some ⟨1, 5, false, true⟩ && s.user 8 == 1 && s.table 5 == none &&
      s.reg 5 == none) = true := by decide +kernel

/-- The notification for the object 7 arrives after the object is gone and the handle has been
reused, and the object 8 is declared dead. -/
theorem C29_fails_stale : (exec step {} [.lookup 5 .acquired 7, .deadBinder 5, .unref 7, .dispose 7,
    .settle 7, .invalidate 7, .free 7, .lookup 5 .acquired 8, .deliver 5 7, .notify 8, .run 8,
    .bury 8]).holds (fun s =>
      s.objs 8 == some ⟨2, 5, true, false⟩ && s.user 8 == 1 && s.reg 5 == some 8) = true := by
  decide +kernel

end Gb.C29
