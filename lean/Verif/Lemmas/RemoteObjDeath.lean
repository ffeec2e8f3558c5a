import Verif.Model.RemoteObj
/- Death notifications are conserved. -/
set_option autoImplicit false

namespace Gb.RemoteObj

/-- The notification has been acknowledged because there's no such object, or passed to the object. -/
def Ev.settles : Ev → Bool
  | .unknown _ => true
  | .handled _ => true
  | _ => false

/-- The kernel has sent a notification. -/
def Label.dead : Label → Bool
  | .deadBinder _ => true
  | _ => false

/-- All notifications. -/
def State.deaths (s : State) : Nat := s.incoming.length + s.found.length + s.log.countP Ev.settles

theorem deaths_addRef {s s' : State} {p : Nat} (h : s.addRef p = .ok s') : s'.deaths = s.deaths := by
  unfold State.addRef at h
  split at h
  · cases h
  · split at h
    · cases h
    · cases h; rfl

theorem deaths_unref {s s' : State} {p : Nat} (h : s.unref p = .ok s') : s'.deaths = s.deaths := by
  unfold State.unref at h
  repeat' split at h
  all_goals first
    | cases h; done
    | (cases h; rfl)

theorem deaths_add {s : State} {l : List Ev} : (s.add l).deaths = s.deaths + l.countP Ev.settles := by
  simp only [State.deaths, State.add, List.countP_append]
  omega

theorem deaths_rel (p : Nat) (o : Obj) : (relEv p o).countP Ev.settles = 0 := by
  unfold relEv
  split <;> rfl

theorem deaths_create {s : State} {h : Nat} {c : Create} {id : Nat} : (create s h c id).deaths = s.deaths := by
  unfold create
  split
  · rfl
  all_goals (rw [deaths_add]; rfl)

theorem deaths_step {s s' : State} {l : Label} (h : step s l = .ok s') :
    s'.deaths = s.deaths + if l.dead then 1 else 0 := by
  cases l with
  | lookup a c id =>
    simp only [step] at h
    split at h
    · have h1 := deaths_addRef h
      exact h1
    · split at h
      · cases h; rfl
      · split at h
        · cases h
          exact deaths_create
        · cases h
  | ref p =>
    simp only [step] at h
    split at h
    · have h1 := deaths_addRef h
      exact h1
    · cases h
  | unref p =>
    simp only [step] at h
    split at h
    · have h1 := deaths_unref h
      exact h1
    · cases h
  | deadBinder a =>
    simp only [step] at h
    split at h
    · cases h
      simp only [State.deaths, List.length_cons, Label.dead, if_true]
      omega
    · cases h
  | deliver a b =>
    simp only [step] at h
    split at h
    · rename_i hm
      have hl := List.length_erase_of_mem hm
      have hp := List.length_pos_of_mem hm
      split at h
      · rw [deaths_addRef h]
        simp only [State.deaths, List.length_cons, hl, Label.dead]
        simp
        omega
      · cases h
        rw [deaths_add]
        simp only [State.deaths, hl, Label.dead, List.countP_cons, List.countP_nil, Ev.settles]
        simp
        omega
    · cases h
  | notify p =>
    simp only [step] at h
    split at h
    · rename_i hm
      have hl := List.length_erase_of_mem hm
      have hp := List.length_pos_of_mem hm
      cases h
      rw [deaths_add]
      simp only [State.deaths, hl, Label.dead, List.countP_cons, List.countP_nil, Ev.settles]
      simp
      omega
    · cases h
  | done p =>
    simp only [step] at h
    split at h
    · have h1 := deaths_unref h
      exact h1
    · cases h
  | _ =>
    simp only [step] at h
    repeat' split at h
    all_goals first
      | (cases h; done)
      | (cases h; rfl)
      | (cases h; rw [deaths_add]; simp [deaths_rel, Ev.settles, State.deaths, Label.dead, List.countP_cons])
      | (cases h; rw [deaths_add]; split <;> simp [deaths_rel, Ev.settles, State.deaths, Label.dead, List.countP_cons])

theorem deaths_exec {s s' : State} {ls : List Label} (h : exec step s ls = .ok s') :
    s'.deaths = s.deaths + ls.countP Label.dead := by
  induction ls generalizing s with
  | nil => cases h; rfl
  | cons l ls ih =>
    simp only [exec] at h
    cases hs : step s l with
    | ok s1 =>
      rw [hs] at h
      have h1 := ih h
      have h2 := deaths_step hs
      rw [List.countP_cons]
      omega
    | no => rw [hs] at h; cases h
    | ub => rw [hs] at h; cases h

end Gb.RemoteObj
