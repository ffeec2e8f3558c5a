import Verif.Spec.Poll
import Verif.Lemmas.Strcmp
/-
C43: GBinderServicePoll announces new names.
-/
set_option autoImplicit false

namespace Gb.C43

open Poll

/-! ### Lists -/

def Sorted (l : List Bytes) : Prop := l.Pairwise fun a b => le a b = true

theorem insert_perm (a : Bytes) (l : List Bytes) : (insertName a l).Perm (a :: l) := by
  induction l with
  | nil => exact List.Perm.refl _
  | cons b l ih =>
    unfold insertName
    split
    · exact List.Perm.refl _
    · exact (List.Perm.cons b ih).trans (List.Perm.swap a b l)

theorem insert_sorted {a : Bytes} {l : List Bytes} (h : Sorted l) : Sorted (insertName a l) := by
  induction l with
  | nil => exact List.pairwise_singleton _ _
  | cons b l ih =>
    obtain ⟨h1, h2⟩ := List.pairwise_cons.mp h
    unfold insertName
    split
    · rename_i hab
      refine List.pairwise_cons.mpr ⟨?_, h⟩
      intro c hc
      rcases List.mem_cons.mp hc with rfl | hc
      · exact hab
      · exact le_trans a b c hab (h1 c hc)
    · rename_i hab
      refine List.pairwise_cons.mpr ⟨?_, ih h2⟩
      intro c hc
      rcases List.mem_cons.mp ((insert_perm a l).mem_iff.mp hc) with rfl | hc
      · have := le_total c b
        simpa [hab] using this
      · exact h1 c hc

theorem sort_sorted (l : List Bytes) : Sorted (sort l) := by
  induction l with
  | nil => exact List.Pairwise.nil
  | cons a l ih => exact insert_sorted ih

theorem sort_perm (l : List Bytes) : (sort l).Perm l := by
  induction l with
  | nil => exact List.Perm.refl _
  | cons a l ih => exact (insert_perm a _).trans (List.Perm.cons a ih)

theorem after_none {old : List Bytes} {n : Bytes} : after old n = none ↔ n ∉ old := by
  induction old with
  | nil => simp [after]
  | cons o os ih =>
    unfold after
    split
    · rename_i h; simp [h]
    · rename_i h; rw [ih]; simp [Ne.symm (a := o) (b := n) h]

theorem after_some {old rest : List Bytes} {n : Bytes} (h : after old n = some rest) :
    ∃ pre, old = pre ++ n :: rest ∧ n ∉ pre := by
  induction old with
  | nil => cases h
  | cons o os ih =>
    unfold after at h
    split at h
    · rename_i hh; cases h; exact ⟨[], by simp [hh], by simp⟩
    · rename_i hh
      obtain ⟨pre, h1, h2⟩ := ih h
      refine ⟨o :: pre, by simp [h1], ?_⟩
      simp only [List.mem_cons, not_or]
      exact ⟨fun hc => hh hc.symm, h2⟩

/-- What's announced are the names which weren't there, in alphabetical order. -/
theorem announce_eq {old new : List Bytes} (ho : Sorted old) (hn : Sorted new) (hd : new.Nodup) :
    announce old new = new.filter fun n => !old.contains n := by
  induction new generalizing old with
  | nil => cases old <;> rfl
  | cons n ns ih =>
    cases old with
    | nil =>
      unfold announce
      rw [List.filter_eq_self.mpr]
      intro a _
      rfl
    | cons o os =>
      obtain ⟨hn1, hn2⟩ := List.pairwise_cons.mp hn
      obtain ⟨hd1, hd2⟩ := List.nodup_cons.mp hd
      unfold announce
      cases ha : after (o :: os) n with
      | none =>
        have hnot := after_none.mp ha
        simp only []
        rw [ih ho hn2 hd2, List.filter_cons_of_pos (by simpa using hnot)]
      | some os' =>
        obtain ⟨pre, h1, h2⟩ := after_some ha
        have hin : n ∈ o :: os := by rw [h1]; simp
        simp only []
        rw [h1] at ho ⊢
        have hos := List.pairwise_append.mp ho
        have ho' : Sorted os' := (List.pairwise_cons.mp hos.2.1).2
        rw [ih ho' hn2 hd2, List.filter_cons_of_neg (by simp)]
        apply List.filter_congr
        intro m hm
        have hne : m ≠ n := fun hc => hd1 (hc ▸ hm)
        have hpre : m ∉ pre := by
          intro hc
          exact hne (le_antisymm m n (hos.2.2 m hc n (by simp)) (hn1 m hm))
        simp [hpre, hne]

/-- C43, for any two lists (the new one having no duplicates): the names announced are those which are
in the new list and aren't in the old one, once each. -/
theorem C43_announced_partial (old new : List Bytes) (hd : new.Nodup) :
    (announce (sort old) (sort new)).Nodup ∧
    ∀ n, n ∈ announce (sort old) (sort new) ↔ n ∈ new ∧ n ∉ old := by
  have hd' : (sort new).Nodup := (sort_perm new).nodup_iff.mpr hd
  rw [announce_eq (sort_sorted old) (sort_sorted new) hd']
  refine ⟨List.Sublist.nodup List.filter_sublist hd', ?_⟩
  intro n
  rw [List.mem_filter, (sort_perm new).mem_iff]
  simp only [Bool.not_eq_true', List.contains_eq_mem, decide_eq_false_iff_not]
  rw [(sort_perm old).mem_iff]

/-! ### Polls -/

/-- The service manager doesn't list the same name twice. -/
def NoDups (_ : State) : Label → Prop
  | .result (some l) => l.Nodup
  | _ => True

/-- What the log says about the poll. -/
def Agrees : Option Poll → View → Prop
  | none, .off => True
  | some p, .idle known => (p.next = none ∧ p.todo = []) ∧ known = p.list.getD [] ∧ Sorted known
  | some p, .busy known l done => ∃ o, p.next = some o ∧ l = o.getD [] ∧ known = p.list.getD [] ∧
      Sorted known ∧ Sorted l ∧ l.Nodup ∧ done ++ p.todo = l.filter fun n => !known.contains n
  | _, _ => False

def Inv (s : State) : Prop := ∃ v, view s.log = some v ∧ Agrees s.poll v

theorem view_append (a b : List Ev) : view (a ++ b) = b.foldl view1 (view a) := by
  simp [view, List.foldl_append]

/-- Events which aren't about the poll. -/
def Other : Ev → Bool
  | .added .. | .removed .. | .called .. => true
  | _ => false

theorem other_view {es : List Ev} (h : es.all Other = true) (a : Option View) : es.foldl view1 a = a := by
  induction es generalizing a with
  | nil => rfl
  | cons e es ih =>
    simp only [List.all_cons, Bool.and_eq_true] at h
    simp only [List.foldl_cons]
    rw [show view1 a e = a by cases e <;> first | rfl | cases h.1]
    exact ih h.2 a

theorem call_other (hs : List Handler) (n : Bytes) : (call hs n).all Other = true := by
  simp [call, Other]

theorem Inv.same {s s' : State} (h : Inv s) {es : List Ev} (hp : s'.poll = s.poll) (hl : s'.log = s.log ++ es)
    (he : es.all Other = true) : Inv s' := by
  obtain ⟨v, h1, h2⟩ := h
  exact ⟨v, by rw [hl, view_append, other_view he, h1], by rw [hp]; exact h2⟩

theorem Inv.release {s : State} (h : Inv s) : Inv s.release := by
  unfold State.release
  cases hp : s.poll with
  | none => simp only; exact h
  | some p =>
    simp only
    split
    · rename_i hc
      obtain ⟨v, h1, h2⟩ := h
      rw [hp] at h2
      refine ⟨.off, ?_, trivial⟩
      simp only [view_append, h1]
      cases v with
      | off => cases h2
      | idle k => rfl
      | busy k l d =>
        obtain ⟨o, h3, _⟩ := h2
        rw [hc.2] at h3
        cases h3
    · exact h

theorem Inv.acquire {s : State} (h : Inv s) : Inv s.acquire := by
  unfold State.acquire
  cases hp : s.poll with
  | some p => simp only; exact h
  | none =>
    simp only
    obtain ⟨v, h1, h2⟩ := h
    rw [hp] at h2
    refine ⟨.idle [], ?_, ⟨rfl, rfl⟩, rfl, List.Pairwise.nil⟩
    simp only [view_append, h1]
    cases v with
    | off => rfl
    | idle k => cases h2
    | busy k l d => cases h2

theorem inv_step {s s' : State} {l : Label} (h : Inv s) (hd : NoDups s l) (hs : step s l = .ok s') : Inv s' := by
  cases l with
  | add id name =>
    simp only [step] at hs
    split at hs
    · cases hs
    · split at hs
      · cases hs
        exact h.same (es := [.added id name]) rfl rfl rfl
      · cases hs
        have h1 : Inv ({ s with handlers := s.handlers ++ [⟨id, name⟩], log := s.log ++ [.added id name] } : State).acquire :=
          Inv.acquire (h.same (es := [.added id name]) rfl rfl rfl)
        exact h1.same (es := []) rfl (by simp) rfl
  | remove id =>
    simp only [step] at hs
    split at hs
    · cases hs
    · split at hs
      · cases hs
        exact h.same (es := [.removed id]) rfl rfl rfl
      · cases hs
        exact Inv.release (h.same (es := [.removed id]) rfl rfl rfl)
  | result l =>
    simp only [step] at hs
    split at hs
    · cases hs
    · rename_i p hp
      split at hs
      · cases hs
      · rename_i hn
        have hn : p.next = none := Classical.not_not.mp hn
        cases hs
        obtain ⟨v, h1, h2⟩ := h
        rw [hp] at h2
        cases v with
        | off => cases h2
        | busy k l d =>
          obtain ⟨o, h3, _⟩ := h2
          rw [hn] at h3
          cases h3
        | idle known =>
          obtain ⟨_, rfl, h4⟩ := h2
          have hsl : Sorted ((l.map sort).getD []) ∧ ((l.map sort).getD []).Nodup := by
            cases l with
            | none => exact ⟨List.Pairwise.nil, List.nodup_nil⟩
            | some l => exact ⟨sort_sorted l, (sort_perm l).nodup_iff.mpr hd⟩
          refine ⟨.busy (p.list.getD []) ((l.map sort).getD []) [], ?_, _, rfl, rfl, rfl, h4, hsl.1, hsl.2, ?_⟩
          · simp [view_append, h1, view1]
          · exact announce_eq h4 hsl.1 hsl.2
  | emit =>
    simp only [step] at hs
    split at hs
    · cases hs
    · rename_i p hp
      split at hs
      · cases hs
      · rename_i n rest ht
        have key : Inv { s with poll := some { p with todo := rest }, log := s.log ++ [.announced n] } := by
          obtain ⟨v, h1, h2⟩ := h
          rw [hp] at h2
          cases v with
          | off => cases h2
          | idle k =>
            rw [h2.1.2] at ht
            cases ht
          | busy k l d =>
            obtain ⟨o, h3, h4, h5, h6, h7, h8, h9⟩ := h2
            rw [ht] at h9
            have hnd : (d ++ n :: rest).Nodup := by rw [h9]; exact List.Sublist.nodup List.filter_sublist h8
            have hmem : n ∈ l.filter fun n => !k.contains n := by rw [← h9]; simp
            obtain ⟨m1, m2⟩ := List.mem_filter.mp hmem
            have m2 : n ∉ k := by simpa using m2
            have m3 : n ∉ d := fun hc => (List.nodup_append.mp hnd).2.2 n hc n (by simp) rfl
            refine ⟨.busy k l (d ++ [n]), ?_, o, h3, h4, h5, h6, h7, h8, ?_⟩
            · simp [view_append, h1, view1, m1, m2, m3]
            · simpa using h9
        split at hs
        · cases hs
          exact key.same (es := call s.handlers n) rfl rfl (call_other _ _)
        · cases hs
          exact key
  | finish =>
    simp only [step] at hs
    split at hs
    · cases hs
    · rename_i p hp
      split at hs
      · rename_i l hn ht
        cases hs
        apply Inv.release
        obtain ⟨v, h1, h2⟩ := h
        rw [hp] at h2
        cases v with
        | off => cases h2
        | idle k =>
          rw [h2.1.1] at hn
          cases hn
        | busy k l' d =>
          obtain ⟨o, h3, h4, h5, h6, h7, h8, h9⟩ := h2
          rw [ht, List.append_nil] at h9
          rw [hn] at h3
          cases h3
          refine ⟨.idle l', ?_, ⟨rfl, rfl⟩, h4, h7⟩
          simp only [view_append, h1, List.foldl_cons, List.foldl_nil, view1]
          rw [if_pos]
          intro n hn hk
          rw [h9]
          exact List.mem_filter.mpr ⟨hn, by simpa using hk⟩
      · cases hs
  | idle n =>
    simp only [step] at hs
    split at hs
    · cases hs
      exact h.same (es := call s.handlers n) rfl rfl (call_other _ _)
    · cases hs

theorem inv_reach {s : State} (h : ReachIf step NoDups {} s) : Inv s := by
  induction h with
  | init => exact ⟨.off, rfl, trivial⟩
  | step l _ ha hs ih => exact inv_step ih ha hs

/-- C43: whatever the handlers do, each name which wasn't in the previous list is announced once, before the
function returns, and nothing else is. Missing: lists with duplicates, see `C43_fails`. -/
theorem C43_polls_partial {s : State} (h : ReachIf step NoDups {} s) : ∃ v, view s.log = some v := by
  obtain ⟨v, hv, _⟩ := inv_reach h
  exact ⟨v, hv⟩

/-- C43: a name is known if it's in the last list. -/
theorem C43_known_partial {s : State} (h : ReachIf step NoDups {} s) {p : Poll} (hp : s.poll = some p) {v : View}
    (hv : view s.log = some v) (n : Bytes) : p.isKnown n = true ↔ n ∈ v.known := by
  obtain ⟨v', hv', ha⟩ := inv_reach h
  rw [hv] at hv'
  cases hv'
  rw [hp] at ha
  cases v with
  | off => cases ha
  | idle k => simp [Poll.isKnown, View.known, ha.2.1]
  | busy k l d => 
    obtain ⟨o, _, _, h5, _⟩ := ha
    simp [Poll.isKnown, View.known, h5]

/-! ### Where it goes wrong -/

/-- C43 fails if a name is listed twice: it's announced again, and again. -/
theorem C43_fails : announce (sort [[1]]) (sort [[1], [1]]) = [[1]] ∧ announce (sort []) (sort [[1], [1]]) = [[1], [1]] := by
  decide +kernel

/-! ### Example -/

/-- A name is known, another two appear, the first one disappears. A handler is added meanwhile. -/
def story : List Label :=
  [.add 1 [2], .result (some [[1]]), .emit, .finish, .result (some [[3], [2]]), .emit, .add 2 [1], .emit, .finish,
   .result (some [[2], [3]]), .finish]

example : (exec step {} story).holds (fun s => s.log ==
    [.added 1 [2], .started, .listed [[1]], .announced [1], .finished, .listed [[2], [3]], .announced [2],
     .called 1 [2], .added 2 [1], .announced [3], .finished, .listed [[2], [3]], .finished] &&
    view s.log == some (.idle [[2], [3]])) = true ∧
    ∀ l ∈ story, NoDups {} l := by
  refine ⟨by decide +kernel, ?_⟩
  intro l hl
  simp only [story, List.mem_cons, List.not_mem_nil, or_false] at hl
  rcases hl with rfl | rfl | rfl | rfl | rfl | rfl | rfl | rfl | rfl | rfl | rfl <;> (unfold NoDups; decide)

end Gb.C43
