import Verif.Model.Client
import Verif.Props.C18
/-
C45: a client with several interfaces uses the right one.
-/
set_option autoImplicit false

namespace Gb.C45

open Client

/-- The interface for the transaction code: the one with the smallest last_code not less than the code. -/
structure Right (infos : List Info) (code : Nat) (i : Info) : Prop where
  mem : i ∈ infos
  covers : code ≤ i.last
  least : ∀ j ∈ infos, code ≤ j.last → i.last ≤ j.last

/-- The range has been made of this. -/
def Of (e : Env) (io : Io) (p : Protocol) (m : Mem) (i : Info) (r : Range) : Prop :=
  ∃ w, newRequestIface e io p m i.iface = .ok w ∧ r = ⟨i.iface, some w.bytes, w, i.last⟩

theorem initRanges_of {e : Env} {io : Io} {p : Protocol} {m : Mem} {infos : List Info} {rs : List Range}
    (h : initRanges e io p m infos = .ok rs) :
    (∀ r ∈ rs, ∃ i ∈ infos, Of e io p m i r) ∧ ∀ i ∈ infos, ∃ r ∈ rs, Of e io p m i r := by
  induction infos generalizing rs with
  | nil => cases h; exact ⟨by simp, by simp⟩
  | cons i l ih =>
    simp only [initRanges, initRange, bind, Except.bind] at h
    cases hw : newRequestIface e io p m i.iface with
    | error k => rw [hw] at h; cases h
    | ok w =>
      rw [hw] at h
      simp only at h
      cases hl : initRanges e io p m l with
      | error k => rw [hl] at h; cases h
      | ok rs' =>
        rw [hl] at h
        cases h
        obtain ⟨h1, h2⟩ := ih hl
        refine ⟨?_, ?_⟩
        · intro r hr
          rcases List.mem_cons.mp hr with rfl | hr
          · exact ⟨i, List.mem_cons_self, w, hw, rfl⟩
          · obtain ⟨j, hj, ho⟩ := h1 r hr
            exact ⟨j, List.mem_cons_of_mem _ hj, ho⟩
        · intro j hj
          rcases List.mem_cons.mp hj with rfl | hj
          · exact ⟨_, List.mem_cons_self, w, hw, rfl⟩
          · obtain ⟨r, hr, ho⟩ := h2 j hj
            exact ⟨r, List.mem_cons_of_mem _ hr, ho⟩

theorem find_sorted {rs : List Range} {code : Nat} (hs : rs.Pairwise fun a b => a.last ≤ b.last) {r : Range}
    (h : findRange rs code = some r) : r ∈ rs ∧ code ≤ r.last ∧ ∀ x ∈ rs, code ≤ x.last → r.last ≤ x.last := by
  induction rs with
  | nil => cases h
  | cons a l ih =>
    rw [List.pairwise_cons] at hs
    simp only [findRange] at h
    split at h
    · rename_i hc
      cases h
      refine ⟨List.mem_cons_self, hc, ?_⟩
      intro x hx _
      rcases List.mem_cons.mp hx with rfl | hx
      · exact Nat.le_refl _
      · exact hs.1 x hx
    · rename_i hc
      obtain ⟨h1, h2, h3⟩ := ih hs.2 h
      refine ⟨List.mem_cons_of_mem _ h1, h2, ?_⟩
      intro x hx hx2
      rcases List.mem_cons.mp hx with rfl | hx
      · exact absurd hx2 hc
      · exact h3 x hx hx2

theorem find_none {rs : List Range} {code : Nat} : findRange rs code = none ↔ ∀ r ∈ rs, r.last < code := by
  induction rs with
  | nil => simp [findRange]
  | cons a l ih =>
    simp only [findRange]
    split
    · rename_i hc
      constructor
      · intro h; cases h
      · intro h
        have := h a List.mem_cons_self
        omega
    · rename_i hc
      rw [ih]
      constructor
      · intro h r hr
        rcases List.mem_cons.mp hr with rfl | hr
        · omega
        · exact h r hr
      · exact fun h r hr => h r (List.mem_cons_of_mem _ hr)

theorem new2_of {e : Env} {q : Qsort} {io : Io} {p : Protocol} {m : Mem} {infos : List Info} {rs : List Range}
    (hne : infos ≠ []) (h : new2 e q io p m infos = .ok rs) :
    (rs.Pairwise fun a b => a.last ≤ b.last) ∧
    (∀ r ∈ rs, ∃ i ∈ infos, Of e io p m i r) ∧ ∀ i ∈ infos, ∃ r ∈ rs, Of e io p m i r := by
  unfold new2 at h
  rw [if_pos (List.length_pos_iff.mpr hne)] at h
  split at h
  · cases h
  · simp only [bind, Except.bind] at h
    cases hl : initRanges e io p m infos with
    | error k => rw [hl] at h; cases h
    | ok l =>
      rw [hl] at h
      cases h
      obtain ⟨h1, h2⟩ := initRanges_of hl
      refine ⟨q.sorted l, ?_, ?_⟩
      · intro r hr
        exact h1 r ((q.perm l).mem_iff.mp hr)
      · intro i hi
        obtain ⟨r, hr, ho⟩ := h2 i hi
        exact ⟨r, (q.perm l).mem_iff.mpr hr, ho⟩

/-- C45: whatever is done for a code, is done for the right interface: its name is reported, and the
header of the requests is the one which gbinder_local_request_new_iface writes for it. -/
theorem C45_right {e : Env} {q : Qsort} {io : Io} {p : Protocol} {m : Mem} {infos : List Info} {rs : List Range}
    (hne : infos ≠ []) (h : new2 e q io p m infos = .ok rs) (code : Nat) (hc : ∃ i ∈ infos, code ≤ i.last) :
    ∃ i w, Right infos code i ∧ newRequestIface e io p m i.iface = .ok w ∧
      interface2 rs code = i.iface ∧ rpcHeader rs code = some w.bytes ∧
      newRequest2 io p m rs code = some (newRequest io p m (some w.bytes)) ∧
      ∀ dead handle, (Client.mk dead handle rs).request code none = some w := by
  obtain ⟨hs, h1, h2⟩ := new2_of hne h
  cases hf : findRange rs code with
  | none =>
    obtain ⟨i, hi, hc⟩ := hc
    obtain ⟨r, hr, w, _, rfl⟩ := h2 i hi
    have := find_none.mp hf _ hr
    simp only at this
    omega
  | some r =>
    obtain ⟨h3, h4, h5⟩ := find_sorted hs hf
    obtain ⟨i, hi, w, hw, rfl⟩ := h1 r h3
    refine ⟨i, w, ⟨hi, h4, ?_⟩, hw, ?_, ?_, ?_, ?_⟩
    · intro j hj hc
      obtain ⟨r', hr', w', _, rfl⟩ := h2 j hj
      exact h5 _ hr' hc
    · simp [interface2, hf]
    · simp [rpcHeader, hf]
    · simp [newRequest2, hf]
    · intro dead handle
      simp [Client.request, hf]

theorem initRanges_total {e : Env} {io : Io} {p : Protocol} {m : Mem} {names : List (List Char × Nat)}
    (hok : ∀ x ∈ names, C18.NameOk x.1) :
    ∃ rs, initRanges e io p m (names.map fun x => ⟨some (utf8Text x.1), x.2⟩) = .ok rs := by
  induction names with
  | nil => exact ⟨_, rfl⟩
  | cons x l ih =>
    obtain ⟨rs, hr⟩ := ih fun y hy => hok y (List.mem_cons_of_mem _ hy)
    obtain ⟨w, hw, _⟩ := C18.C18_header e io p m x.1 (hok x List.mem_cons_self)
    simp only [clientNewRequest, rangeHeader, bind, Except.bind] at hw
    cases hb : newRequestIface e io p m (some (utf8Text x.1)) with
    | error u => rw [hb] at hw; cases hw
    | ok b =>
      refine ⟨⟨some (utf8Text x.1), some b.bytes, b, x.2⟩ :: rs, ?_⟩
      simp only [List.map_cons, initRanges, initRange, bind, Except.bind, hb, hr]

/-- C45: a client can be created for any interfaces, as long as their number fits into 32 bits. -/
theorem C45_created (e : Env) (q : Qsort) (io : Io) (p : Protocol) (m : Mem) (names : List (List Char × Nat))
    (hok : ∀ x ∈ names, C18.NameOk x.1) (hn : names.length < 2 ^ 32) :
    ∃ rs, new2 e q io p m (names.map fun x => ⟨some (utf8Text x.1), x.2⟩) = .ok rs := by
  obtain ⟨rs, hr⟩ := initRanges_total (e := e) (io := io) (p := p) (m := m) hok
  unfold new2
  by_cases h : (names.map fun x => (⟨some (utf8Text x.1), x.2⟩ : Info)).length > 0
  · rw [if_pos h, if_neg (by rw [List.length_map]; omega)]
    exact ⟨_, by rw [hr]; rfl⟩
  · rw [if_neg h]
    exact ⟨_, rfl⟩

/-- C45: codes above every range are refused. -/
theorem C45_refused {e : Env} {q : Qsort} {io : Io} {p : Protocol} {m : Mem} {infos : List Info} {rs : List Range}
    (hne : infos ≠ []) (h : new2 e q io p m infos = .ok rs) (code : Nat) (hc : ∀ i ∈ infos, i.last < code) :
    interface2 rs code = none ∧ rpcHeader rs code = none ∧ newRequest2 io p m rs code = none ∧
    ∀ handle flags, transact (some ⟨false, handle, rs⟩) code flags none = none ∧
      ∀ k W full f s, transactSyncReply k W full f (some ⟨false, handle, rs⟩) code none s = .done (false, none) s ∧
        transactSyncOneway k W f (some ⟨false, handle, rs⟩) code none s = .done (-22) s := by
  obtain ⟨_, h1, _⟩ := new2_of hne h
  have hf : findRange rs code = none := by
    rw [find_none]
    intro r hr
    obtain ⟨i, hi, w, _, rfl⟩ := h1 r hr
    exact hc i hi
  simp [interface2, rpcHeader, newRequest2, transact, transactSyncReply, transactSyncOneway, Client.request, hf]

theorem right_unique {infos : List Info} (hd : infos.Pairwise fun a b => a.last ≠ b.last) {code : Nat} {i j : Info}
    (hi : Right infos code i) (hj : Right infos code j) : i = j := by
  have hl : i.last = j.last := Nat.le_antisymm (hi.least j hj.mem hj.covers) (hj.least i hi.mem hi.covers)
  have h1 := hi.mem
  have h2 := hj.mem
  clear hi hj
  induction infos with
  | nil => cases h1
  | cons a l ih =>
    rw [List.pairwise_cons] at hd
    rcases List.mem_cons.mp h1 with rfl | h3 <;> rcases List.mem_cons.mp h2 with rfl | h4
    · rfl
    · exact absurd hl (hd.1 j h4)
    · exact absurd hl.symm (hd.1 i h3)
    · exact ih hd.2 h3 h4

/-- C45: the order in which the interfaces are given makes no difference, nor does the way qsort works, unless two
of them have the same last_code. -/
theorem C45_order {e : Env} {q q' : Qsort} {io : Io} {p : Protocol} {m : Mem} {infos infos' : List Info}
    {rs rs' : List Range} (hne : infos ≠ []) (hp : infos'.Perm infos)
    (hd : infos.Pairwise fun a b => a.last ≠ b.last)
    (h : new2 e q io p m infos = .ok rs) (h' : new2 e q' io p m infos' = .ok rs') (code : Nat) :
    interface2 rs code = interface2 rs' code ∧ rpcHeader rs code = rpcHeader rs' code ∧
    newRequest2 io p m rs code = newRequest2 io p m rs' code := by
  have hne' : infos' ≠ [] := by
    rintro rfl
    exact hne (List.nil_perm.mp hp)
  by_cases hc : ∃ i ∈ infos, code ≤ i.last
  · obtain ⟨i, w, r, hw, a1, a2, a3, _⟩ := C45_right hne h code hc
    obtain ⟨j, w', r', hw', b1, b2, b3, _⟩ := C45_right hne' h' code (by
      obtain ⟨i, hi, hc⟩ := hc
      exact ⟨i, hp.mem_iff.mpr hi, hc⟩)
    have r'' : Right infos code j :=
      ⟨hp.mem_iff.mp r'.mem, r'.covers, fun x hx => r'.least x (hp.mem_iff.mpr hx)⟩
    cases right_unique hd r r''
    rw [hw] at hw'
    cases hw'
    exact ⟨a1.trans b1.symm, a2.trans b2.symm, a3.trans b3.symm⟩
  · have hc1 : ∀ i ∈ infos, i.last < code := by
      intro i hi
      exact Nat.lt_of_not_le fun hh => hc ⟨i, hi, hh⟩
    have hc2 : ∀ i ∈ infos', i.last < code := fun i hi => hc1 i (hp.mem_iff.mp hi)
    obtain ⟨a1, a2, a3, _⟩ := C45_refused hne h code hc1
    obtain ⟨b1, b2, b3, _⟩ := C45_refused hne' h' code hc2
    exact ⟨a1.trans b1.symm, a2.trans b2.symm, a3.trans b3.symm⟩

/-- C45: a client with no interfaces sends no header, whatever the code is. -/
theorem C45_none {e : Env} {q : Qsort} {io : Io} {p : Protocol} {m : Mem} {rs : List Range}
    (h : new2 e q io p m [] = .ok rs) {code : Nat} (hc : code < 2 ^ 32) :
    interface2 rs code = none ∧ newRequest2 io p m rs code = some (newRequest io p m none) ∧
    ∀ dead handle, (Client.mk dead handle rs).request code none = some (newRequest io p m none) := by
  cases h
  have hle : 2 ^ 32 - 1 ≥ code := by omega
  simp [interface2, newRequest2, Client.request, findRange, hle]

/-- C45: clients of a single interface use it for every code. -/
theorem C45_single {e : Env} {q : Qsort} {io : Io} {p : Protocol} {m : Mem} {iface : Option Bytes} {rs : List Range}
    (h : Client.new e q io p m iface = .ok rs) {code : Nat} (hc : code < 2 ^ 32) :
    ∃ w, newRequestIface e io p m iface = .ok w ∧ interface rs = iface ∧ interface2 rs code = iface ∧
      firstRequest io p m rs = .ok (newRequest io p m (some w.bytes)) ∧
      newRequest2 io p m rs code = some (newRequest io p m (some w.bytes)) := by
  obtain ⟨hs, h1, h2⟩ := new2_of (by simp) h
  obtain ⟨i, w, r, hw, a1, a2, a3, _⟩ := C45_right (by simp) h code ⟨_, List.mem_singleton_self _, by simp only []; omega⟩
  have hi : i = ⟨iface, 2 ^ 32 - 1⟩ := by simpa using r.mem
  subst hi
  refine ⟨w, hw, ?_, a1, ?_, a3⟩
  · cases rs with
    | nil => obtain ⟨r, hr, _⟩ := h2 _ (List.mem_singleton_self _); cases hr
    | cons x l =>
      obtain ⟨j, hj, w', _, rfl⟩ := h1 _ List.mem_cons_self
      have : j = ⟨iface, 2 ^ 32 - 1⟩ := by simpa using hj
      subst this
      rfl
  · cases rs with
    | nil => obtain ⟨r, hr, _⟩ := h2 _ (List.mem_singleton_self _); cases hr
    | cons x l =>
      obtain ⟨j, hj, w', hw', rfl⟩ := h1 _ List.mem_cons_self
      have : j = ⟨iface, 2 ^ 32 - 1⟩ := by simpa using hj
      subst this
      rw [hw] at hw'
      cases hw'
      rfl

/-- C45: what the receiver sees is the name of the right interface, and then the payload; both for requests
created by gbinder_client_new_request2 and for the default ones. -/
theorem C45_received {e : Env} {q : Qsort} {io : Io} {p : Protocol} {m : Mem} {names : List (List Char × Nat)}
    (hok : ∀ x ∈ names, C18.NameOk x.1) {rs : List Range} (hne : names ≠ [])
    (h : new2 e q io p m (names.map fun x => ⟨some (utf8Text x.1), x.2⟩) = .ok rs) (code : Nat)
    (hc : ∃ x ∈ names, code ≤ x.2) (hp : p = .hidl ∨ code ≤ 0x5f000000) :
    ∃ x w b, x ∈ names ∧ code ≤ x.2 ∧ (∀ y ∈ names, code ≤ y.2 → x.2 ≤ y.2) ∧
      newRequest2 io p m rs code = some w ∧ (∀ dead handle, (Client.mk dead handle rs).request code none = some b) ∧
      b.bytes = w.bytes ∧ ∀ (post : Bytes) (objects : List Nat),
        ∃ r, RemoteReq.setData io p code (w.bytes ++ post) objects = .ok r ∧ r.iface = some (utf8Text x.1) ∧
          r.initReader.pos = w.bytes.length ∧ r.initReader.bytesRemaining = post.length := by
  obtain ⟨i, b, r, hb, a1, a2, a3, a4⟩ := C45_right (by simpa using hne) h code (by
    obtain ⟨x, hx, hc⟩ := hc
    exact ⟨_, List.mem_map.mpr ⟨x, hx, rfl⟩, hc⟩)
  obtain ⟨x, hx, rfl⟩ := List.mem_map.mp r.mem
  obtain ⟨w, hw, _, _, h5⟩ := C18.C18_header e io p m x.1 (hok x hx)
  have hw' : w = newRequest io p m (some b.bytes) := by
    simp only [clientNewRequest, rangeHeader, bind, Except.bind, hb, Except.map] at hw
    cases hw
    rfl
  subst hw'
  refine ⟨x, _, b, hx, r.covers, ?_, a3, a4, rfl, ?_⟩
  · intro y hy hcy
    exact r.least _ (List.mem_map.mpr ⟨y, hy, rfl⟩) hcy
  · intro post objects
    obtain ⟨rq, c1, c2, c3, _, c5, _⟩ := h5 code hp post objects
    exact ⟨rq, c1, c2, c3, c5⟩

/-! ### Example -/

def ins (a : Range) : List Range → List Range
  | [] => [a]
  | b :: l => if a.last ≤ b.last then a :: b :: l else b :: ins a l

theorem ins_perm (a : Range) (l : List Range) : (ins a l).Perm (a :: l) := by
  induction l with
  | nil => exact List.Perm.refl _
  | cons b l ih =>
    unfold ins
    split
    · exact List.Perm.refl _
    · exact (List.Perm.cons b ih).trans (List.Perm.swap a b l)

theorem ins_sorted (a : Range) (l : List Range) (h : l.Pairwise fun a b => a.last ≤ b.last) :
    (ins a l).Pairwise fun a b => a.last ≤ b.last := by
  induction l with
  | nil => simp [ins]
  | cons b l ih =>
    rw [List.pairwise_cons] at h
    unfold ins
    split
    · rename_i hab
      rw [List.pairwise_cons, List.pairwise_cons]
      refine ⟨?_, h⟩
      intro x hx
      rcases List.mem_cons.mp hx with rfl | hx
      · exact hab
      · exact Nat.le_trans hab (h.1 x hx)
    · rename_i hab
      rw [List.pairwise_cons]
      refine ⟨?_, ih h.2⟩
      intro x hx
      rcases List.mem_cons.mp ((ins_perm a l).mem_iff.mp hx) with rfl | hx
      · omega
      · exact h.1 x hx

/-- A way to sort. -/
def qsort : Qsort where
  sort l := l.foldr ins []
  perm l := by
    induction l with
    | nil => exact List.Perm.refl _
    | cons a l ih => exact (ins_perm a _).trans (List.Perm.cons a ih)
  sorted l := by
    induction l with
    | nil => exact List.Pairwise.nil
    | cons a l ih => exact ins_sorted a _ ih

/-- Three interfaces, given in a wrong order. -/
def infos : List Info :=
  [⟨some [0x42], 20⟩, ⟨some [0x43], 30⟩, ⟨some [0x41], 10⟩]

example : (infos.Pairwise fun a b => a.last ≠ b.last) ∧
    (new2 Demo.env qsort .io64 .aidl2 [] infos).toOption.map (fun rs =>
      [1, 10, 11, 20, 30].map (interface2 rs)) = some [some [0x41], some [0x41], some [0x42], some [0x42], some [0x43]] ∧
    (new2 Demo.env qsort .io64 .aidl2 [] infos).toOption.map (fun rs => (interface2 rs 31, (newRequest2 .io64 .aidl2 [] rs 31).isSome)) =
      some (none, false) ∧
    (new2 Demo.env qsort .io64 .aidl2 [] infos).toOption.map (fun rs => (newRequest2 .io64 .aidl2 [] rs 10).map (·.bytes.length)) =
      some (some 16) := by
  refine ⟨by decide, by decide +kernel, by decide +kernel, by decide +kernel⟩

/-- The names are good enough for `C45_received`. -/
example : ∀ x ∈ [(['a', '.', 'I'], 10), (['b'], 20)], C18.NameOk x.1 := by
  unfold C18.NameOk
  decide +kernel

end Gb.C45
