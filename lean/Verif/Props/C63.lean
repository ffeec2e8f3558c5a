import Verif.Lemmas.Notify
import Verif.Lemmas.HidlWatch
import Verif.Props.C03
import Verif.Props.C42
/-
C63: notifications from the HIDL service manager.
-/
set_option autoImplicit false

namespace Gb.C63

open Client Kernel Notify C59
open C01 (Value)

/-! ### Asking for notifications -/

/-- The code which is used is that of the method. -/
theorem C63_code : registerCode = Codes.code .hidl .registerForNotifications := by decide

/-- C63: the manager which receives the request (with the library's own functions) finds the right interface, the name, an empty
string and a reference to the callback object, and nothing else. -/
theorem C63_request {e : Env} {q : Qsort} {io : Io} {p : Protocol} {m : Mem} {s : List Char} (hs : C18.NameOk s)
    {name : Bytes} {a b : Nat} (ha : a ≠ 0) (hb : b ≠ 0) (ma : m.cstr a = some name) (mb : m.cstr b = some [])
    (hl : name.length + 1 < 2 ^ 32) {o : LocalRef} (ho : o.addr < 256 ^ word io)
    {rs : List Range} (h : Client.new e q io p m (some (utf8Text s)) = .ok rs) {w w' : Writer}
    (hw : firstRequest io p m rs = .ok w) (hr : WOp.runAll e w (registerOps a b o) = .ok w')
    (small : w'.bytes.length < 2 ^ 32) (sane : w'.mem.Sane (256 ^ word io))
    {dst : Mem} {objs : List KObj} {addr : Nat → Nat} {b' : Bytes} {node : Nat → Nat} {other : Nat → Option Nat}
    (t : Transfer io w'.mem w'.bytes w'.offsets objs addr dst b')
    (t' : References io w'.bytes w'.offsets objs node other b') :
    ∃ rq r1 r2 r3, RemoteReq.setData io p (Codes.code .hidl .registerForNotifications) b' w'.offsets = .ok rq ∧
      rq.iface = some (utf8Text s) ∧
      Reader.readHidlString dst rq.initReader = .ok (some name) r1 ∧ Reader.readHidlString dst r1 = .ok (some []) r2 ∧
      r2.readNullableObject = .ok (some (node o.addr)) r3 ∧ C33.AtEnd r3 := by
  obtain ⟨g1, g2, g3, g4⟩ := request hs h hw
  have hna : ∀ off v, WOp.overwriteInt32 off v ∉ registerOps a b o := by
    intro off v
    simp [registerOps]
  obtain ⟨rq, i1, i2, i3⟩ := incoming hs g2 g1 hna hr t (code := Codes.code .hidl .registerForNotifications) (.inr (by decide))
  obtain ⟨w1, w2, pre2, hr2, a1, a2⟩ := two_strings ha hb ma mb hl (by simp) g1 g4 hr (by simp) (by simp)
    (by simp [WOp.parent]) small sane t
  obtain ⟨w3, e3, hr3⟩ := runAll_split hr2
  cases hr3
  have a3 := C19.C19_received e io p m (headerOps p s ++ [.hidlString a, .hidlString b]) [] w2 w' w' o ho
    ⟨pre2, e3, rfl, by
      intro off v hm
      simp only [List.append_nil, List.mem_append, List.mem_cons, List.not_mem_nil, reduceCtorEq, or_false] at hm
      exact headerOps_append off v hm⟩ objs node other b' t'
  have hw0 : w.offsets.length = 0 := by rw [g3]; rfl
  rw [hw0] at a1
  refine ⟨rq, (Reader.since io p b' w'.offsets w1.bytes.length w1.offsets.length).startAt w.bytes.length,
    (Reader.since io p b' w'.offsets w2.bytes.length w2.offsets.length).startAt w.bytes.length,
    (Reader.since io p b' w'.offsets w'.bytes.length w'.offsets.length).startAt w.bytes.length, i1, i2, ?_, ?_, ?_, ?_⟩
  · rw [i3, Reader.readHidlString_startAt]
    exact Reader.startAt_ok a1 _
  · rw [Reader.readHidlString_startAt]
    exact Reader.startAt_ok a2 _
  · rw [Reader.readNullableObject_startAt]
    exact Reader.startAt_ok a3 _
  · obtain ⟨z1, z2, z3⟩ := C33.since_end io p (b := b') (w := w') t.size
    exact ⟨z1, z2, z3⟩

/-! ### Notifications -/

theorem iface_ok : C18.NameOk iface := by
  unfold C18.NameOk
  decide +kernel

/-- C63: onRegistration(fqName, name, preexisting), as sent by anybody, is reported as fqName/name, whether or not the
service has been there before. -/
theorem C63_told {e : Env} {q : Qsort} {io : Io} {p : Protocol} {m : Mem} {fq inst : Bytes} {a b : Nat} (ha : a ≠ 0) (hb : b ≠ 0)
    (ma : m.cstr a = some fq) (mb : m.cstr b = some inst) (hl : fq.length + 1 < 2 ^ 32) (hl' : inst.length + 1 < 2 ^ 32)
    (preexisting : Bool)
    {rs : List Range} (h : Client.new e q io p m (some (utf8Text iface)) = .ok rs) {w w' : Writer}
    (hw : firstRequest io p m rs = .ok w) (hr : WOp.runAll e w [.hidlString a, .hidlString b, .bool preexisting] = .ok w')
    (small : w'.bytes.length < 2 ^ 32) (sane : w'.mem.Sane (256 ^ word io))
    {dst : Mem} {objs : List KObj} {addr : Nat → Nat} {b' : Bytes}
    (t : Transfer io w'.mem w'.bytes w'.offsets objs addr dst b') :
    ∃ rq, RemoteReq.setData io p 1 b' w'.offsets = .ok rq ∧
      notification dst rq 1 = .ok (0, some (fq ++ "/".toUTF8.data.toList ++ inst)) := by
  obtain ⟨g1, g2, g3, g4⟩ := request iface_ok h hw
  obtain ⟨rq, i1, i2, i3⟩ := incoming iface_ok g2 g1 (by simp) hr t (code := 1) (.inr (by decide))
  obtain ⟨w1, w2, pre2, hr2, a1, a2⟩ := two_strings ha hb ma mb hl hl' g1 g4 hr (by simp) (by simp) (by simp [WOp.parent])
    small sane t
  obtain ⟨w3, e3, hr3⟩ := runAll_split hr2
  cases hr3
  have a3 := C01.C01_received (e := e) (p := p) (m := m) (pre := headerOps p iface ++ [.hidlString a, .hidlString b])
    (vs := [.bool preexisting]) (post := []) (w0 := w2) (w1 := w') (by simp [Value.Ok]) pre2
    (by simp only [C01.writeAll, Value.write]; simp only [WOp.run] at e3; rw [e3]; rfl) rfl (by
      intro off v hm
      simp only [List.append_nil, List.mem_append, List.mem_cons, List.not_mem_nil, reduceCtorEq, or_false] at hm
      exact headerOps_append off v hm) t p
  have b3 := one_bool a3
  have hw0 : w.offsets.length = 0 := by rw [g3]; rfl
  rw [hw0] at a1
  refine ⟨rq, i1, ?_⟩
  have r1 : rq.initReader.readHidlString dst = .ok (some fq)
      ((Reader.since io p b' w'.offsets w1.bytes.length w1.offsets.length).startAt w.bytes.length) := by
    rw [i3, Reader.readHidlString_startAt]
    exact Reader.startAt_ok a1 _
  have r2 : ((Reader.since io p b' w'.offsets w1.bytes.length w1.offsets.length).startAt w.bytes.length).readHidlString dst =
      .ok (some inst) ((Reader.since io p b' w'.offsets w2.bytes.length w2.offsets.length).startAt w.bytes.length) := by
    rw [Reader.readHidlString_startAt]
    exact Reader.startAt_ok a2 _
  have r3 : ((Reader.since io p b' w'.offsets w2.bytes.length w2.offsets.length).startAt w.bytes.length).readBool =
      .ok preexisting ((Reader.since io p b' w'.offsets w'.bytes.length w'.offsets.length).startAt w.bytes.length) := by
    rw [readBool_startAt]
    exact Reader.startAt_ok b3 _
  obtain ⟨z1, z2, z3⟩ := C33.since_end io p (b := b') (w := w') t.size
  have r4 : ((Reader.since io p b' w'.offsets w'.bytes.length w'.offsets.length).startAt w.bytes.length).atEnd = true := z1
  have hsl : "/".toUTF8.data.toList = [0x2f] := by decide
  unfold notification
  rw [if_pos i2, if_pos (by rfl)]
  unfold handleRegistration
  simp only [r1, r2, registered, r3, r4, if_true, Except.map, hsl, List.append_assoc, List.singleton_append]

theorem map_ok {α β : Type} {f : α → β} {x : Except UB α} {y : β} : x.map f = .ok y ↔ ∃ a, x = .ok a ∧ f a = y := by
  cases x <;> simp [Except.map]

/-- C63: nothing else is reported. The status tells whether that was the right method of the right interface. -/
theorem C63_only (m : Mem) (rq : RemoteReq) (code : Nat) (status : Int) (full : Bytes) :
    notification m rq code = .ok (status, some full) ↔
      rq.iface = some (utf8Text "android.hidl.manager@1.0::IServiceNotification".toList) ∧ code = 1 ∧ status = 0 ∧
      ∃ fq inst preexisting r1 r2 r3, Reader.readHidlString m rq.initReader = .ok (some fq) r1 ∧
        Reader.readHidlString m r1 = .ok (some inst) r2 ∧ r2.readBool = .ok preexisting r3 ∧ r3.atEnd = true ∧
        full = fq ++ "/".toUTF8.data.toList ++ inst := by
  have hsl : "/".toUTF8.data.toList = [0x2f] := by decide
  simp only [hsl, List.append_assoc, List.singleton_append]
  unfold notification
  by_cases hi : rq.iface = some (utf8Text iface)
  · rw [if_pos hi]
    by_cases hc : code = onRegistration
    · rw [if_pos hc, map_ok]
      constructor
      · rintro ⟨x, hx, hy⟩
        cases hy
        refine ⟨hi, hc, rfl, ?_⟩
        unfold handleRegistration at hx
        split at hx
        · cases hx
        · split at hx <;> cases hx
        · split at hx <;> cases hx
        · rename_i f r1 h1
          split at hx
          · cases hx
          · cases hx
          · rename_i n r2 h2
            cases n with
            | none => cases hx
            | some n' =>
              simp only [registered] at hx
              split at hx
              · cases hx
              · cases hx
              · rename_i b r3 h3
                simp only [Except.ok.injEq, Option.ite_none_right_eq_some] at hx
                obtain ⟨h4, h5⟩ := hx
                simp only [Option.some.injEq] at h5
                exact ⟨f, n', b, r1, r2, r3, h1, h2, h3, h4, h5.symm⟩
      · rintro ⟨-, -, h0, fq, inst, b, r1, r2, r3, h1, h2, h3, h4, h5⟩
        refine ⟨some full, ?_, by rw [h0]⟩
        unfold handleRegistration
        simp only [h1, h2, registered, h3, h4, if_true, h5]
    · rw [if_neg hc]
      constructor
      · intro h; cases h
      · rintro ⟨-, h, -⟩; exact absurd h hc
  · rw [if_neg hi]
    constructor
    · intro h; cases h
    · rintro ⟨h, -⟩; exact absurd h hi

theorem C63_status {m : Mem} {rq : RemoteReq} {code : Nat} {status : Int} {x : Option Bytes}
    (h : notification m rq code = .ok (status, x)) :
    status = 0 ∧ rq.iface = some (utf8Text "android.hidl.manager@1.0::IServiceNotification".toList) ∧ code = 1 ∨
    status = 1 ∧ x = none ∧
      (rq.iface ≠ some (utf8Text "android.hidl.manager@1.0::IServiceNotification".toList) ∨ code ≠ 1) := by
  unfold notification at h
  split at h
  · rename_i hi
    split at h
    · rename_i hc
      obtain ⟨y, -, hy⟩ := map_ok.mp h
      cases hy
      exact .inl ⟨rfl, hi, hc⟩
    · rename_i hc
      cases h
      exact .inr ⟨rfl, rfl, .inr hc⟩
  · rename_i hi
    cases h
    exact .inr ⟨rfl, rfl, .inl hi⟩

/-- C63: nothing in the payload makes the library read something else. The exception are empty buffers, see
`C03_fails_hidl_string`. -/
theorem C63_payload_partial (m : Mem) (hm : m.Apart) (rq : RemoteReq) (code : Nat) (h : rq.initReader.Inside)
    (hd : Reader.Delivered m rq.initReader) (hc : Reader.NoEmptyBuffers rq.initReader) :
    ∃ x, notification m rq code = .ok x := by
  have key := C03.C03_reader_in_bounds_partial m hm rq.initReader [.hidlString, .hidlString, .bool] h hd
    ⟨by simp, by simp, fun _ => hc⟩
  have key : ∃ r', runROps m rq.initReader [.hidlString, .hidlString, .bool] = .ok r' := by
    split at key
    · rename_i r' hr; exact ⟨r', hr⟩
    · obtain ⟨-, op, ho, hl⟩ := key
      simp only [List.mem_cons, List.not_mem_nil, or_false] at ho
      rcases ho with rfl | rfl | rfl <;> cases hl
  obtain ⟨r', hr⟩ := key
  unfold notification
  split
  · split
    · unfold handleRegistration
      simp only [runROps, ROp.run, Res.done] at hr
      split
      · rename_i k hk
        rw [hk] at hr; cases hr
      · rename_i r1 hk
        rw [hk] at hr
        simp only [Res.map, Res.bind] at hr
        split
        · rename_i k hk
          rw [hk] at hr; cases hr
        · exact ⟨_, rfl⟩
      · rename_i r1 hk
        rw [hk] at hr
        simp only [Res.map, Res.bind] at hr
        split
        · rename_i k hk
          rw [hk] at hr; cases hr
        · exact ⟨_, rfl⟩
      · rename_i f r1 hk
        rw [hk] at hr
        simp only [Res.map, Res.bind] at hr
        split
        · rename_i k hk
          rw [hk] at hr; cases hr
        · exact ⟨_, rfl⟩
        · rename_i n r2 hk2
          rw [hk2] at hr
          simp only [] at hr
          unfold registered
          split
          · split
            · rename_i k hk
              rw [hk] at hr; cases hr
            · exact ⟨_, rfl⟩
            · exact ⟨_, rfl⟩
          · exact ⟨_, rfl⟩
    · exact ⟨_, rfl⟩
  · exact ⟨_, rfl⟩

/-! ### The handlers -/

/-- C63: whatever has happened before, a handler which has been added for the interface (or for any of its instances) is called when an
instance of it is registered. That's if the name of the instance has nothing but letters, digits and a few other
characters. -/
theorem C63_handlers_partial {s s' : Manager.State} (h : Reach Manager.step {} s) {k : Nat} {x : Manager.Mgr}
    (hm : s.mgrs k = some x) (hk : x.kind = .hidl) {fq inst : Bytes} (hf : fq ≠ []) (hfs : 0x2f ∉ fq) (hfc : ∀ c ∈ fq, C42.Char c)
    (hic : ∀ c ∈ inst, C42.Char c) (hs : Manager.step s (.registered k (fq ++ "/".toUTF8.data.toList ++ inst)) = .ok s') :
    ∃ ids, s'.log = s.log ++ [.registered k (fq ++ "/".toUTF8.data.toList ++ inst) ids] ∧
      ∀ a ∈ x.handlers, C42.Valid .hidl a.raw → C42.Iface a.raw fq → a.id ∈ ids := by
  obtain ⟨ids, h1, -, -, h2, -⟩ := C42.C42_delivered h hm hs
  refine ⟨ids, h1, ?_⟩
  intro a ha hv hi
  apply h2 a ha
  rw [hk]
  have hsl : "/".toUTF8.data.toList = [0x2f] := by decide
  rw [hsl]
  refine ⟨hv, ⟨by simp [hf], ?_⟩, fq, hi, hfs, .inr ⟨inst, by simp⟩⟩
  intro c hc
  simp only [List.append_assoc, List.mem_append, List.mem_singleton] at hc
  rcases hc with hc | rfl | hc
  · exact hfc c hc
  · decide
  · exact hic c hc

/-- Otherwise it's not: nobody gets to know about "a::I/slot_1". -/
theorem C63_fails_char : ∃ s : Manager.State, Reach Manager.step {} s ∧
    .watch 0 "a::I".toUTF8.data.toList true ∈ s.log ∧ (∃ x, s.mgrs 0 = some x ∧ x.handlers.map (·.id) = [1]) ∧
    ∃ s', Manager.step s (.registered 0 "a::I/slot_1".toUTF8.data.toList) = .ok s' ∧
      s'.log = s.log ++ [.registered 0 "a::I/slot_1".toUTF8.data.toList []] := by
  have h : (exec Manager.step {} [.create 0 .hidl true 10, .addHandler 0 "a::I".toUTF8.data.toList 1 true]).holds (fun s =>
      decide (Manager.Ev.watch 0 "a::I".toUTF8.data.toList true ∈ s.log) &&
      (s.mgrs 0).any (fun x => x.handlers.map (·.id) == [1]) &&
      (Manager.step s (.registered 0 "a::I/slot_1".toUTF8.data.toList)).holds (fun s' =>
        s'.log == s.log ++ [.registered 0 "a::I/slot_1".toUTF8.data.toList []])) = true := by decide +kernel
  cases he : exec Manager.step {} [.create 0 .hidl true 10, .addHandler 0 "a::I".toUTF8.data.toList 1 true] with
  | no => rw [he] at h; cases h
  | ub => rw [he] at h; cases h
  | ok s =>
    rw [he] at h
    simp only [Out.holds, Bool.and_eq_true, decide_eq_true_eq, Option.any_eq_true, beq_iff_eq] at h
    obtain ⟨⟨h1, h2⟩, h3⟩ := h
    refine ⟨s, ⟨_, he⟩, h1, h2, ?_⟩
    cases hs : Manager.step s (.registered 0 "a::I/slot_1".toUTF8.data.toList) with
    | no => rw [hs] at h3; cases h3
    | ub => rw [hs] at h3; cases h3
    | ok s' =>
      rw [hs] at h3
      exact ⟨s', rfl, by simpa using h3⟩

/-! ### How long it lasts -/

open HidlWatch

/-- C63: nothing is used after it has been freed, neither by the library nor by the kernel. That's if the GBinderServiceManager isn't
freed while a request is being sent. -/
theorem C63_safe_partial {s : State} (h : ReachIf step Calm {} s) (l : Label) : step s l ≠ .ub :=
  no_ub (quiet_reach h).1 (quiet_reach h).2 l

theorem run_holds {s : State} {ls : List Label} {p : State → Bool} (h : (exec step s ls).holds p = true) :
    ∃ s', exec step s ls = .ok s' ∧ p s' = true := by
  cases he : exec step s ls with
  | ok s' => rw [he] at h; exact ⟨s', rfl, h⟩
  | no => rw [he] at h; cases h
  | ub => rw [he] at h; cases h

/-- Otherwise the kernel gets the name which is no longer there. -/
theorem C63_fails_freed :
    ∃ s, Reach step {} s ∧ s.log = [.watched [0x61] 0 true, .closed] ∧ step s (.send 0) = .ub := by
  obtain ⟨s, hs, h⟩ := run_holds (s := {}) (ls := [.watch [0x61] true, .exec 0, .close])
    (p := fun s => decide (s.log = [.watched [0x61] 0 true, .closed]) && (step s (.send 0)).isUb) (by decide +kernel)
  simp only [Bool.and_eq_true, decide_eq_true_eq, Out.isUb_iff] at h
  exact ⟨s, ⟨_, hs⟩, h.1, h.2⟩

/-- C63: what is received by the n-th callback object is passed on for as long as it's waiting for something, i.e. from when it
was created until the name is unwatched (or watched once again), the service manager refuses to notify it, or the
GBinderServiceManager is gone. -/
theorem C63_waiting {s s' : State} (h : Reach step {} s) {n : Nat} {full : Bytes} (hs : step s (.notify n full) = .ok s') :
    s'.log = s.log ++ (if (waiting n s.log).isSome then [.told n full] else []) := by
  have hi := inv_reach h
  rw [hi.waiting]
  simp only [step] at hs
  split at hs
  · cases hs
  rename_i x hx
  have hv : s.voice n = x.voice := by unfold State.voice; rw [hx]; rfl
  rw [hv]
  split at hs
  · cases hs
  split at hs
  · rename_i hh
    split at hs
    · cases hs
    cases hs
    simp [Item.voice, hh, State.see]
  · rename_i hh
    cases hs
    simp [Item.voice, hh]

/-- C63: as long as it's waiting, the object is there, and a notification does get passed on. -/
theorem C63_delivered {s : State} (h : Reach step {} s) {n : Nat} {name : Bytes}
    (hw : waiting n s.log = some name) (full : Bytes) :
    step s (.notify n full) = .ok (s.see (.told n full)) := by
  have hi := inv_reach h
  rw [hi.waiting] at hw
  have hc : s.closed = false := by
    cases hb : s.closed with
    | false => rfl
    | true => rw [voice_none hi.base (hi.closed hb)] at hw; cases hw
  unfold State.voice at hw
  cases hx : s.item n with
  | none => rw [hx] at hw; cases hw
  | some x =>
    rw [hx] at hw
    have hh : x.handler = true := by
      cases hb : x.handler with
      | true => rfl
      | false => simp [Item.voice, hb] at hw
    have ho := hi.base.ok n x hx
    have h2 := ho.handler
    have h1 := ho.refs
    rw [hh] at h2
    rw [← h2] at h1
    have hr : x.refs ≠ 0 := by simp at h1; omega
    simp only [step, hx]
    grind

/-- C63: there's at most one which is waiting for a name. -/
theorem C63_one {s : State} (h : Reach step {} s) {n k : Nat} {name : Bytes} (hn : waiting n s.log = some name)
    (hk : waiting k s.log = some name) : n = k := by
  have hi := inv_reach h
  rw [hi.waiting] at hn hk
  have key : ∀ j, s.voice j = some name → (name, j) ∈ s.table := by
    intro j hj
    unfold State.voice at hj
    cases hx : s.item j with
    | none => rw [hx] at hj; cases hj
    | some x =>
      rw [hx] at hj
      simp only [Option.bind_some, Item.voice] at hj
      cases hh : x.handler with
      | false => rw [hh] at hj; cases hj
      | true =>
        rw [hh] at hj
        simp only [if_true, Option.some.injEq] at hj
        have hw : x.watch = true := by
          have := (hi.base.ok j x hx).handler
          rw [hh] at this
          cases hw : x.watch <;> simp [hw] at this ⊢
        rw [← hj]
        exact hi.base.found j x hx hw
  have hnd := hi.base.names
  rw [List.nodup_iff_pairwise_ne, List.pairwise_map] at hnd
  obtain ⟨a, b, hab⟩ := List.append_of_mem (key n hn)
  have hk := key k hk
  rw [hab] at hk hnd
  rw [List.pairwise_append] at hnd
  rcases List.mem_append.mp hk with hm | hm
  · exact absurd rfl (hnd.2.2 (name, k) hm (name, n) List.mem_cons_self)
  · rcases List.mem_cons.mp hm with hm | hm
    · cases hm; rfl
    · exact absurd rfl ((List.pairwise_cons.mp hnd.2.1).1 (name, k) hm)

/-- C63: the callback object is there for as long as the request may be sent. -/
theorem C63_object {s : State} (h : Reach step {} s) {n : Nat} {x : Item} (hx : s.item n = some x)
    (hr : x.stage = .queued ∨ x.stage = .running) : x.refs ≠ 0 := by
  obtain ⟨g1, -, g3, -, -⟩ := (inv_reach h).base.ok n x hx
  have : x.call = true := by
    rw [g3]
    rcases hr with hr | hr <;> rw [hr] <;> rfl
  rw [this] at g1
  simp only [if_true] at g1
  omega

/-- C63: when the name isn't interesting any more and the request has been completed, nothing is left, except for what somebody else
refers to. -/
theorem C63_released_partial {s : State} (h : Reach step {} s) {n : Nat} {x : Item} (hx : s.item n = some x)
    (hk : HidlWatch.kept n s.log = none) {ok : Bool} (hc : .completed n ok ∈ s.log) : x.Unused := by
  obtain ⟨hi, hs⟩ := seen_reach h
  obtain ⟨y, y1, y2⟩ := hs.completed n ok hc
  rw [hx] at y1
  cases y1
  obtain ⟨g1, -, g3, -, -⟩ := hi.base.ok n x hx
  have hw : x.watch = false := by
    cases hw : x.watch with
    | false => rfl
    | true =>
      have := hs.kept _ (hi.base.found n x hx hw)
      simp only [hk] at this
      cases this
  have hcall : x.call = false := by rw [g3, y2]; rfl
  refine ⟨hw, hcall, ?_⟩
  rw [hw, hcall] at g1
  simpa using g1

/-- C63: a request which has been accepted by gbinder_client_transact gets completed, if the thread and the main loop are running. -/
theorem C63_completed_partial {s : State} (h : ReachIf step Calm {} s) {n : Nat} {x : Item} (hx : s.item n = some x)
    (hr : x.stage ≠ .refused) (hg : x.stage ≠ .gone) (ok : Bool) :
    ∃ ls s', exec step s ls = .ok s' ∧ (∀ l ∈ ls, l = .exec n ∨ l = .send n ∨ l = .complete n ok) ∧
      ∃ b, .completed n b ∈ s'.log := by
  have fin : ∀ {s : State} {x : Item}, Inv s → s.item n = some x → x.stage = .executed →
      ∃ s', step s (.complete n ok) = .ok s' ∧ ∃ b, .completed n b ∈ s'.log := by
    intro s x hi hx hst
    obtain ⟨y, y1, -⟩ := complete_ok (hi.base.ok n x hx) hst ok
    refine ⟨(s.set n y).see (.completed n (ok && !x.cancelled)), by simp [step, hx, hst, y1], ok && !x.cancelled, ?_⟩
    show _ ∈ s.log ++ [_]
    simp
  have run : ∀ {s : State} {x : Item}, Inv s → Quiet s → s.item n = some x → x.stage = .running →
      ∃ s1 s', step s (.send n) = .ok s1 ∧ step s1 (.complete n ok) = .ok s' ∧ ∃ b, .completed n b ∈ s'.log := by
    intro s x hi hq hx hst
    cases h1 : step s (.send n) with
    | no => exfalso; simp only [step, hx, hst, if_true] at h1; split at h1 <;> cases h1
    | ub => exact absurd h1 (no_ub hi hq _)
    | ok s1 =>
      have hi1 := inv_step hi h1
      have : s1.item n = some { x with stage := .executed } := by
        simp only [step, hx, hst, if_true] at h1
        split at h1
        · cases h1
        cases h1
        exact upd_same _ _ _
      obtain ⟨s', h2, h3⟩ := fin hi1 this rfl
      exact ⟨s1, s', rfl, h2, h3⟩
  obtain ⟨hi, hq⟩ := quiet_reach h
  cases hst : x.stage with
  | refused => exact absurd hst hr
  | gone => exact absurd hst hg
  | executed =>
    obtain ⟨s', h1, h2⟩ := fin hi hx hst
    exact ⟨[.complete n ok], s', by simp [exec, h1], by simp, h2⟩
  | running =>
    obtain ⟨s1, s', h1, h2, h3⟩ := run hi hq hx hst
    exact ⟨[.send n, .complete n ok], s', by simp [exec, h1, h2], by simp, h3⟩
  | queued =>
    have h0 : step s (.exec n) = .ok (s.set n { x with stage := if x.cancelled then .executed else .running }) := by
      simp [step, hx, hst]
    have hi0 := inv_step hi h0
    have hq0 := quiet_step hi hq (by intro hh; cases hh) h0
    have hx0 : (s.set n { x with stage := if x.cancelled then .executed else .running }).item n =
        some { x with stage := if x.cancelled then .executed else .running } := upd_same _ _ _
    cases hc : x.cancelled with
    | true =>
      obtain ⟨s', h1, h2⟩ := fin hi0 hx0 (by simp [hc])
      exact ⟨[.exec n, .complete n ok], s', by simp [exec, h0, h1], by simp, h2⟩
    | false =>
      obtain ⟨s1, s', h1, h2, h3⟩ := run hi0 hq0 hx0 (by simp [hc])
      exact ⟨[.exec n, .send n, .complete n ok], s', by simp [exec, h0, h1, h2], by simp, h3⟩

/-- What has to do with a request which has been refused is never freed. (gbinder_servicemanager.c doesn't call watch() if
it knows that the service manager isn't there.) -/
theorem C63_fails_leak : ∃ s, Reach step {} s ∧ s.log = [.watched [0x61] 0 false, .closed] ∧
    ∀ ls s', exec step s ls = .ok s' → ∃ x, s'.item 0 = some x ∧ x.call = true ∧ x.other < x.refs := by
  obtain ⟨s, hs, h⟩ := run_holds (s := {}) (ls := [.watch [0x61] false, .close])
    (p := fun s => decide (s.log = [.watched [0x61] 0 false, .closed]) && (s.item 0).any fun x => x.stage == .refused)
    (by decide +kernel)
  simp only [Bool.and_eq_true, decide_eq_true_eq, Option.any_eq_true, beq_iff_eq] at h
  refine ⟨s, ⟨_, hs⟩, h.1, ?_⟩
  intro ls s' he
  have := exec_invariant (P := fun s => Inv s ∧ Stuck 0 s) (fun s l s' hp hs => ⟨inv_step hp.1 hs, stuck_step hp.1 hp.2 hs⟩)
    ⟨inv_reach ⟨_, hs⟩, h.2⟩ he
  obtain ⟨hi, x, hx, hst⟩ := this
  obtain ⟨g1, -, g3, -, -⟩ := hi.base.ok 0 x hx
  have hc : x.call = true := by rw [g3, hst]; rfl
  rw [hc] at g1
  simp only [if_true] at g1
  exact ⟨x, hx, hc, by omega⟩

/-! ### The reply -/

/-- C63: the service manager is considered to have accepted it if and only if the reply begins with zero and a value which isn't. -/
theorem C63_accepted (status : Int) (r : Reader) :
    accepted status r = .ok true ↔ status = 0 ∧ ∃ r1 r2, r.readUInt32 = .ok 0 r1 ∧ r1.readBool = .ok true r2 := by
  unfold accepted
  by_cases hs : status = 0
  · rw [if_pos hs]
    cases h1 : r.readUInt32 with
    | ub k => simp
    | fail r1 => simp
    | ok v r1 =>
      simp only [Res.ok.injEq, hs, true_and]
      cases h2 : r1.readBool with
      | ub k =>
        simp only [reduceCtorEq, false_iff]
        rintro ⟨r1', r2', ⟨-, rfl⟩, h3⟩
        rw [h2] at h3
        cases h3
      | fail r2 =>
        simp only [Except.ok.injEq, Bool.false_eq_true, false_iff]
        rintro ⟨r1', r2', ⟨-, rfl⟩, h3⟩
        rw [h2] at h3
        cases h3
      | ok b r2 =>
        simp only [Except.ok.injEq, Bool.and_eq_true, decide_eq_true_eq]
        constructor
        · rintro ⟨rfl, rfl⟩; exact ⟨r1, r2, ⟨rfl, rfl⟩, h2⟩
        · rintro ⟨r1', r2', ⟨rfl, rfl⟩, h3⟩
          rw [h2] at h3
          cases h3
          exact ⟨rfl, rfl⟩
  · rw [if_neg hs]
    simp [hs]

/-! ### Examples -/

def check (io : Io) (m : Mem) (s : List Char) (ops : List WOp) : Bool :=
  match Client.new Demo.env C45.qsort io .hidl m (some (utf8Text s)) with
  | .error _ => false
  | .ok rs => match firstRequest io .hidl m rs with
    | .error _ => false
    | .ok w => match WOp.runAll Demo.env w ops with
      | .error _ => false
      | .ok w' => decide (w'.bytes.length < 2 ^ 32) && decide (w'.mem.Sane (256 ^ word io)) && w'.io == io && demoBoth w'

theorem check_sound {io : Io} {m : Mem} {s : List Char} {ops : List WOp} (h : check io m s ops = true) :
    ∃ rs w w' dst b', Client.new Demo.env C45.qsort io .hidl m (some (utf8Text s)) = .ok rs ∧
      firstRequest io .hidl m rs = .ok w ∧ WOp.runAll Demo.env w ops = .ok w' ∧
      w'.bytes.length < 2 ^ 32 ∧ w'.mem.Sane (256 ^ word io) ∧
      Transfer io w'.mem w'.bytes w'.offsets (demoObjs w') demoAddr dst b' ∧
      References io w'.bytes w'.offsets (demoObjs w') id some b' := by
  unfold check at h
  split at h
  · cases h
  rename_i rs h1
  split at h
  · cases h
  rename_i w h2
  split at h
  · cases h
  rename_i w' h3
  simp only [Bool.and_eq_true, decide_eq_true_eq, beq_iff_eq] at h
  obtain ⟨⟨⟨a1, a2⟩, a3⟩, a4⟩ := h
  obtain ⟨dst, b', b1, b2⟩ := demoBoth_sound a4
  rw [a3] at b1 b2
  exact ⟨rs, w, w', dst, b', h1, h2, h3, a1, a2, b1, b2⟩

/-- All the hypotheses of `C63_request` and `C63_told`: "ab" is at 16, "b" at 17 and "" at 18. -/
example : Demo.mem.cstr 16 = some [0x61, 0x62] ∧ Demo.mem.cstr 17 = some [0x62] ∧ Demo.mem.cstr 18 = some [] ∧
    check .io64 Demo.mem ['a', '.', 'M'] (registerOps 16 18 ⟨0x1000, 12⟩) = true ∧
    check .io32 Demo.mem ['a', '.', 'M'] (registerOps 16 18 ⟨0x1000, 12⟩) = true ∧
    check .io64 Demo.mem iface [.hidlString 16, .hidlString 17, .bool true] = true := by
  decide +kernel

/-- Those of `C63_payload_partial`, and of `C63_only`: "hi" is at 0x2000, and is used twice. -/
example : ∃ (m : Mem) (rq : RemoteReq), m.Apart ∧ rq.initReader.Inside ∧ Reader.Delivered m rq.initReader ∧
    Reader.NoEmptyBuffers rq.initReader ∧
    notification m rq 1 = .ok (0, some [104, 105, 0x2f, 104, 105]) ∧ notification m rq 2 = .ok (1, none) := by
  refine ⟨[(0x1000, leBytes 8 0x2000 ++ leBytes 4 2 ++ leBytes 4 0), (0x2000, [104, 105, 0])],
    { io := .io64, protocol := .hidl, iface := some (utf8Text iface), headerSize := 4,
      data := leBytes 4 0 ++ encodeBufferObject .io64 0x1000 16 none ++ encodeBufferObject .io64 0x2000 3 (some ⟨0, 0⟩) ++
        encodeBufferObject .io64 0x1000 16 none ++ encodeBufferObject .io64 0x2000 3 (some ⟨2, 0⟩) ++ leBytes 4 1,
      objects := [4, 44, 84, 124] }, by decide +kernel, ⟨by decide +kernel, by decide +kernel, by decide +kernel⟩, by decide +kernel,
      by decide +kernel, by decide +kernel, by decide +kernel⟩

/-- Those of `C63_accepted`. -/
example : accepted 0 (Reader.init .io64 .hidl (leBytes 4 0 ++ leBytes 4 1) [] true 0 8) = .ok true ∧
    accepted 0 (Reader.init .io64 .hidl (leBytes 4 0 ++ leBytes 4 0) [] true 0 8) = .ok false ∧
    accepted 0 (Reader.init .io64 .hidl (leBytes 4 0) [] true 0 4) = .ok false := by
  decide +kernel

/-- The name is watched, registered, notified about, unwatched while somebody still refers to the callback object, which is
notified once again. -/
example : ∃ s, ReachIf step Calm {} s ∧ s.log = [.watched [0x61] 0 true, .sent 0 [0x61], .completed 0 true, .told 0 [0x61, 0x2f],
      .watched [0x61] 1 true, .unwatched [0x61], .completed 1 false] ∧
    waiting 0 s.log = none ∧ HidlWatch.kept 0 s.log = none ∧ HidlWatch.kept 1 s.log = none ∧ ∃ x, s.item 0 = some x ∧ x.refs = 1 ∧
      ∃ s', step s (.notify 0 [0x61, 0x2f]) = .ok s' ∧ s'.log = s.log := by
  obtain ⟨s, hs, h⟩ := run_holds (s := {}) (ls := [.watch [0x61] true, .exec 0, .send 0, .complete 0 true, .hold 0,
      .notify 0 [0x61, 0x2f], .watch [0x61] true, .unwatch [0x61], .exec 1, .complete 1 true, .notify 0 [0x61, 0x2f]])
    (p := fun s => decide (s.log = [.watched [0x61] 0 true, .sent 0 [0x61], .completed 0 true, .told 0 [0x61, 0x2f],
      .watched [0x61] 1 true, .unwatched [0x61], .completed 1 false]) && ((s.item 0).any fun x : Item => decide (x.refs = 1)) &&
      (step s (.notify 0 [0x61, 0x2f])).holds fun s' => s'.log == s.log) (by decide +kernel)
  simp only [Bool.and_eq_true, decide_eq_true_eq, Option.any_eq_true] at h
  obtain ⟨⟨h1, h2⟩, h3⟩ := h
  refine ⟨s, ?_, h1, by rw [h1]; decide +kernel, by rw [h1]; decide +kernel, by rw [h1]; decide +kernel, ?_⟩
  · have : ∀ ls : List Label, .close ∉ ls → ∀ s0 s1, ReachIf step Calm {} s0 → exec step s0 ls = .ok s1 → ReachIf step Calm {} s1 := by
      intro ls
      induction ls with
      | nil => intro _ s0 s1 h0 h1; cases h1; exact h0
      | cons l ls ih =>
        intro hn s0 s1 h0 h1
        simp only [exec] at h1
        split at h1
        · rename_i s2 h2
          refine ih (fun hm => hn (List.mem_cons_of_mem _ hm)) s2 s1 (.step l h0 ?_ h2) h1
          rintro rfl
          exact absurd List.mem_cons_self hn
        · cases h1
        · cases h1
    exact this _ (by simp) _ _ .init hs
  · obtain ⟨x, hx, hr⟩ := h2
    refine ⟨x, hx, hr, ?_⟩
    cases hst : step s (.notify 0 [0x61, 0x2f]) with
    | no => rw [hst] at h3; cases h3
    | ub => rw [hst] at h3; cases h3
    | ok s' =>
      rw [hst] at h3
      exact ⟨s', rfl, by simpa [Out.holds] using h3⟩

/-- One which is waiting after the request was accepted. -/
example : ∃ s, Reach step {} s ∧ waiting 0 s.log = some [0x61] ∧ .completed 0 true ∈ s.log := by
  obtain ⟨s, hs, h⟩ := run_holds (s := {}) (ls := [.watch [0x61] true, .exec 0, .send 0, .complete 0 true])
    (p := fun s => decide (waiting 0 s.log = some [0x61] ∧ .completed 0 true ∈ s.log)) (by decide +kernel)
  exact ⟨s, ⟨_, hs⟩, by simpa using h⟩

end Gb.C63
