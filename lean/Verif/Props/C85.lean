import Verif.Lemmas.AndroidServices
import Verif.Model.Config
/-
C85: Android's service managers understand what they are asked.
-/
set_option autoImplicit false

namespace Gb.C85
open Client Kernel Android C80 C59

/-! ### Which one is used -/

/-- The class which libgbinder has for a release of Android. -/
def kindOf : Release → Kind
  | .r8 => .aidl
  | .r9 | .r10 => .aidl2
  | .r11 => .aidl3
  | .r12 | .r13 => .aidl4

/-- API levels. -/
def releaseOf (level : Int) : Release :=
  if level ≥ 33 then .r13 else if level ≥ 31 then .r12 else if level ≥ 30 then .r11 else if level ≥ 29 then .r10
  else if level ≥ 28 then .r9 else .r8

/-- What's chosen for the device, given the key file. -/
def chosen (f : Config.KeyFile) : Protocol × Kind :=
  ((Config.table Protocol.aidl .hidl (Config.load (some f) Config.protocolGroup Config.findProtocol)).choose
      (Config.str "/dev/binder"),
   (Config.table Kind.aidl .hidl (Config.load (some f) Config.managerGroup Config.findManager)).choose
      (Config.str "/dev/binder"))

/-- A file with nothing but the API level in it. `int` is what makes a number of that. -/
def levelFile : Config.KeyFile := [(Config.str "General", Config.str "ApiLevel", Config.str "level")]

/-- C85: if there's nothing but the API level in the configuration, the header is the one used by that release of Android,
and the service manager is the one for that release. -/
theorem C85_presets (level : Int) :
    chosen (Config.applyLevel (fun _ => level) levelFile) =
      ((releaseOf level).protocol, kindOf (releaseOf level)) := by
  have hg : (Config.KeyFile.get levelFile (Config.str "General") (Config.str "ApiLevel")).map (fun _ => level) =
      some level := by
    have : Config.KeyFile.get levelFile (Config.str "General") (Config.str "ApiLevel") = some (Config.str "level") := by
      decide +kernel
    rw [this]
    rfl
  have p31 : chosen (Config.applyPresets levelFile (Config.both Config.protocolGroup "aidl3" ++
      Config.both Config.managerGroup "aidl4")) = (.aidl3, .aidl4) := by decide +kernel
  have p30 : chosen (Config.applyPresets levelFile (Config.both Config.protocolGroup "aidl3" ++
      Config.both Config.managerGroup "aidl3")) = (.aidl3, .aidl3) := by decide +kernel
  have p29 : chosen (Config.applyPresets levelFile (Config.both Config.protocolGroup "aidl2" ++
      Config.both Config.managerGroup "aidl2")) = (.aidl2, .aidl2) := by decide +kernel
  have p28 : chosen (Config.applyPresets levelFile (Config.both Config.managerGroup "aidl2")) = (.aidl, .aidl2) := by
    decide +kernel
  have p0 : chosen levelFile = (.aidl, .aidl) := by decide +kernel
  simp only [Config.applyLevel, hg, Option.getD_some, Config.presets, List.find?_cons, List.find?_nil, releaseOf]
  by_cases h0 : level ≥ 31
  · rw [if_pos (by omega)]
    simp only [show (31 : Nat) = (31 : Int) from rfl, h0, decide_true, p31]
    by_cases h1 : level ≥ 33
    · rw [if_pos h1]; rfl
    · rw [if_neg h1, if_pos trivial]; rfl
  rw [if_neg (show ¬level ≥ 33 by omega), if_neg h0]
  by_cases h1 : level ≥ 30
  · rw [if_pos (by omega), if_pos h1]
    simp only [show ((31 : Nat) : Int) = 31 from rfl, show ((30 : Nat) : Int) = 30 from rfl, h0, h1, decide_true, decide_false, p30]
    rfl
  rw [if_neg h1]
  by_cases h2 : level ≥ 29
  · rw [if_pos (by omega), if_pos h2]
    simp only [show ((31 : Nat) : Int) = 31 from rfl, show ((30 : Nat) : Int) = 30 from rfl,
      show ((29 : Nat) : Int) = 29 from rfl, h0, h1, h2, decide_true, decide_false, p29]
    rfl
  rw [if_neg h2]
  by_cases h3 : level ≥ 28
  · rw [if_pos (by omega), if_pos h3]
    simp only [show ((31 : Nat) : Int) = 31 from rfl, show ((30 : Nat) : Int) = 30 from rfl,
      show ((29 : Nat) : Int) = 29 from rfl, show ((28 : Nat) : Int) = 28 from rfl, h0, h1, h2, h3, decide_true, decide_false, p28]
    rfl
  rw [if_neg h3]
  simp only [show ((31 : Nat) : Int) = 31 from rfl, show ((30 : Nat) : Int) = 30 from rfl,
      show ((29 : Nat) : Int) = 29 from rfl, show ((28 : Nat) : Int) = 28 from rfl, h0, h1, h2, h3, decide_false]
  rw [ite_self, p0]
  rfl

theorem iface_aidl {k : Kind} (hk : k ≠ .hidl) : Services.iface k = utf8Text managerName := by
  have : "android.os.IServiceManager".toUTF8.data.toList = utf8Text managerName := by decide +kernel
  cases k <;> first | exact this | exact absurd rfl hk

theorem iface_hidl : Services.iface .hidl = utf8Text hwManagerName := by decide +kernel

theorem manager_ok : C18.NameOk managerName := ⟨by decide +kernel, by decide +kernel⟩

theorem hwManager_ok : C18.NameOk hwManagerName := ⟨by decide +kernel, by decide +kernel⟩

theorem kindOf_ne (r : Release) : kindOf r ≠ .hidl := by cases r <;> decide

theorem start_of {r : Release} {b : Bytes} {p : Nat} (h : enforce syst b r.protocol = some (nameOf managerName r.protocol, p)) :
    r.start b = some p := by
  unfold Release.start
  rw [h]
  cases r <;> simp [nameOf, Release.protocol]

/-! ### Requests -/

/-- C85: addService is called with the name and the object given by the caller, up to Android 11. Missing: the
releases after that, see below. -/
theorem C85_add_partial {r : Release} (hr : r ≠ .r12 ∧ r ≠ .r13) {e : Env} {q : Qsort} {io : Io} {m : Mem} {name : List Char}
    (hn : C18.NameOk name) {o : LocalRef} (ho : o.addr < 256 ^ word io) (hst : o.stability ∈ [0x03, 0x0c, 0x3f]) {at_ : Nat}
    {rs : List Range} (h : Client.new e q io r.protocol m (some (Services.iface (kindOf r))) = .ok rs) {w w' : Writer}
    (hw : firstRequest io r.protocol m rs = .ok w)
    (hr' : WOp.runAll e w (addServiceOps (utf8Text name) at_ o (kindOf r)) = .ok w')
    {src dst : Mem} {objs : List KObj} {addr : Nat → Nat} {b' : Bytes} {node : Nat → Nat} {other : Nat → Option Nat}
    (t : Transfer io src w'.bytes w'.offsets objs addr dst b')
    (t' : References io w'.bytes w'.offsets objs node other b') :
    r.addService io b' w'.offsets = some ⟨name.flatMap utf16, .handle (node o.addr), false,
      if r = .r8 then none else some 8, 0⟩ := by
  rw [iface_aidl (kindOf_ne r)] at h
  obtain ⟨p0, p1, p2, h0, h1, h2, h3⟩ := add_parts manager_ok hn (kindOf_ne r) ho (fun _ => hst) h hw hr' t t'
  have hs := start_of h0
  have ho : r.object io b' w'.offsets p1 = some (.handle (node o.addr), p2) := by
    cases r <;> first
      | exact absurd rfl hr.1
      | exact absurd rfl hr.2
      | (simp only [Release.protocol] at h2
         unfold Release.object
         simp only
         first
           | (rw [show (Protocol.aidl3 == Protocol.aidl3) = true from rfl] at h2; rw [h2]; rfl)
           | (rw [show (Protocol.aidl == Protocol.aidl3) = false from rfl] at h2; rw [h2]; rfl)
           | (rw [show (Protocol.aidl2 == Protocol.aidl3) = false from rfl] at h2; rw [h2]; rfl))
  simp only [Release.addService, hs, Option.bind_eq_bind, Option.bind_some, h1, ho]
  cases r <;> first
    | exact absurd rfl hr.1
    | exact absurd rfl hr.2
    | (have k1 := one_int h3
       simp only [bool_of k1]
       simp)
    | (obtain ⟨k, k1, k2⟩ := more_ints h3
       simp only [bool_of k1, one_int k2]
       simp)

/-- With the class for Android 12, the stability is there twice. Android 12 doesn't find it where it's expected and refuses
every registration. -/
theorem C85_fails_add12 {e : Env} {q : Qsort} {io : Io} {m : Mem} {name : List Char}
    (hn : C18.NameOk name) {o : LocalRef} (ho : o.addr < 256 ^ word io) (hst : o.stability ∈ [0x03, 0x0c, 0x3f]) {at_ : Nat}
    {rs : List Range} (h : Client.new e q io .aidl3 m (some (Services.iface .aidl4)) = .ok rs) {w w' : Writer}
    (hw : firstRequest io .aidl3 m rs = .ok w)
    (hr' : WOp.runAll e w (addServiceOps (utf8Text name) at_ o .aidl4) = .ok w')
    {src dst : Mem} {objs : List KObj} {addr : Nat → Nat} {b' : Bytes} {node : Nat → Nat} {other : Nat → Option Nat}
    (t : Transfer io src w'.bytes w'.offsets objs addr dst b')
    (t' : References io w'.bytes w'.offsets objs node other b') :
    Release.r12.addService io b' w'.offsets = none := by
  rw [iface_aidl (by decide)] at h
  obtain ⟨p0, p1, p2, h0, h1, h2, h3⟩ := add_parts manager_ok hn (by decide) ho (fun _ => hst) h hw hr' t t'
  have hs := start_of (r := .r12) h0
  obtain ⟨k1, k2, k3, k4⟩ := binder_stable h2
  rw [if_pos rfl] at k4
  have ho : Release.r12.object io b' w'.offsets p1 = none := by
    simp only [Release.object, k3, k4]
    rw [if_neg]
    rintro ⟨_, _, c⟩
    simp only [List.mem_cons, List.not_mem_nil, or_false, reduceCtorEq, if_false] at hst c
    omega
  simp only [Release.addService, hs, Option.bind_eq_bind, Option.bind_some, h1, ho]
  rfl

/-- Since Android 13 the service is registered. But what follows is taken for the other arguments: the service may be
used by isolated processes, and its priority for dumpsys is zero. -/
theorem C85_fails_add13 {e : Env} {q : Qsort} {io : Io} {m : Mem} {name : List Char}
    (hn : C18.NameOk name) {o : LocalRef} (ho : o.addr < 256 ^ word io) (hst : o.stability ∈ [0x03, 0x0c, 0x3f]) {at_ : Nat}
    {rs : List Range} (h : Client.new e q io .aidl3 m (some (Services.iface .aidl4)) = .ok rs) {w w' : Writer}
    (hw : firstRequest io .aidl3 m rs = .ok w)
    (hr' : WOp.runAll e w (addServiceOps (utf8Text name) at_ o .aidl4) = .ok w')
    {src dst : Mem} {objs : List KObj} {addr : Nat → Nat} {b' : Bytes} {node : Nat → Nat} {other : Nat → Option Nat}
    (t : Transfer io src w'.bytes w'.offsets objs addr dst b')
    (t' : References io w'.bytes w'.offsets objs node other b') :
    Release.r13.addService io b' w'.offsets = some ⟨name.flatMap utf16, .handle (node o.addr), true, some 0, 4⟩ := by
  rw [iface_aidl (by decide)] at h
  obtain ⟨p0, p1, p2, h0, h1, h2, h3⟩ := add_parts manager_ok hn (by decide) ho (fun _ => hst) h hw hr' t t'
  have hs := start_of (r := .r13) h0
  have ho : Release.r13.object io b' w'.offsets p1 = some (.handle (node o.addr), p2) := by
    have h2' : readBinder io true b' w'.offsets p1 = _ := h2
    simp only [Release.object, h2', Option.map_some]
  simp only [Release.addService, hs, Option.bind_eq_bind, Option.bind_some, h1, ho]
  obtain ⟨k, k1, k2⟩ := more_ints h3
  obtain ⟨k', k3, k4⟩ := more_ints k2
  have k5 := one_int k4
  have k6 : b'.length = k' + 4 := by
    simp only [readAt] at k5
    split at k5
    · simp only [Option.some.injEq, Prod.mk.injEq] at k5
      omega
    · cases k5
  simp only [bool_of k1, k3]
  simp [k6]

/-- C85: checkService is called with the name given by the caller. -/
theorem C85_get (r : Release) {e : Env} {q : Qsort} {io : Io} {m : Mem} {name : List Char} (hn : C18.NameOk name) {a b : Nat}
    {rs : List Range} (h : Client.new e q io r.protocol m (some (Services.iface (kindOf r))) = .ok rs) {w w' : Writer}
    (hw : firstRequest io r.protocol m rs = .ok w) {ops : List WOp}
    (ho : Services.getServiceOps ⟨utf8Text name, a, b⟩ (kindOf r) = some ops) (hr : WOp.runAll e w ops = .ok w')
    {src dst : Mem} {objs : List KObj} {addr : Nat → Nat} {b' : Bytes}
    (t : Transfer io src w'.bytes w'.offsets objs addr dst b') :
    r.getService b' = some (name.flatMap utf16, 0) := by
  rw [iface_aidl (kindOf_ne r)] at h
  obtain ⟨g1, g2, g3, g4⟩ := request manager_ok h hw
  have ho' : ops = [.string16 (some (utf8Text name))] := by
    cases r <;> (cases ho; rfl)
  subst ho'
  have h0 := start_of (header_received manager_ok g2 (by simp) hr t)
  obtain ⟨w1, e1, hr1⟩ := runAll_split hr
  cases hr1
  have a1 := items_received (e := e) (p := r.protocol) (m := m) (pre := headerOps r.protocol managerName)
    (xs := [.plain (.string16 (some name))]) (post := []) (w0 := w) (w1 := w') (by
      intro v hv
      cases List.mem_singleton.mp hv
      exact hn) g1
    (by simp only [putAll, Item.put, C01.Value.write, Option.map_some]; simp only [WOp.run] at e1; rw [e1]; rfl) rfl (by
      intro off v hm
      rw [List.append_nil] at hm
      exact headerOps_append off v hm) t
  obtain ⟨v, us, k, c1, c2, c3⟩ := readAll_cons a1
  cases c1
  cases c3
  simp only [Release.getService, h0, Option.bind_eq_bind, Option.bind_some, Item.ty] at c2 ⊢
  rw [c2, t.size]
  simp [Item.val]

/-- C85: listServices is called with the index of the service which is wanted, and all the priorities. -/
theorem C85_list (r : Release) {e : Env} {q : Qsort} {io : Io} {m : Mem} {i : Nat}
    {rs : List Range} (h : Client.new e q io r.protocol m (some (Services.iface (kindOf r))) = .ok rs) {w w' : Writer}
    (hw : firstRequest io r.protocol m rs = .ok w) (hi : i < 2 ^ 32)
    (hr : WOp.runAll e w (Services.listOps i (kindOf r)) = .ok w')
    {src dst : Mem} {objs : List KObj} {addr : Nat → Nat} {b' : Bytes}
    (t : Transfer io src w'.bytes w'.offsets objs addr dst b') :
    r.listServices b' = some ⟨if r = .r8 ∨ r = .r9 ∨ r = .r10 then some i else none,
      if r = .r8 then none else some 15, 0⟩ := by
  rw [iface_aidl (kindOf_ne r)] at h
  obtain ⟨g1, g2, g3, g4⟩ := request manager_ok h hw
  rw [C52.ops_asked] at hr
  have h0 := start_of (header_received manager_ok g2 C52.asked_append hr t)
  have a1 := items_received (e := e) (p := r.protocol) (m := m) (pre := headerOps r.protocol managerName)
    (xs := (C52.asks i (kindOf r)).map Item.plain) (post := []) (w0 := w) (w1 := w') (by
      intro x hx
      obtain ⟨v, hv, rfl⟩ := List.mem_map.mp hx
      exact C52.asks_ok i (kindOf r) v hv) g1
    (by rw [plain_put, ← C52.asked_run]; exact hr) rfl (by
      intro off v hm
      rw [List.append_nil] at hm
      exact headerOps_append off v hm) t
  have hi' : (UInt32.ofNat i).toNat = i := by simp [Nat.mod_eq_of_lt hi]
  simp only [Release.listServices, h0, Option.bind_eq_bind, Option.bind_some]
  cases r <;> (simp only [kindOf, C52.asks, List.map_cons, List.map_nil, Item.ty, Item.val, hi'] at a1
               simp only [a1]
               simp [t.size])

/-! ### Answers -/

theorem head_of {io : Io} {b : Bytes} {offs : List Nat} {objs : List KObj} (h : accepts io b offs = some objs) {p : Nat}
    (hp : p < io.flatSize) (hm : p ∈ offs) : offs.head? = some p := by
  have := C80.accepts_spec h
  cases offs with
  | nil => cases hm
  | cons o offs =>
    rcases List.mem_cons.mp hm with rfl | hm
    · rfl
    · have := (List.pairwise_cons.mp this).1 p hm
      omega

theorem finish_ref {st : Bool} {b : Bytes} {y x : Ref} {k s q : Nat} (h : finish st b y k = some (x, s, q)) : y = x := by
  unfold finish at h
  repeat' split at h
  all_goals first
    | cases h; rfl
    | cases h

/-- What a reference refers to. -/
theorem binder_inv {io : Io} {st : Bool} {b : Bytes} {offs : List Nat} {p : Nat} {x : Ref} {s q : Nat}
    (h : readBinder io st b offs p = some (x, s, q)) :
    (∀ n, x = .handle n → fieldAt b p 4 = tHandle ∧ (n ≠ 0 → p ∈ offs) ∧ ∃ k, getObject io b p = some (.handle n, k)) ∧
    ((∀ n, x ≠ .handle n) → fieldAt b p 4 ≠ tHandle) := by
  have hw : 4 ≤ word io := by cases io <;> decide
  simp only [readBinder] at h
  split at h
  case isFalse => cases h
  rename_i hl
  split at h
  case isFalse => cases h
  rename_i ho
  rw [num_field b (show p + 4 ≤ b.length by omega)] at h
  split at h
  · rename_i ht
    have hx := finish_ref h
    have hne : fieldAt b p 4 ≠ tHandle := by rw [ht]; decide
    refine ⟨?_, fun _ => hne⟩
    rintro n rfl
    split at hx <;> cases hx
  · split at h
    case isFalse => cases h
    rename_i hb ht
    have hx := finish_ref h
    subst hx
    refine ⟨?_, fun hc => absurd rfl (hc _)⟩
    intro n hn
    cases hn
    refine ⟨ht, ?_, 8 + 2 * word io, ?_⟩
    · intro hz
      rcases ho with ho | ho
      · exfalso
        apply hz
        have h1 := ho.1
        rw [num_field b (show p + 8 + word io ≤ b.length by omega)] at h1
        rw [num_field b (show p + 8 + 4 ≤ b.length by omega)]
        exact field_zero h1 hw
      · exact ho
    · rw [num_field b (show p + 8 + 4 ≤ b.length by omega)]
      unfold getObject
      simp only [ht]
      rw [if_neg (by omega), if_neg (by decide), if_pos (by decide), if_pos (by omega)]

theorem object_inv {r : Release} {io : Io} {b : Bytes} {offs : List Nat} {p : Nat} {x : Ref} {q : Nat}
    (h : r.object io b offs p = some (x, q)) : ∃ st s k, readBinder io st b offs p = some (x, s, k) := by
  cases r <;> simp only [Release.object] at h
  all_goals first
    | (obtain ⟨⟨y, s, k⟩, h1, h2⟩ := Option.map_eq_some_iff.mp h
       cases h2
       exact ⟨_, s, k, h1⟩)
    | skip
  split at h
  · cases h
  · rename_i y s k h1
    repeat' split at h
    all_goals first
      | cases h; exact ⟨_, _, _, h1⟩
      | cases h

theorem found_inv {r : Release} {io : Io} {b : Bytes} {offs : List Nat} {x : Ref} (h : r.found io b offs = some x) :
    ∃ st s k, readBinder io st b offs (C60.place (kindOf r)) = some (x, s, k) := by
  cases r <;> simp only [Release.found] at h
  all_goals first
    | (obtain ⟨⟨y, k⟩, h1, h2⟩ := Option.map_eq_some_iff.mp h
       cases h2
       exact object_inv h1)
    | (split at h
       · obtain ⟨⟨y, k⟩, h1, h2⟩ := Option.map_eq_some_iff.mp h
         cases h2
         exact object_inv h1
       · cases h)

theorem place_lt (k : Kind) (io : Io) : C60.place k < io.flatSize := by cases k <;> cases io <;> decide

/-- C85: if the reply refers to an object for Android's own clients, it's the same object for libgbinder. (Handle zero is
the service manager itself.) -/
theorem C85_found {r : Release} {io : Io} {b : Bytes} {offs : List Nat} {objs : List KObj}
    (ha : accepts io b offs = some objs) {n : Nat} (hn : n ≠ 0) (h : r.found io b offs = some (.handle n)) (p : Protocol) :
    Services.getServiceReply (kindOf r) (some (C33.reader io p b offs)) = .ok (some n) := by
  obtain ⟨st, s, k, h1⟩ := found_inv h
  obtain ⟨c1, c2, c3⟩ := (binder_inv h1).1 n rfl
  exact (C60.C60_answer _ _ _ _ _ _).mpr ⟨head_of ha (place_lt _ _) (c2 hn), c1, c3⟩

/-- C85: if there's no such service, there's no object. -/
theorem C85_missing {r : Release} {io : Io} {b : Bytes} {offs : List Nat} (h : r.found io b offs = some .null)
    (p : Protocol) (n : Nat) :
    Services.getServiceReply (kindOf r) (some (C33.reader io p b offs)) ≠ .ok (some n) := by
  intro hc
  obtain ⟨st, s, k, h1⟩ := found_inv h
  obtain ⟨_, c2, _⟩ := (C60.C60_answer _ _ _ _ _ _).mp hc
  exact (binder_inv h1).2 (by simp) c2

theorem string16_end {b : Bytes} {p q : Nat} {v : Val} (h : readAt b p .string16 = some (v, q)) : q ≤ b.length := by
  simp only [readAt] at h
  repeat' split at h
  all_goals first
    | (cases h; done)
    | (simp only [Option.some.injEq, Prod.mk.injEq] at h; omega)

/-- The names of the services, as they are in parcels. -/
def units (l : List (List Char)) : List (List Nat) := l.map (·.flatMap utf16)

/-- C85, up to Android 10: the list consists of the names with which the service manager has replied, one after another. -/
theorem C85_listed {r : Release} (hr : r = .r8 ∨ r = .r9 ∨ r = .r10) {m : Mem} {peer : List WOp → Option Reader}
    {services : List (List Char)} (hs : ∀ s ∈ services, '\x00' ∉ s)
    (h : ∀ i (hi : i < services.length), ∃ io p b offs, b.length < 2 ^ 31 ∧
      peer (Services.listOps i (kindOf r)) = some (C33.reader io p b offs) ∧ nameReplied b = some (services[i].flatMap utf16))
    (h' : peer (Services.listOps services.length (kindOf r)) = none) {n : Nat} (hn : services.length < n) :
    Services.list (kindOf r) m peer n = .done (some (services.map utf8Text)) := by
  have key : ∀ (k : Nat) (l : List Bytes) (asked : List Nat), l.length ≤ services.length → services.length < l.length + k →
      l = (services.take l.length).map utf8Text →
      ∃ asked', Lists.aidl (fun i => peer (Services.listOps i (kindOf r))) k l asked = .done (services.map utf8Text, asked') := by
    intro k
    induction k with
    | zero => intro l asked h1 h2; omega
    | succ k ih =>
      intro l asked h1 h2 h3
      by_cases he : l.length = services.length
      · refine ⟨asked ++ [l.length], ?_⟩
        unfold Lists.aidl
        simp only [he, h']
        rw [h3, he, List.take_length]
      · have hlt : l.length < services.length := by omega
        obtain ⟨io, p, b, offs, e1, e2, e3⟩ := h l.length hlt
        have hb : ∃ q, readAt b 0 .string16 = some (.units (some (services[l.length].flatMap utf16)), q) := by
          unfold nameReplied at e3
          split at e3
          · rename_i s q hq
            exact ⟨q, by rw [hq, e3]⟩
          · cases e3
        obtain ⟨q, hq⟩ := hb
        have hread := readString16_of (r := C33.reader io p b offs) (hs _ (List.getElem_mem hlt))
          (by simp [C33.reader, Reader.init]) (by simp [C33.reader, Reader.init]) e1 (string16_end hq) hq
        unfold Lists.aidl
        simp only [e2, hread]
        apply ih
        · simp; omega
        · simp; omega
        · simp only [List.length_append, List.length_cons, List.length_nil, Nat.zero_add]
          rw [List.take_add_one, List.map_append, ← h3]
          simp [hlt]
  obtain ⟨a, ha⟩ := key n [] [] (by simp) (by simpa using hn) (by simp)
  rcases hr with rfl | rfl | rfl <;>
  · simp only [Services.list, kindOf] at ha ⊢
    rw [ha]

theorem names_read {b : Bytes} (hb : b.length < 2 ^ 31) {services : List (List Char)} (hs : ∀ s ∈ services, '\x00' ∉ s) :
    ∀ {r : Reader}, r.buf = b → r.fin = b.length → r.pos ≤ r.fin →
      ∀ {n : Nat}, namesAt b r.pos n = some (units services) →
      ∃ r', Lists.strings n r = .ok (services.map (some ∘ utf8Text)) r' := by
  induction services with
  | nil =>
    intro r h1 h2 h3 n h
    cases n with
    | zero => exact ⟨r, rfl⟩
    | succ n =>
      simp only [namesAt] at h
      split at h
      · obtain ⟨l, _, h5⟩ := Option.map_eq_some_iff.mp h
        simp [units] at h5
      · cases h
  | cons s services ih =>
    intro r h1 h2 h3 n h
    cases n with
    | zero => simp [namesAt, units] at h
    | succ n =>
      simp only [namesAt] at h
      split at h
      · rename_i s' q hq
        obtain ⟨l, h4, h5⟩ := Option.map_eq_some_iff.mp h
        simp only [units, List.map_cons, List.cons.injEq] at h5
        obtain ⟨rfl, rfl⟩ := h5
        subst h1
        have hread := readString16_of (r := r) (hs _ (by simp)) h2 h3 hb (string16_end hq) hq
        obtain ⟨r', hr'⟩ := ih (fun s hm => hs s (by simp [hm])) (r := { r with pos := q }) rfl h2
          (by have := string16_end hq; simp only; omega) h4
        refine ⟨r', ?_⟩
        simp only [Lists.strings, hread, Res.bind, hr', Res.map, List.map_cons, Function.comp]
      · cases h

/-- C85, since Android 11: the list consists of the names with which the service manager has replied. -/
theorem C85_listed11 {r : Release} (hr : r = .r11 ∨ r = .r12 ∨ r = .r13) {m : Mem} {peer : List WOp → Option Reader}
    {services : List (List Char)} (hs : ∀ s ∈ services, '\x00' ∉ s) {io : Io} {p : Protocol} {b : Bytes} {offs : List Nat}
    (hb : b.length < 2 ^ 31) (h : peer (Services.listOps 0 (kindOf r)) = some (C33.reader io p b offs))
    (h' : namesReplied b = some (units services)) (n : Nat) :
    Services.list (kindOf r) m peer n = .done (some (services.map utf8Text)) := by
  have key : Lists.aidl3 (some (C33.reader io p b offs)) = .done (services.map (some ∘ utf8Text)) := by
    unfold namesReplied at h'
    split at h'
    case h_2 => cases h'
    rename_i st k q hq
    obtain ⟨v, us, q1, e1, e2, e3⟩ := readAll_cons hq
    obtain ⟨v2, us2, q2, e4, e5, e6⟩ := readAll_cons e3
    obtain ⟨rfl, rfl⟩ := readAll_nil e6
    cases e1
    cases e4
    split at h'
    case isFalse => cases h'
    rename_i hst
    simp only [readAt] at e2 e5
    split at e2
    case isFalse => cases e2
    rename_i l1
    simp only [Option.some.injEq, Prod.mk.injEq] at e2
    obtain ⟨-, rfl⟩ := e2
    split at e5
    case isFalse => cases e5
    rename_i l2
    simp only [Option.some.injEq, Prod.mk.injEq, Val.num.injEq] at e5
    obtain ⟨e5, rfl⟩ := e5
    have w1 : (C33.reader io p b offs).readUInt32 = .ok (num b 0 4) { C33.reader io p b offs with pos := 0 + 4 } := by
      unfold Reader.readUInt32
      rw [readWord_eq (by simp [C33.reader, Reader.init]) (by simp [C33.reader, Reader.init]), if_pos]
      · rfl
      · exact l1
    have w2 : ({ C33.reader io p b offs with pos := 0 + 4 } : Reader).readUInt32 =
        .ok k { C33.reader io p b offs with pos := 0 + 4 + 4 } := by
      unfold Reader.readUInt32
      rw [readWord_eq (by simp [C33.reader, Reader.init]) (by simp [C33.reader, Reader.init]; omega), if_pos, ← e5]
      · rfl
      · exact l2
    obtain ⟨r', hr'⟩ := names_read hb hs (r := { C33.reader io p b offs with pos := 0 + 4 + 4 }) rfl
      (by simp [C33.reader, Reader.init]) (by simp [C33.reader, Reader.init]; omega) h'
    simp only [Lists.aidl3, w1, w2]
    rw [if_neg (by omega), hr']
  have hv : Lists.visible (services.map (some ∘ utf8Text)) = services.map utf8Text := by
    clear h' hs key
    induction services with
    | nil => rfl
    | cons s l ih => simp [Lists.visible, ih]
  rcases hr with rfl | rfl | rfl <;>
  · simp only [Services.list, kindOf] at h ⊢
    rw [h, key]
    simp only [hv]

/-! ### HIDL -/

theorem hw_start {b : Bytes} {io : Io} {offs : List Nat} {m : Mem} {p : Nat}
    (h : enforce syst b .hidl = some (nameOf hwManagerName .hidl, p)) : Parcel.start ⟨io, b, offs, m⟩ = some p := by
  unfold Parcel.start
  rw [h]
  simp [nameOf]

/-- C85, hwservicemanager: add is called with the name and the object given by the caller. -/
theorem C85_hidl_add {e : Env} {q : Qsort} {io : Io} {m : Mem} {name : Bytes} {a : Nat} (ha : a ≠ 0)
    (hn : m.cstr a = some name) (hl : name.length + 1 < 2 ^ 32) {o : LocalRef} (ho : o.addr < 256 ^ word io)
    {rs : List Range} (h : Client.new e q io .hidl m (some (Services.iface .hidl)) = .ok rs) {w w' : Writer}
    (hw : firstRequest io .hidl m rs = .ok w) (hr : WOp.runAll e w (addServiceOps name a o .hidl) = .ok w')
    (small : w'.bytes.length < 2 ^ 32) (sane : w'.mem.Sane (256 ^ word io))
    {dst : Mem} {objs : List KObj} {addr : Nat → Nat} {b' : Bytes} {node : Nat → Nat} {other : Nat → Option Nat}
    (t : Transfer io w'.mem w'.bytes w'.offsets objs addr dst b')
    (t' : References io w'.bytes w'.offsets objs node other b') :
    Parcel.add ⟨io, b', w'.offsets, dst⟩ = some (name, .handle (node o.addr), 0) := by
  rw [iface_hidl] at h
  obtain ⟨g1, g2, g3, g4⟩ := request hwManager_ok h hw
  have hna : ∀ off v, WOp.overwriteInt32 off v ∉ addServiceOps name a o .hidl := by
    intro off v
    simp [addServiceOps]
  have h0 := hw_start (io := io) (offs := w'.offsets) (m := dst) (header_received hwManager_ok g2 hna hr t)
  obtain ⟨w1, e1, hr1⟩ := runAll_split hr
  obtain ⟨w2, e2, hr2⟩ := runAll_split hr1
  cases hr2
  have a1 := C80_hidl_string (e := e) (io := io) (p := .hidl) (m := m) (pre := headerOps .hidl hwManagerName)
    (post := [.localObject (some o)])
    (w0 := w) (w1 := w1) (w' := w') (a := a) (s := name) (addr := addr) (dst := dst) (b' := b')
    ⟨g1, e1, hr1, by
      intro off v hm
      rcases List.mem_append.mp hm with hm | hm
      · exact headerOps_append off v hm
      · simp at hm, by simp, by simp [WOp.parent], small, sane, ⟨objs, t⟩⟩ ha (by rw [g4]; exact hn) hl
  have pre2 := runAll_append (b := [.hidlString a]) g1 (by simp only [WOp.runAll, e1]; rfl)
  have a2 := C19.C19_android e io .hidl m (headerOps .hidl hwManagerName ++ [.hidlString a]) [] w1 w' w' o ho (by simp)
    ⟨pre2, e2, rfl, by
      intro off v hm
      simp only [List.append_nil, List.mem_append, List.mem_singleton, reduceCtorEq, or_false] at hm
      exact headerOps_append off v hm⟩ objs node other b' t'
  have a2' : readBinder io false b' w'.offsets w1.bytes.length = _ := a2
  simp only [Parcel.add, h0, Option.bind_eq_bind, Option.bind_some, a1, a2', t.size]
  simp

/-- C85, hwservicemanager: get is called with what's before the slash and what's after it. -/
theorem C85_hidl_get {e : Env} {q : Qsort} {io : Io} {m : Mem} {fq inst : Bytes} {a b : Nat} (hf : 0x2f ∉ fq) (ha : a ≠ 0)
    (hb : b ≠ 0) (ma : m.cstr a = some fq) (mb : m.cstr b = some inst) (hl : fq.length + 1 < 2 ^ 32)
    (hl' : inst.length + 1 < 2 ^ 32)
    {rs : List Range} (h : Client.new e q io .hidl m (some (Services.iface .hidl)) = .ok rs) {w w' : Writer}
    (hw : firstRequest io .hidl m rs = .ok w) {ops : List WOp}
    (ho : Services.getServiceOps ⟨fq ++ 0x2f :: inst, a, b⟩ .hidl = some ops) (hr : WOp.runAll e w ops = .ok w')
    (small : w'.bytes.length < 2 ^ 32) (sane : w'.mem.Sane (256 ^ word io))
    {dst : Mem} {objs : List KObj} {addr : Nat → Nat} {b' : Bytes}
    (t : Transfer io w'.mem w'.bytes w'.offsets objs addr dst b') :
    Parcel.get ⟨io, b', w'.offsets, dst⟩ = some (fq, inst, 0) := by
  rw [iface_hidl] at h
  obtain ⟨g1, g2, g3, g4⟩ := request hwManager_ok h hw
  have ho' : ops = [.hidlString a, .hidlString b] := by
    simp only [Services.getServiceOps, (C60.split_spec _ fq inst).mpr ⟨rfl, hf⟩, Option.map_some] at ho
    cases ho
    rfl
  subst ho'
  have h0 := hw_start (io := io) (offs := w'.offsets) (m := dst) (header_received hwManager_ok g2 (by simp) hr t)
  obtain ⟨w1, w2, pre2, hr2, a1, a2⟩ := android_two ha hb ma mb hl hl' g1 g4 hr (by simp) (by simp) (by simp) small sane t
  cases hr2
  simp only [Parcel.get, h0, Option.bind_eq_bind, Option.bind_some, a1, a2, t.size]
  simp

/-- C85, hwservicemanager: list is called. -/
theorem C85_hidl_list {e : Env} {q : Qsort} {io : Io} {m : Mem} {i : Nat}
    {rs : List Range} (h : Client.new e q io .hidl m (some (Services.iface .hidl)) = .ok rs) {w w' : Writer}
    (hw : firstRequest io .hidl m rs = .ok w) (hr : WOp.runAll e w (Services.listOps i .hidl) = .ok w')
    {src dst : Mem} {objs : List KObj} {addr : Nat → Nat} {b' : Bytes}
    (t : Transfer io src w'.bytes w'.offsets objs addr dst b') :
    Parcel.list ⟨io, b', w'.offsets, dst⟩ = some 0 := by
  rw [iface_hidl] at h
  obtain ⟨g1, g2, g3, g4⟩ := request hwManager_ok h hw
  have h0 := hw_start (io := io) (offs := w'.offsets) (m := dst)
    (header_received hwManager_ok g2 (by simp [Services.listOps]) hr t)
  cases hr
  simp only [Parcel.list, h0, Option.map_some, t.size]
  simp

/-- C85, hwservicemanager: registerForNotifications is called with the name given by the caller, any instance, and the
object which receives the notifications. -/
theorem C85_hidl_register {e : Env} {q : Qsort} {io : Io} {m : Mem} {name : Bytes} {a b : Nat} (ha : a ≠ 0) (hb : b ≠ 0)
    (ma : m.cstr a = some name) (mb : m.cstr b = some []) (hl : name.length + 1 < 2 ^ 32) {o : LocalRef}
    (ho : o.addr < 256 ^ word io)
    {rs : List Range} (h : Client.new e q io .hidl m (some (Services.iface .hidl)) = .ok rs) {w w' : Writer}
    (hw : firstRequest io .hidl m rs = .ok w) (hr : WOp.runAll e w (Notify.registerOps a b o) = .ok w')
    (small : w'.bytes.length < 2 ^ 32) (sane : w'.mem.Sane (256 ^ word io))
    {dst : Mem} {objs : List KObj} {addr : Nat → Nat} {b' : Bytes} {node : Nat → Nat} {other : Nat → Option Nat}
    (t : Transfer io w'.mem w'.bytes w'.offsets objs addr dst b')
    (t' : References io w'.bytes w'.offsets objs node other b') :
    Parcel.registerForNotifications ⟨io, b', w'.offsets, dst⟩ = some (name, [], .handle (node o.addr), 0) := by
  rw [iface_hidl] at h
  obtain ⟨g1, g2, g3, g4⟩ := request hwManager_ok h hw
  have hna : ∀ off v, WOp.overwriteInt32 off v ∉ Notify.registerOps a b o := by
    intro off v
    simp [Notify.registerOps]
  have h0 := hw_start (io := io) (offs := w'.offsets) (m := dst) (header_received hwManager_ok g2 hna hr t)
  obtain ⟨w1, w2, pre2, hr2, a1, a2⟩ := android_two ha hb ma mb hl (by simp) g1 g4 hr (by simp) (by simp)
    (by simp [WOp.parent]) small sane t
  obtain ⟨w3, e3, hr3⟩ := runAll_split hr2
  cases hr3
  have a3 := C19.C19_android e io .hidl m (headerOps .hidl hwManagerName ++ [.hidlString a, .hidlString b]) [] w2 w' w' o ho
    (by simp) ⟨pre2, e3, rfl, by
      intro off v hm
      simp only [List.append_nil, List.mem_append, List.mem_cons, List.not_mem_nil, reduceCtorEq, or_false] at hm
      exact headerOps_append off v hm⟩ objs node other b' t'
  have a3' : readBinder io false b' w'.offsets w2.bytes.length = _ := a3
  simp only [Parcel.registerForNotifications, h0, Option.bind_eq_bind, Option.bind_some, a1, a2, a3', t.size]
  simp

/-- C85, hwservicemanager: the object which has been found. -/
theorem C85_hidl_found {c : Parcel} {objs : List KObj} (ha : accepts c.io c.data c.offs = some objs) {n : Nat} (hn : n ≠ 0)
    (h : c.got = some (.handle n)) (p : Protocol) :
    Services.getServiceReply .hidl (some (C33.reader c.io p c.data c.offs)) = .ok (some n) := by
  unfold Parcel.got at h
  split at h
  case isFalse => cases h
  obtain ⟨⟨y, s, k⟩, h1, h2⟩ := Option.map_eq_some_iff.mp h
  simp only at h2
  subst h2
  obtain ⟨c1, c2, c3⟩ := (binder_inv h1).1 n rfl
  exact (C60.C60_answer _ _ _ _ _ _).mpr ⟨head_of ha (place_lt .hidl _) (c2 hn), c1, c3⟩

/-- C85, hwservicemanager: there's none. -/
theorem C85_hidl_missing {c : Parcel} (h : c.got = some .null) (p : Protocol) (n : Nat) :
    Services.getServiceReply .hidl (some (C33.reader c.io p c.data c.offs)) ≠ .ok (some n) := by
  unfold Parcel.got at h
  split at h
  case isFalse => cases h
  obtain ⟨⟨y, s, k⟩, h1, h2⟩ := Option.map_eq_some_iff.mp h
  simp only at h2
  subst h2
  intro hc
  obtain ⟨_, c2, _⟩ := (C60.C60_answer _ _ _ _ _ _).mp hc
  exact (binder_inv h1).2 (by simp) c2

/-- C85, hwservicemanager: the list consists of the names with which it has replied. -/
theorem C85_hidl_listed {c : Parcel} (hc : c.Delivered) {peer : List WOp → Option Reader} {p : Protocol} {l : List Bytes}
    (hl : ∀ s ∈ l, (0 : Byte) ∉ s ∧ s.length + 1 < 2 ^ 32)
    (h : peer (Services.listOps 0 .hidl) = some (C33.reader c.io p c.data c.offs)) (h' : c.listed = some l) (n : Nat) :
    Services.list .hidl c.mem peer n = .done (some l) := by
  unfold Parcel.listed at h'
  split at h'
  case isFalse => cases h'
  rename_i h4
  obtain ⟨⟨l', q⟩, h1, h2⟩ := Option.map_eq_some_iff.mp h'
  simp only at h2
  subst h2
  have hm : 4 ∈ c.offs := by
    simp only [Parcel.readStringVec, Parcel.readBuffer, Parcel.buffer] at h1
    by_cases hm : 4 ∈ c.offs
    · exact hm
    · rw [if_neg hm] at h1
      cases h1
  obtain ⟨objs, ho⟩ := hc.objects
  have hh := head_of ho (p := 4) (by cases c.io <;> decide) hm
  obtain ⟨j, hj⟩ := C80_hidl_strings_received hc h1 (i := 0) (by rw [← List.head?_eq_getElem?]; exact hh) hl p
  have w1 : (C33.reader c.io p c.data c.offs).readUInt32 =
      .ok (num c.data 0 4) (Reader.since c.io p c.data c.offs 4 0) := by
    unfold Reader.readUInt32
    rw [readWord_eq (by simp [C33.reader, Reader.init]) (by simp [C33.reader, Reader.init]), if_pos]
    · rfl
    · exact (by omega : 0 + 4 ≤ c.data.length)
  simp only [Services.list, h, Lists.hidl, w1, hj]

/-- The object after a string. -/
theorem string_next {c : Parcel} (hc : c.Delivered) {p q i : Nat} {s : Bytes} (h : c.readString p = some (s, q))
    (hi : c.offs[i]? = some p) (h0 : (0 : Byte) ∉ s) (hl : s.length + 1 < 2 ^ 32) {x : Bytes × Nat}
    (hq : c.readString q = some x) : c.offs[i + 2]? = some q := by
  unfold Parcel.readString at h hq
  obtain ⟨d, hd, h⟩ := bind_some h
  obtain ⟨hd1, hd2, hd3⟩ := readBuffer_inv hd
  obtain ⟨_, ha, _, hnext⟩ := buffer_inv hc hd1 hi .hidl
  obtain ⟨n, hn, h'⟩ := bind_some h
  obtain ⟨b, hb, h'⟩ := bind_some h'
  obtain ⟨o, _, _, hq'⟩ := embeddedString_inv hc h (hnext b (readEmbedded_inv hb).1) h0 hl .hidl
  obtain ⟨d', hd', _⟩ := bind_some hq
  exact hq' d' (readBuffer_inv hd').1

/-- A byte and the zeros after it. -/
theorem bool_read {b : Bytes} {p n : Nat} {v : Bool} (h : hwBool b p = some (v, n)) :
    p + 4 ≤ b.length ∧ n = p + 4 ∧ v = decide (num b p 4 ≠ 0) := by
  unfold hwBool at h
  split at h
  case isFalse => cases h
  rename_i hc
  simp only [Option.some.injEq, Prod.mk.injEq] at h
  refine ⟨hc.1, h.2.symm, ?_⟩
  rw [← h.1]
  have hz := hc.2
  have e1 : num b p 4 = num b p 1 + 256 * num b (p + 1) 3 := by simp [num]
  rw [e1, hz]
  simp

/-- C85, hwservicemanager: it has accepted the callback if that's what it has replied. -/
theorem C85_hidl_registered {c : Parcel} {p : Protocol} {v : Bool} (h : c.registered = some v) :
    Notify.accepted 0 (C33.reader c.io p c.data c.offs) = .ok v := by
  unfold Parcel.registered at h
  split at h
  case isFalse => cases h
  rename_i h4
  obtain ⟨⟨v', n⟩, h1, h2⟩ := Option.map_eq_some_iff.mp h
  simp only at h2
  subst h2
  obtain ⟨b1, b2, b3⟩ := bool_read h1
  have w1 : (C33.reader c.io p c.data c.offs).readUInt32 = .ok 0 (Reader.since c.io p c.data c.offs 4 0) := by
    unfold Reader.readUInt32
    rw [readWord_eq (by simp [C33.reader, Reader.init]) (by simp [C33.reader, Reader.init]), if_pos]
    · rw [show (C33.reader c.io p c.data c.offs).pos = 0 from rfl,
        show (C33.reader c.io p c.data c.offs).buf = c.data from rfl, h4.2]
      rfl
    · exact (by omega : 0 + 4 ≤ c.data.length)
  have w2 : (Reader.since c.io p c.data c.offs 4 0).readBool = .ok v' (Reader.since c.io p c.data c.offs 8 0) := by
    unfold Reader.readBool Reader.readUInt32
    rw [readWord_eq (by simp [Reader.since, Reader.init]) (by simp [Reader.since, Reader.init]; omega), if_pos]
    · rw [b3]; rfl
    · exact (by omega : 4 + 4 ≤ c.data.length)
  simp [Notify.accepted, w1, w2]

theorem notification_eq : hwNotificationName = Notify.iface := by decide +kernel

/-- C85, hwservicemanager: when it tells that a service has been registered, that's what is reported. -/
theorem C85_hidl_told {c : Parcel} (hc : c.Delivered) {fq inst : Bytes} {pre : Bool}
    (h : c.onRegistration = some (fq, inst, pre, 0)) (h0 : (0 : Byte) ∉ fq ∧ (0 : Byte) ∉ inst)
    (hl : fq.length + 1 < 2 ^ 32 ∧ inst.length + 1 < 2 ^ 32) (hb : c.data.length < 2 ^ 31) :
    ∃ rq, RemoteReq.setData c.io .hidl 1 c.data c.offs = .ok rq ∧
      Notify.notification c.mem rq 1 = .ok (0, some (fq ++ [0x2f] ++ inst)) := by
  unfold Parcel.onRegistration at h
  split at h
  case h_2 => cases h
  rename_i s p he
  split at h
  case isFalse => cases h
  rename_i hs
  obtain ⟨hs, hh⟩ := hs
  obtain ⟨⟨f, p1⟩, r1, h⟩ := bind_some h
  obtain ⟨⟨g, p2⟩, r2, h⟩ := bind_some h
  obtain ⟨⟨v, p3⟩, r3, h⟩ := bind_some h
  simp only [Option.some.injEq, Prod.mk.injEq] at h
  obtain ⟨rfl, rfl, rfl, hz⟩ := h
  obtain ⟨b1, rfl, b3⟩ := bool_read r3
  rw [List.head?_eq_getElem?] at hh
  have k1 := C80_hidl_string_received hc r1 hh h0.1 hl.1 .hidl
  have k2 := C80_hidl_string_received hc r2 (string_next hc r1 hh h0.1 hl.1 r2) h0.2 hl.2 .hidl
  have hp : p ≤ c.data.length := by
    unfold Parcel.readString at r1
    obtain ⟨d, hd, _⟩ := bind_some r1
    have hd := (readBuffer_inv hd).1
    unfold Parcel.buffer at hd
    split at hd
    case isFalse => cases hd
    split at hd
    case h_2 => cases hd
    rename_i hg
    unfold getObject at hg
    simp only at hg
    split at hg
    · cases hg
    · have : ¬ ¬ (p + 4 ≤ c.data.length) := by assumption
      omega
  subst hs
  obtain ⟨rq, i1, i2, i3, i4⟩ := C80_header_received c.io .hidl syst 1 hwNotificationName (by decide +kernel) (.inl rfl)
    c.data c.offs p hb he hp
  refine ⟨rq, i1, ?_⟩
  have hi : rq.initReader = (Reader.since c.io .hidl c.data c.offs p 0).startAt p := by
    have hq : rq.io = c.io ∧ rq.protocol = .hidl ∧ rq.data = c.data ∧ rq.objects = c.offs := by
      unfold RemoteReq.setData at i1
      split at i1 <;> cases i1 <;> exact ⟨rfl, rfl, rfl, rfl⟩
    obtain ⟨q1, q2, q3, q4⟩ := hq
    have q5 : rq.headerSize = p := i3
    simp only [RemoteReq.initReader, RemoteReq.reader, q1, q2, q3, q4, q5, Reader.init, Reader.since, Reader.startAt]
    simp
    omega
  have k3 : (Reader.since c.io .hidl c.data c.offs p2 4).readBool =
      .ok v (Reader.since c.io .hidl c.data c.offs (p2 + 4) 4) := by
    unfold Reader.readBool Reader.readUInt32
    rw [readWord_eq (by simp [Reader.since, Reader.init]) (by simp [Reader.since, Reader.init]; omega), if_pos]
    · rw [b3]; rfl
    · exact b1
  unfold Notify.notification
  rw [if_pos (by rw [i2, notification_eq]), if_pos (by rfl), hi]
  unfold Notify.handleRegistration
  rw [Reader.readHidlString_startAt, Reader.startAt_ok k1]
  simp only
  rw [Reader.readHidlString_startAt, Reader.startAt_ok k2]
  simp only [Notify.registered]
  rw [Notify.readBool_startAt, Reader.startAt_ok k3]
  have hend : ((Reader.since c.io .hidl c.data c.offs (p2 + 4) 4).startAt p).atEnd = true := by
    simp [Reader.atEnd, Reader.startAt, Reader.since, Reader.init]
    omega
  simp [hend, Except.map]

/-! ### Concrete cases -/

/-- A request to the service manager, with what's written by `ops`, reaches it. -/
def check (io : Io) (p : Protocol) (m : Mem) (k : Kind) (ops : List WOp) : Bool :=
  match Client.new Demo.env C45.qsort io p m (some (Services.iface k)) with
  | .error _ => false
  | .ok rs => match firstRequest io p m rs with
    | .error _ => false
    | .ok w => match WOp.runAll Demo.env w ops with
      | .error _ => false
      | .ok w' => decide (w'.bytes.length < 2 ^ 32) && decide (w'.mem.Sane (256 ^ word io)) && w'.io == io && demoBoth w'

theorem check_sound {io : Io} {p : Protocol} {m : Mem} {k : Kind} {ops : List WOp} (h : check io p m k ops = true) :
    ∃ rs w w' dst b', Client.new Demo.env C45.qsort io p m (some (Services.iface k)) = .ok rs ∧
      firstRequest io p m rs = .ok w ∧ WOp.runAll Demo.env w ops = .ok w' ∧
      w'.bytes.length < 2 ^ 32 ∧ w'.mem.Sane (256 ^ word io) ∧
      Transfer io w'.mem w'.bytes w'.offsets (demoObjs w') demoAddr dst b' ∧
      References io w'.bytes w'.offsets (demoObjs w') id some b' := by
  unfold check at h
  split at h
  · cases h
  rename_i rs h1
  split at h
  · cases h
  rename_i w h2
  split at h
  · cases h
  rename_i w' h3
  simp only [Bool.and_eq_true, decide_eq_true_eq, beq_iff_eq] at h
  obtain ⟨⟨⟨a1, a2⟩, a3⟩, a4⟩ := h
  obtain ⟨dst, b', b1, b2⟩ := demoBoth_sound a4
  rw [a3] at b1 b2
  exact ⟨rs, w, w', dst, b', h1, h2, h3, a1, a2, b1, b2⟩

/-- Those of `C85_add_partial`, `C85_fails_add12`, `C85_fails_add13`, `C85_get` and `C85_list`. -/
example : ∀ r ∈ [Release.r8, .r9, .r10, .r11, .r12, .r13], ∀ ops ∈ [
      addServiceOps (utf8Text ['s', 'v', 'c']) 0 ⟨0x1000, 12⟩ (kindOf r),
      (Services.getServiceOps ⟨utf8Text ['s', 'v', 'c'], 0, 0⟩ (kindOf r)).getD [],
      Services.listOps 5 (kindOf r)],
    ∃ rs w w' dst b', Client.new Demo.env C45.qsort .io64 r.protocol [] (some (Services.iface (kindOf r))) = .ok rs ∧
      firstRequest .io64 r.protocol [] rs = .ok w ∧ WOp.runAll Demo.env w ops = .ok w' ∧
      w'.bytes.length < 2 ^ 32 ∧ w'.mem.Sane (256 ^ word .io64) ∧
      Transfer .io64 w'.mem w'.bytes w'.offsets (demoObjs w') demoAddr dst b' ∧
      References .io64 w'.bytes w'.offsets (demoObjs w') id some b' := by
  intro r hr ops ho
  have : ∀ r ∈ [Release.r8, .r9, .r10, .r11, .r12, .r13], ∀ ops ∈ [
      addServiceOps (utf8Text ['s', 'v', 'c']) 0 ⟨0x1000, 12⟩ (kindOf r),
      (Services.getServiceOps ⟨utf8Text ['s', 'v', 'c'], 0, 0⟩ (kindOf r)).getD [],
      Services.listOps 5 (kindOf r)], check .io64 r.protocol [] (kindOf r) ops = true := by decide +kernel
  exact check_sound (this r hr ops ho)

/-- Those of `C85_hidl_add`, `C85_hidl_get`, `C85_hidl_list` and `C85_hidl_register`. -/
example : Demo.mem.cstr 16 = some [0x61, 0x62] ∧ Demo.mem.cstr 18 = some [] ∧
    (∀ ops ∈ [addServiceOps [0x61, 0x62] 16 ⟨0x1000, 12⟩ .hidl, Services.listOps 5 .hidl, Notify.registerOps 16 18 ⟨0x1000, 12⟩],
      check .io64 .hidl Demo.mem .hidl ops = true ∧ check .io32 .hidl Demo.mem .hidl ops = true) ∧
    C60.hidlMem.cstr 64 = some [0x61, 0x40, 0x31, 0x3a, 0x3a, 0x49, 0x41] ∧ C60.hidlMem.cstr 24 = some [0x62] ∧
    (Services.getServiceOps ⟨[0x61, 0x40, 0x31, 0x3a, 0x3a, 0x49, 0x41, 0x2f, 0x62], 64, 24⟩ .hidl).any
      (fun ops => check .io64 .hidl C60.hidlMem .hidl ops) = true := by
  decide +kernel

/-- Those of `C85_found` and `C85_missing`. -/
example : ∀ r ∈ [Release.r8, .r9, .r10, .r11, .r12, .r13], ∀ io ∈ [Io.io32, .io64],
    let b := List.replicate (C60.place (kindOf r)) 0 ++ leBytes 4 tHandle ++ leBytes 4 0 ++ leBytes (word io) 7 ++
      leBytes (word io) 0 ++ (if r = .r12 then [1, 0, 0, 12] else [12, 0, 0, 0])
    (accepts io b [C60.place (kindOf r)]).isSome = true ∧ r.found io b [C60.place (kindOf r)] = some (.handle 7) ∧
    let z := List.replicate (C60.place (kindOf r)) 0 ++ leBytes 4 tBinder ++ leBytes 4 0 ++ leBytes (word io) 0 ++
      leBytes (word io) 0 ++ (if r = .r12 then [1, 0, 0, 0] else [0, 0, 0, 0])
    r.found io z [] = some .null := by
  decide +kernel

/-- Those of `C85_listed`, `C85_listed11`, `C85_hidl_found` and `C85_hidl_missing`. -/
example : nameReplied [2, 0, 0, 0, 0x61, 0, 0x62, 0, 0, 0, 0, 0] = some (['a', 'b'].flatMap utf16) ∧
    namesReplied [0, 0, 0, 0, 2, 0, 0, 0, 2, 0, 0, 0, 0x61, 0, 0x62, 0, 0, 0, 0, 0, 1, 0, 0, 0, 0x63, 0, 0, 0] =
      some (units [['a', 'b'], ['c']]) ∧
    Parcel.got ⟨.io32, [0, 0, 0, 0] ++ leBytes 4 tHandle ++ leBytes 4 0 ++ leBytes 8 7, [4], []⟩ = some (.handle 7) ∧
    (accepts .io32 ([0, 0, 0, 0] ++ leBytes 4 tHandle ++ leBytes 4 0 ++ leBytes 8 7) [4]).isSome = true ∧
    Parcel.got ⟨.io32, [0, 0, 0, 0] ++ leBytes 4 tBinder ++ leBytes 4 0 ++ leBytes 8 0, [4], []⟩ = some .null := by
  decide +kernel

/-- The list has "hi" in it. -/
def demoList : Parcel where
  io := .io64
  data := [0, 0, 0, 0] ++ [0x85, 0x2a, 0x74, 0x70, 0, 0, 0, 0] ++ leBytes 8 0x1000 ++ leBytes 8 16 ++ leBytes 8 0 ++ leBytes 8 0 ++
    [0x85, 0x2a, 0x74, 0x70, 1, 0, 0, 0] ++ leBytes 8 0x2000 ++ leBytes 8 16 ++ leBytes 8 0 ++ leBytes 8 0 ++
    [0x85, 0x2a, 0x74, 0x70, 1, 0, 0, 0] ++ leBytes 8 0x3000 ++ leBytes 8 3 ++ leBytes 8 1 ++ leBytes 8 0
  offs := [4, 44, 84]
  mem := [(0x1000, leBytes 8 0x2000 ++ [1, 0, 0, 0, 0, 0, 0, 0]), (0x2000, leBytes 8 0x3000 ++ [2, 0, 0, 0, 0, 0, 0, 0]),
    (0x3000, [0x68, 0x69, 0])]

/-- Those of `C85_hidl_listed`. -/
example : demoList.Delivered ∧ demoList.listed = some [[0x68, 0x69]] := by
  refine ⟨⟨Option.isSome_iff_exists.mp (by decide +kernel), by decide +kernel, ?_⟩, by decide +kernel⟩
  have : ∀ o ∈ demoList.offs, ∃ a len par n, getObject demoList.io demoList.data o = some (.buffer a len par, n) ∧ a ≠ 0 := by
    intro o ho
    simp only [demoList, List.mem_cons, List.not_mem_nil, or_false] at ho
    rcases ho with rfl | rfl | rfl
    · exact ⟨0x1000, 16, none, 40, by decide +kernel⟩
    · exact ⟨0x2000, 16, some (0, 0), 40, by decide +kernel⟩
    · exact ⟨0x3000, 3, some (1, 0), 40, by decide +kernel⟩
  intro o ho a len par n hg
  obtain ⟨a', len', par', n', hg', h⟩ := this o ho
  rw [hg] at hg'
  cases hg'
  exact h

/-- hwservicemanager tells that "ab/c" has been there already. -/
def demoTold : Parcel where
  io := .io64
  data := utf8Text hwNotificationName ++ [0, 0] ++
    [0x85, 0x2a, 0x74, 0x70, 0, 0, 0, 0] ++ leBytes 8 0x1000 ++ leBytes 8 16 ++ leBytes 8 0 ++ leBytes 8 0 ++
    [0x85, 0x2a, 0x74, 0x70, 1, 0, 0, 0] ++ leBytes 8 0x2000 ++ leBytes 8 3 ++ leBytes 8 0 ++ leBytes 8 0 ++
    [0x85, 0x2a, 0x74, 0x70, 0, 0, 0, 0] ++ leBytes 8 0x3000 ++ leBytes 8 16 ++ leBytes 8 0 ++ leBytes 8 0 ++
    [0x85, 0x2a, 0x74, 0x70, 1, 0, 0, 0] ++ leBytes 8 0x4000 ++ leBytes 8 2 ++ leBytes 8 2 ++ leBytes 8 0 ++ [1, 0, 0, 0]
  offs := [48, 88, 128, 168]
  mem := [(0x1000, leBytes 8 0x2000 ++ [2, 0, 0, 0, 0, 0, 0, 0]), (0x2000, [0x61, 0x62, 0]),
    (0x3000, leBytes 8 0x4000 ++ [1, 0, 0, 0, 0, 0, 0, 0]), (0x4000, [0x63, 0])]

/-- Those of `C85_hidl_told`. -/
example : demoTold.Delivered ∧ demoTold.onRegistration = some ([0x61, 0x62], [0x63], true, 0) ∧
    demoTold.data.length < 2 ^ 31 := by
  refine ⟨⟨Option.isSome_iff_exists.mp (by decide +kernel), by decide +kernel, ?_⟩, by decide +kernel, by decide +kernel⟩
  have : ∀ o ∈ demoTold.offs, ∃ a len par n, getObject demoTold.io demoTold.data o = some (.buffer a len par, n) ∧ a ≠ 0 := by
    intro o ho
    simp only [demoTold, List.mem_cons, List.not_mem_nil, or_false] at ho
    rcases ho with rfl | rfl | rfl | rfl
    · exact ⟨0x1000, 16, none, 40, by decide +kernel⟩
    · exact ⟨0x2000, 3, some (0, 0), 40, by decide +kernel⟩
    · exact ⟨0x3000, 16, none, 40, by decide +kernel⟩
    · exact ⟨0x4000, 2, some (2, 0), 40, by decide +kernel⟩
  intro o ho a len par n hg
  obtain ⟨a', len', par', n', hg', h⟩ := this o ho
  rw [hg] at hg'
  cases hg'
  exact h

/-- Those of `C85_hidl_registered`. -/
example : (⟨.io64, [0, 0, 0, 0, 1, 0, 0, 0], [], []⟩ : Parcel).registered = some true ∧
    (⟨.io64, [0, 0, 0, 0, 0, 0, 0, 0], [], []⟩ : Parcel).registered = some false := by decide +kernel

end Gb.C85
