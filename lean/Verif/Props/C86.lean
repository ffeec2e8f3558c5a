import Verif.Spec.AndroidQuestions
import Verif.Lemmas.AndroidServices
import Verif.Props.C33
/-
C86. What Android asks about an object is answered, and it's the right answer.
-/
set_option autoImplicit false

namespace Gb.C86
open Dispatch Kernel Android C80 C33

theorem base_eq : baseName = base := by decide +kernel

/-- The reply of the object to the question, and nobody else has been asked. -/
def Answers (e : Env) (m : Mem) (o : Target) (io : Io) (p : Protocol) (code : Nat) (b : Bytes) (offs : List Nat)
    (w : Writer) : Prop :=
  ∀ o' run user flags, transaction e m (some o) o' run io p user code flags b offs = .ok (some w, 0, [])

theorem answers_nil {e : Env} {m : Mem} {o : Target} {io : Io} {p : Protocol} {code : Nat} {w : Writer} {offs : List Nat}
    (h : ∀ o' run user flags, dispatch e m (some o) o' run user none code flags = .ok (some w, 0, [])) :
    Answers e m o io p code [] offs w := by
  intro o' run user flags
  rw [transaction_nil]
  exact h o' run user flags

theorem answers_base {e : Env} {m : Mem} {o : Target} {io : Io} {code : Nat} {b : Bytes} {offs : List Nat} {w : Writer}
    {n : Nat} (hb : b.length < 2 ^ 31) (hq : enforce syst b .hidl = some (nameOf baseName .hidl, n)) (hn : n ≤ b.length)
    (h : ∀ o' run user flags, dispatch e m (some o) o' run user (some (utf8Text base)) code flags = .ok (some w, 0, [])) :
    Answers e m o io .hidl code b offs w := by
  intro o' run user flags
  obtain ⟨q, h1, h2, _⟩ := C80_header_received io .hidl syst code baseName (by decide +kernel) (.inl rfl) b offs n hb hq hn
  unfold transaction
  rw [if_neg]
  · simp only [h1, bind, Except.bind, h2, base_eq]
    exact h o' run user flags
  · rintro rfl
    simp [enforce, readAll, readAt] at hq

/-- C86: BpBinder::pingBinder succeeds. -/
theorem C86_ping (e : Env) (m : Mem) (o : Target) (io : Io) (p : Protocol) (offs : List Nat) :
    ∃ w, Answers e m o io p pingCode [] offs w := by
  obtain ⟨w, h1, -⟩ := C33_ping e m o none 0x5f504e47 (.inl rfl)
  exact ⟨w, answers_nil h1⟩

/-- C86: BpBinder::getInterfaceDescriptor returns the first interface of the object. -/
theorem C86_descriptor (e : Env) (m : Mem) (o : Target) (io : Io) (p : Protocol) (offs : List Nat) (names : List (List Char))
    (s : List Char) (hh : Holds m o.ifaces (names.map utf8Text)) (hn : names.head? = some s) (hs : C18.NameOk s) :
    ∃ w, Answers e m o io p interfaceCode [] offs w ∧
      ∀ addr dst b', Received o.io w addr dst b' → interfaceOf b' = some (s.flatMap utf16, 0) := by
  obtain ⟨w, h1, -⟩ := C33_interface e m o none names s hh hn hs
  refine ⟨w, answers_nil h1, ?_⟩
  intro addr dst b' h
  obtain ⟨objs, t⟩ := h.transfer
  have hw : putAll e (createReply m o) [.plain (.string16 (some s))] = .ok w := by
    have hd := h1 o true (fun _ _ => (none, 0)) 0
    obtain ⟨c1, c2, c3, c4, c5⟩ := codes
    have hl : handleLooper e m o 0x5f4e5446 = interface e m o := by
      unfold handleLooper
      simp only [c1, c2, c3]
      simp
    obtain ⟨a, as, hi, hcs⟩ : ∃ a as, o.ifaces = a :: as ∧ m.cstr a = some (utf8Text s) := by
      have h1 := hh.strings
      cases names with
      | nil => cases hn
      | cons x xs =>
        cases hn
        cases hif : o.ifaces with
        | nil => rw [hif] at h1; simp at h1
        | cons a as =>
          rw [hif] at h1
          simp only [List.map_cons, List.cons.injEq] at h1
          exact ⟨a, as, rfl, h1.1⟩
    unfold dispatch at hd
    simp only [canHandle_builtin (o := o) (iface := none) (code := 0x5f4e5446) (.inr (.inl rfl)), hl,
      interface, hi, hcs] at hd
    simp only [putAll, Item.put, C01.Value.write, Option.map_some]
    cases hx : (createReply m o).appendString16 e (some (utf8Text s)) with
    | error k => rw [hx] at hd; cases hd
    | ok w2 => rw [hx] at hd; cases hd; rfl
  have := C85.items_received (e := e) (io := o.io) (p := o.proto) (m := m) (pre := []) (post := [])
    (xs := [.plain (.string16 (some s))]) (w0 := createReply m o) (w1 := w) (w' := w)
    (by intro x hx; simp at hx; subst hx; exact hs) rfl hw rfl (by simp) t
  obtain ⟨v, us, q, e1, e2, e3⟩ := readAll_cons this
  obtain ⟨-, e4⟩ := readAll_nil e3
  simp only [List.map_cons, List.map_nil, List.cons.injEq, Item.val, Item.ty, Option.map_some] at e1 e2
  obtain ⟨e1, -⟩ := e1
  subst e1 e4
  have hz : (createReply m o).bytes.length = 0 := rfl
  rw [hz] at e2
  simp only [interfaceOf, e2, t.size, Nat.sub_self]

theorem status_of {e : Env} {m : Mem} {o : Target} {ops : List WOp} {w : Writer} {addr : Nat → Nat} {dst : Mem}
    {b' : Bytes} (hop : ∀ off v, WOp.overwriteInt32 off v ∉ ops)
    (hw : WOp.runAll e { createReply m o with bytes := [0, 0, 0, 0] } ops = .ok w)
    (h : Received o.io w addr dst b') : Parcel.success ⟨o.io, b', w.offsets, dst⟩ = some 4 := by
  obtain ⟨objs, t⟩ := h.transfer
  have hp : putAll e (createReply m o) [.plain (.int32 0)] = .ok { createReply m o with bytes := [0, 0, 0, 0] } := by
    have := int32_ok e (createReply m o)
    simp only [putAll, Item.put, C01.Value.write, bind, Except.bind]
    rw [this]
    rfl
  have := C85.items_received (e := e) (io := o.io) (p := o.proto) (m := m) (pre := []) (post := ops)
    (xs := [.plain (.int32 0)]) (w0 := createReply m o) (w' := w)
    (by intro x hx; simp at hx; subst hx; trivial) rfl hp hw (by simpa using hop) t
  obtain ⟨v, us, q, e1, e2, e3⟩ := readAll_cons this
  obtain ⟨-, e4⟩ := readAll_nil e3
  simp only [List.map_cons, List.map_nil, List.cons.injEq, Item.val, Item.ty] at e1 e2
  obtain ⟨e1, -⟩ := e1
  subst e1
  have hz : (createReply m o).bytes.length = 0 := rfl
  rw [hz] at e2
  simp only [Parcel.success, e2]
  rw [← e4]
  rfl

/-- C86, the other way round: when gbinder_ipc_ping_sync asks an object of Android, it's the transaction which Android
knows as a ping. BBinder::transact doesn't look at the data; BnHwBase::_hidl_ping wants the header of IBase. There's nothing
after that. -/
theorem C86_ping_sent (e : Env) (m : Mem) (io : Io) (p : Protocol) :
    ∃ w, writePing e { io := io, protocol := p, mem := m } p = .ok w ∧
      protoPing p = (if p = .hidl then hidlPingCode else pingCode) ∧
      ∀ src dst objs addr b', Transfer io src w.bytes w.offsets objs addr dst b' →
        if p = .hidl then enforce syst b' .hidl = some (nameOf baseName .hidl, b'.length) else b' = [] := by
  obtain ⟨c1, c2, c3, c4, c5⟩ := codes
  by_cases hp : p = .hidl
  · subst hp
    have hn : C18.NameOk base := by unfold C18.NameOk; decide +kernel
    have hwh := C18.write_header (e := e) (w := { io := io, protocol := .hidl, mem := m }) (p := .hidl) hn
    refine ⟨{ ({ io := io, protocol := .hidl, mem := m } : Writer) with
      bytes := [] ++ (C18.headerValues .hidl base).flatMap C01.Value.enc }, ?_, ?_, ?_⟩
    · unfold writePing
      rw [show ("android.hidl.base@1.0::IBase".toUTF8.data.toList : Bytes) = utf8Text base from hidlBase_eq]
      exact hwh
    · simp only [protoPing, c3, hidlPingCode]
      simp
    · intro src dst objs addr b' t
      rw [if_pos rfl]
      obtain ⟨w0, hw0, _⟩ := C18.C18_header e io .hidl m base hn
      have hb : w0 = { ({ io := io, protocol := .hidl, mem := m } : Writer) with
          bytes := [] ++ (C18.headerValues .hidl base).flatMap C01.Value.enc } := by
        have := hw0
        simp only [clientNewRequest, rangeHeader, newRequestIface, newRequest, Option.getD_none,
          C18.write_header hn, bind, Except.bind, Except.map] at this
        cases this
        rfl
      have := C85.header_received (ops := []) hn hw0 (by simp) rfl (by rw [hb]; exact t)
      rw [this, t.size, hb]
      rfl
  · refine ⟨{ io := io, protocol := p, mem := m }, ?_, ?_, ?_⟩
    · unfold writePing
      cases p <;> first | rfl | exact absurd rfl hp
    · rw [if_neg hp]
      cases p <;> first | exact c1 | exact absurd rfl hp
    · intro src dst objs addr b' t
      rw [if_neg hp]
      have := t.size
      simpa using this

/-- C86: BpHwBase::ping succeeds. -/
theorem C86_hidl_ping (e : Env) (m : Mem) (o : Target) (io : Io) {b : Bytes} {offs : List Nat} {n : Nat}
    (hb : b.length < 2 ^ 31) (hq : enforce syst b .hidl = some (nameOf baseName .hidl, n)) (hn : n ≤ b.length) :
    ∃ w, Answers e m o io .hidl hidlPingCode b offs w ∧
      ∀ addr dst b', Received o.io w addr dst b' → Parcel.ping ⟨o.io, b', w.offsets, dst⟩ = some 0 := by
  obtain ⟨w, h1, -⟩ := C33_ping e m o (some (utf8Text base)) 0x0f504e47 (.inr ⟨rfl, rfl⟩)
  refine ⟨w, answers_base hb hq hn h1, ?_⟩
  intro addr dst b' h
  have hw : w = { createReply m o with bytes := [0, 0, 0, 0] } := by
    have hd := h1 o true (fun _ _ => (none, 0)) 0
    obtain ⟨c1, c2, c3, c4, c5⟩ := codes
    have hl : handleLooper e m o 0x0f504e47 = Dispatch.ping e m o := by
      unfold handleLooper
      simp only [c1, c2, c3]
      simp
    unfold dispatch at hd
    simp only [canHandle_builtin (o := o) (iface := some (utf8Text base)) (code := 0x0f504e47) (.inr (.inr ⟨rfl, .inl rfl⟩)), hl,
      Dispatch.ping, int32_ok] at hd
    cases hd
    rfl
  have hs := status_of (e := e) (m := m) (o := o) (ops := []) (by simp) (by rw [hw]; rfl) h
  obtain ⟨objs, t⟩ := h.transfer
  simp only [Parcel.ping, hs, Option.map_some, t.size]
  rw [hw]
  rfl

/-- C86: BpHwBase::interfaceDescriptor returns the first interface of the object. -/
theorem C86_hidl_descriptor (e : Env) (m : Mem) (o : Target) (io : Io) {b : Bytes} {offs : List Nat} {n : Nat}
    (hb : b.length < 2 ^ 31) (hq : enforce syst b .hidl = some (nameOf baseName .hidl, n)) (hn : n ≤ b.length)
    (names : List Bytes) (s : Bytes) (hh : Holds m o.ifaces names) (hs : names.head? = some s) (hl : s.length + 1 < 2 ^ 32) :
    ∃ w, Answers e m o io .hidl hidlDescriptorCode b offs w ∧
      ∀ addr dst b', Received o.io w addr dst b' →
        Parcel.interfaceDescriptor ⟨o.io, b', w.offsets, dst⟩ = some (s, 0) := by
  obtain ⟨w, h1, -⟩ := C33_descriptor e m o names s hh hs hl
  refine ⟨w, answers_base hb hq hn h1, ?_⟩
  intro addr dst b' h
  obtain ⟨a, as, hi, hcs, ha⟩ : ∃ a as, o.ifaces = a :: as ∧ m.cstr a = some s ∧ a ≠ 0 := by
    have h1 := hh.strings
    have h0 := hh.nonnull
    cases names with
    | nil => cases hs
    | cons x xs =>
      cases hs
      cases hif : o.ifaces with
      | nil => rw [hif] at h1; simp at h1
      | cons a as =>
        rw [hif] at h1 h0
        simp only [List.map_cons, List.cons.injEq] at h1
        exact ⟨a, as, rfl, h1.1, by intro hc; subst hc; exact h0 (by simp)⟩
  have hrun : (WOp.hidlString a).run e { createReply m o with bytes := [0, 0, 0, 0] } = .ok w := by
    have hd := h1 o true (fun _ _ => (none, 0)) 0
    obtain ⟨c1, c2, c3, c4, c5⟩ := codes
    have hl : handleLooper e m o 0x0f445343 = hidlDescriptor e m o := by
      unfold handleLooper
      simp only [c1, c2, c3, c4]
      simp
    unfold dispatch at hd
    simp only [canHandle_builtin (o := o) (iface := some (utf8Text base)) (code := 0x0f445343)
      (.inr (.inr ⟨rfl, .inr (.inl rfl)⟩)), hl, hidlDescriptor, hi, int32_ok, bind, Except.bind, List.headD_cons] at hd
    simp only [WOp.run]
    have hx : (createReply m o).bytes ++ [0, 0, 0, 0] = [0, 0, 0, 0] := rfl
    rw [hx] at hd
    cases hy : Writer.appendHidlString e { createReply m o with bytes := [0, 0, 0, 0] } a with
    | error k => rw [hy] at hd; cases hd
    | ok w2 => rw [hy] at hd; cases hd; rfl
  have h2 := status_of (e := e) (m := m) (o := o) (ops := [.hidlString a]) (by simp)
    (by simp only [WOp.runAll, hrun, bind, Except.bind]) h
  have h3 := C80_hidl_string (sent_reply hrun h) ha hcs hl
  obtain ⟨objs, t⟩ := h.transfer
  have h3' : Parcel.readString ⟨o.io, b', w.offsets, dst⟩ 4 = _ := h3
  simp only [Parcel.interfaceDescriptor, h2, Option.bind_eq_bind, Option.bind_some, h3', t.size, Nat.sub_self]

/-- C86: BpHwBase::interfaceChain returns all interfaces of the object. -/
theorem C86_hidl_chain (e : Env) (m : Mem) (o : Target) (io : Io) {b : Bytes} {offs : List Nat} {n : Nat}
    (hb : b.length < 2 ^ 31) (hq : enforce syst b .hidl = some (nameOf baseName .hidl, n)) (hn : n ≤ b.length)
    (names : List Bytes) (hh : Holds m o.ifaces names) (hc : 16 * names.length < 2 ^ 32)
    (hl : ∀ s ∈ names, s.length + 1 < 2 ^ 32) :
    ∃ w, Answers e m o io .hidl hidlChainCode b offs w ∧
      ∀ addr dst b', Received o.io w addr dst b' →
        Parcel.interfaceChain ⟨o.io, b', w.offsets, dst⟩ = some (names, 0) := by
  obtain ⟨w, h1, -⟩ := C33_chain e m o names hh hc hl
  refine ⟨w, answers_base hb hq hn h1, ?_⟩
  intro addr dst b' h
  have hrun : (WOp.hidlStringVec o.ifaces).run e { createReply m o with bytes := [0, 0, 0, 0] } = .ok w := by
    have hd := h1 o true (fun _ _ => (none, 0)) 0
    obtain ⟨c1, c2, c3, c4, c5⟩ := codes
    have hl : handleLooper e m o 0x0f43484e = hidlChain e m o := by
      unfold handleLooper
      simp only [c1, c2, c3, c4, c5]
      simp
    unfold dispatch at hd
    simp only [canHandle_builtin (o := o) (iface := some (utf8Text base)) (code := 0x0f43484e)
      (.inr (.inr ⟨rfl, .inr (.inr rfl)⟩)), hl, hidlChain, int32_ok, bind, Except.bind] at hd
    simp only [WOp.run]
    have hx : (createReply m o).bytes ++ [0, 0, 0, 0] = [0, 0, 0, 0] := rfl
    rw [hx] at hd
    cases hy : Writer.appendHidlStringVec e { createReply m o with bytes := [0, 0, 0, 0] } o.ifaces with
    | error k => rw [hy] at hd; cases hd
    | ok w2 => rw [hy] at hd; cases hd; rfl
  have h2 := status_of (e := e) (m := m) (o := o) (ops := [.hidlStringVec o.ifaces]) (by simp)
    (by simp only [WOp.runAll, hrun, bind, Except.bind]) h
  have h3 := C80_hidl_strings (sent_reply hrun h) hh.nonnull hh.strings hc hl
  obtain ⟨objs, t⟩ := h.transfer
  have h3' : Parcel.readStringVec ⟨o.io, b', w.offsets, dst⟩ 4 = _ := h3
  simp only [Parcel.interfaceChain, h2, Option.bind_eq_bind, Option.bind_some, h3', t.size, Nat.sub_self]

/-- C86: hence, castFrom succeeds for all interfaces which the object was created with, for IBase, and for no other. -/
theorem C86_cast {e : Env} (he : Mallocs e) {m : Mem} (ha : m.Apart) (h0 : ∀ blk ∈ m, blk.1 ≠ 0)
    (ifaces : Option (List Bytes)) (hi : ∀ s ∈ given ifaces, (0 : Byte) ∉ s ∧ s.length + 1 < 2 ^ 32)
    (hc : 16 * ((given ifaces).length + 1) < 2 ^ 32) {b : Bytes} {offs : List Nat} {n : Nat}
    (hb : b.length < 2 ^ 31) (hq : enforce syst b .hidl = some (nameOf baseName .hidl, n)) (hn : n ≤ b.length) :
    ∃ m' addrs, initBase e m ifaces = .ok (m', addrs.map some ++ [some 0]) ∧
      ∀ o : Target, o.ifaces = addrs → ∀ io, ∃ w, Answers e m' o io .hidl hidlChainCode b offs w ∧
        ∀ addr dst b', Received o.io w addr dst b' →
          ∃ l, Parcel.interfaceChain ⟨o.io, b', w.offsets, dst⟩ = some (l, 0) ∧
            ∀ s, s ∈ l ↔ s ∈ given ifaces ∨ s = utf8Text baseName := by
  obtain ⟨m', addrs, l, h1, h2, h3, h4, h5⟩ := C33_room he ha h0 ifaces (fun s hs => (hi s hs).1)
  refine ⟨m', addrs, h1, ?_⟩
  intro o ho io
  have hl : l.length ≤ (given ifaces).length + 1 := by
    rcases h2.exact_ with rfl | ⟨rfl, _⟩ <;> simp
  have hm : ∀ s, s ∈ l ↔ s ∈ given ifaces ∨ s = utf8Text baseName := by
    intro s
    rw [base_eq]
    have hlast := List.mem_of_getLast? h2.last
    rcases h2.exact_ with h | ⟨h, _⟩
    · rw [← h]
      constructor
      · exact .inl
      · rintro (h | rfl)
        · exact h
        · exact hlast
    · rw [h]
      simp
  obtain ⟨w, hw1, hw2⟩ := C86_hidl_chain e m' o io (offs := offs) hb hq hn l (by rw [ho]; exact h5) (by omega) (by
    intro s hs
    rcases (hm s).mp hs with h | rfl
    · exact (hi s h).2
    · decide +kernel)
  exact ⟨w, hw1, fun addr dst b' hr => ⟨l, hw2 addr dst b' hr, hm⟩⟩

/-- The request which Android sends is such a one, and it's the one of any client. -/
example : enforce syst (utf8Text baseName ++ [0, 0, 0, 0]) .hidl = some (nameOf baseName .hidl, 32) ∧
    (utf8Text baseName ++ [0, 0, 0, 0]).length = 32 := by
  decide +kernel

/-- An object the interfaces of which are "ab" and "b", and its replies. -/
example : Holds Demo.mem [16, 17] ([['a', 'b'], ['b']].map utf8Text) ∧ C18.NameOk ['a', 'b'] ∧
    (∃ w0 w1 w' dst b', Sent Demo.env .io64 .hidl Demo.mem [.int32 0] (.hidlString 16) []
      w0 w1 w' demoAddr dst b') ∧
    (∃ w0 w1 w' dst b', Sent Demo.env .io32 .hidl Demo.mem [.int32 0] (.hidlStringVec [16, 17]) []
      w0 w1 w' demoAddr dst b') :=
  ⟨⟨by decide +kernel, by decide⟩, ⟨by decide +kernel, by decide +kernel⟩,
    demoSent_sound (by decide +kernel), demoSent_sound (by decide +kernel)⟩

/-- Those of `C86_cast`. -/
example : Demo.mem.Apart ∧ (∀ blk ∈ Demo.mem, blk.1 ≠ 0) ∧
    (∀ s ∈ given (some [utf8Text ['a']]), (0 : Byte) ∉ s ∧ s.length + 1 < 2 ^ 32) := by
  decide +kernel

/-- The ping which is sent is one the kernel transfers. -/
example : (match writePing Demo.env { io := .io64, protocol := .hidl } .hidl with
    | .ok w => demoTransfer w && w.bytes.length == 32
    | .error _ => false) = true := by decide +kernel

end Gb.C86
