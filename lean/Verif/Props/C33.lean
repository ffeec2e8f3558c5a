import Verif.Model.Dispatch
import Verif.Lemmas.Delivered
import Verif.Props.C01
import Verif.Props.C13
import Verif.Props.C14
import Verif.Props.C18
/-
C33. Who handles a transaction, and what the built-in ones return.
-/
set_option autoImplicit false

namespace Gb.C33
open Dispatch
open Driver (Support EBADMSG EFAULT)

/-- "android.hidl.base@1.0::IBase" -/
def base : List Char := "android.hidl.base@1.0::IBase".toList

/-- What the application has registered: NULL is the same as no interfaces. -/
def given (ifaces : Option (List Bytes)) : List Bytes := ifaces.getD []

/-- The chain `l` is the registered list, with the base interface appended if it isn't there. -/
structure Chain (reg l : List Bytes) : Prop where
  last : l.getLast? = some (utf8Text base)
  exact_ : l = reg ∨ l = reg ++ [utf8Text base] ∧ reg.getLast? ≠ some (utf8Text base)

/-- The strings are where the object says. -/
structure Holds (m : Mem) (addrs : List Nat) (names : List Bytes) : Prop where
  strings : addrs.map m.cstr = names.map some
  nonnull : 0 ∉ addrs

theorem hidlBase_eq : hidlBase = utf8Text base := by decide +kernel

/-! ### The list of interfaces -/

theorem strdup_spec {e : Env} {m : Mem} {s : Bytes} (h0 : (0 : Byte) ∉ s) :
    (strdup e m s).2.cstr (strdup e m s).1 = some s := by
  simp only [strdup, Mem.cstr, List.length_append, List.length_singleton]
  rw [if_pos (by omega)]
  simp only [Nat.sub_self, List.drop_zero]
  rw [if_pos (by simp)]
  rw [List.takeWhile_append_of_pos (by
    intro a ha
    simp only [ne_eq, decide_eq_true_eq]
    intro hc; subst hc; exact h0 ha)]
  simp

theorem cstr_extend {l m : Mem} {a : Nat} {s : Bytes} (hd : Mem.Apart (l ++ m)) (h : m.cstr a = some s) :
    (l ++ m).cstr a = some s := by
  obtain ⟨h0, h1⟩ := cstr_load h
  exact load_cstr hd h0 (load_extend hd (by omega) h1)

theorem set_fill (done : List (Option Nat)) (k x : Nat) :
    (done ++ List.replicate (k + 1) none).set done.length (some x) =
      (done ++ [some x]) ++ List.replicate k none := by
  rw [List.set_append_right _ _ (Nat.le_refl _)]
  simp [List.replicate_succ, List.append_assoc]

theorem put_fill (done : List (Option Nat)) (k x : Nat) :
    put (done ++ List.replicate (k + 1) none) done.length x =
      .ok ((done ++ [some x]) ++ List.replicate k none) := by
  unfold put
  rw [if_pos (by simp), set_fill]

/-- The loop: all strings are copied to the beginning of the array. -/
theorem copyIfaces_spec (e : Env) (l : List Bytes) : ∀ (m : Mem) (done : List (Option Nat)) (k : Nat),
    (∀ s ∈ l, (0 : Byte) ∉ s) →
    ∃ (m' : Mem) (as : List Nat), copyIfaces e l m (done ++ List.replicate (l.length + k) none) done.length =
        .ok (m', (done ++ as.map some) ++ List.replicate k none, done.length + l.length) ∧
      (∃ x, m' = x ++ m) ∧ as.length = l.length ∧
      (m'.Apart → as.map m'.cstr = l.map some) ∧ (∀ a ∈ as, ∃ b, (a, b) ∈ m') := by
  induction l with
  | nil =>
    intro m done k _
    exact ⟨m, [], by simp [copyIfaces], ⟨[], rfl⟩, rfl, fun _ => rfl, by simp⟩
  | cons s l ih =>
    intro m done k h0
    obtain ⟨m', as, h1, ⟨x, hx⟩, h2, h3, h4⟩ := ih (strdup e m s).2 (done ++ [some (strdup e m s).1]) k
      (fun t ht => h0 t (by simp [ht]))
    refine ⟨m', (strdup e m s).1 :: as, ?_, ⟨x ++ [((strdup e m s).1, s ++ [0])], ?_⟩, by simp [h2], ?_, ?_⟩
    · simp only [copyIfaces, List.length_cons]
      rw [show l.length + 1 + k = (l.length + k) + 1 by omega, put_fill]
      simp only [bind, Except.bind]
      simp only [List.length_append, List.length_singleton] at h1
      rw [h1]
      simp [List.append_assoc, Nat.add_assoc, Nat.add_comm 1]
    · rw [hx]; simp [strdup]
    · intro hap
      simp only [List.map_cons]
      rw [h3 hap]
      congr 1
      rw [hx] at hap ⊢
      exact cstr_extend hap (strdup_spec (h0 s (by simp)))
    · intro a ha
      simp only [List.mem_cons] at ha
      rcases ha with rfl | ha
      · exact ⟨s ++ [0], by rw [hx]; simp [strdup]⟩
      · exact h4 a ha

/-- C33, the list: gbinder_local_object_new makes a NULL-terminated array of exactly the right size,
holding the registered interfaces followed by the base interface, unless that's the last one. -/
theorem C33_registered (e : Env) (m : Mem) (ifaces : Option (List Bytes))
    (h0 : ∀ s ∈ given ifaces, (0 : Byte) ∉ s) :
    ∃ (m' : Mem) (addrs : List Nat) (l : List Bytes),
      initBase e m ifaces = .ok (m', addrs.map some ++ [some 0]) ∧ Chain (given ifaces) l ∧
      addrs.length = l.length ∧ (∃ x, m' = x ++ m) ∧ ∀ lim, m'.Sane lim → Holds m' addrs l := by
  unfold initBase given at *
  by_cases hb : (ifaces.getD []).getLast? = some hidlBase
  · simp only [hb, ne_eq, not_true_eq_false, decide_false, Bool.false_eq_true, if_false]
    obtain ⟨m', as, h1, hx, h2, h3, h4⟩ := copyIfaces_spec e (ifaces.getD []) m [] 1 h0
    simp only [List.nil_append, List.length_nil, Nat.zero_add] at h1
    refine ⟨m', as, ifaces.getD [], ?_, ⟨by rw [hb, hidlBase_eq], .inl rfl⟩, h2, hx, ?_⟩
    · rw [h1]
      simp only [bind, Except.bind]
      have := put_fill (as.map some) 0 0
      simp only [Nat.zero_add, List.length_map, List.replicate_zero, List.append_nil, h2] at this
      rw [this]
    · intro lim hs
      refine ⟨h3 hs.apart, ?_⟩
      intro hc
      obtain ⟨b, hb⟩ := h4 0 hc
      exact hs.nonnull _ hb rfl
  · simp only [hb, ne_eq, not_false_eq_true, decide_true, if_true]
    obtain ⟨m', as, h1, ⟨x, hx⟩, h2, h3, h4⟩ := copyIfaces_spec e (ifaces.getD []) m [] 2 h0
    simp only [List.nil_append, List.length_nil, Nat.zero_add] at h1
    refine ⟨(strdup e m' hidlBase).2, as ++ [(strdup e m' hidlBase).1], ifaces.getD [] ++ [hidlBase], ?_,
      ⟨by simp [hidlBase_eq], .inr ⟨by rw [hidlBase_eq], by rw [← hidlBase_eq]; exact hb⟩⟩, by simp [h2],
      ⟨((strdup e m' hidlBase).1, hidlBase ++ [0]) :: x, by rw [← List.cons_append.symm, ← hx]; rfl⟩, ?_⟩
    · rw [h1]
      simp only [bind, Except.bind]
      have hp := put_fill (as.map some) 1 (strdup e m' hidlBase).1
      simp only [List.length_map, h2] at hp
      rw [hp]
      simp only []
      have hq := put_fill (as.map some ++ [some (strdup e m' hidlBase).1]) 0 0
      simp only [List.length_append, List.length_map, List.length_singleton, Nat.zero_add, h2,
        List.replicate_zero, List.append_nil] at hq
      rw [hq]
      simp
    · intro lim hs
      have hap : Mem.Apart ([((strdup e m' hidlBase).1, hidlBase ++ [0])] ++ m') := hs.apart
      have hap' : m'.Apart := (List.pairwise_append.mp hap).2.1
      refine ⟨?_, ?_⟩
      · simp only [List.map_append, List.map_cons, List.map_nil]
        rw [strdup_spec (by decide +kernel)]
        congr 1
        rw [← h3 hap']
        refine List.map_congr_left ?_
        intro a ha
        have : ∃ s, m'.cstr a = some s := by
          have := congrArg (fun l => l.map Option.isSome) (h3 hap')
          simp only [List.map_map] at this
          have hm : (Option.isSome ∘ m'.cstr) a ∈ List.map (Option.isSome ∘ m'.cstr) as :=
            List.mem_map_of_mem ha
          rw [this] at hm
          simp only [List.mem_map, Function.comp, Option.isSome_some] at hm
          obtain ⟨_, _, hm⟩ := hm
          exact Option.isSome_iff_exists.mp hm.symm
        obtain ⟨s, hs'⟩ := this
        rw [hs']
        exact cstr_extend hap hs'
      · intro hc
        have : ∃ b, (0, b) ∈ (strdup e m' hidlBase).2 := by
          rcases List.mem_append.mp hc with hc | hc
          · obtain ⟨b, hb⟩ := h4 0 hc
            exact ⟨b, List.mem_cons_of_mem _ hb⟩
          · simp only [List.mem_cons, List.not_mem_nil, or_false] at hc
            exact ⟨hidlBase ++ [0], by rw [hc]; exact List.mem_cons_self⟩
        obtain ⟨b, hb⟩ := this
        exact hs.nonnull _ hb rfl

/-- malloc: memory which isn't in use. -/
def Mallocs (e : Env) : Prop :=
  ∀ m n, m.Apart → e.alloc m n ≠ 0 ∧ ∀ blk ∈ m, disjoint (e.alloc m n) n blk.1 blk.2.length

theorem strdup_apart {e : Env} (he : Mallocs e) {m : Mem} (s : Bytes) (ha : m.Apart)
    (hn : ∀ blk ∈ m, blk.1 ≠ 0) :
    (strdup e m s).2.Apart ∧ ∀ blk ∈ (strdup e m s).2, blk.1 ≠ 0 := by
  obtain ⟨h1, h2⟩ := he m (s.length + 1) ha
  refine ⟨List.pairwise_cons.2 ⟨fun blk hb => ?_, ha⟩, fun blk hb => ?_⟩
  · have := h2 blk hb
    simpa using this
  · rcases List.mem_cons.1 hb with rfl | hb
    · exact h1
    · exact hn blk hb

theorem copyIfaces_apart {e : Env} (he : Mallocs e) (l : List Bytes) : ∀ {m m' : Mem}
    {arr arr' : List (Option Nat)} {i i' : Nat}, copyIfaces e l m arr i = .ok (m', arr', i') →
    m.Apart → (∀ blk ∈ m, blk.1 ≠ 0) → m'.Apart ∧ ∀ blk ∈ m', blk.1 ≠ 0 := by
  induction l with
  | nil => intro m m' arr arr' i i' h ha hn; cases h; exact ⟨ha, hn⟩
  | cons s l ih =>
    intro m m' arr arr' i i' h ha hn
    simp only [copyIfaces, bind, Except.bind] at h
    split at h
    · cases h
    · obtain ⟨h1, h2⟩ := strdup_apart he s ha hn
      exact ih h h1 h2

theorem initBase_apart {e : Env} (he : Mallocs e) {m m' : Mem} {ifaces : Option (List Bytes)}
    {arr : List (Option Nat)} (h : initBase e m ifaces = .ok (m', arr)) (ha : m.Apart)
    (hn : ∀ blk ∈ m, blk.1 ≠ 0) : m'.Apart ∧ ∀ blk ∈ m', blk.1 ≠ 0 := by
  simp only [initBase, bind, Except.bind] at h
  split at h
  · cases h
  · rename_i v hv
    obtain ⟨m1, arr1, i1⟩ := v
    have h1 := copyIfaces_apart he _ hv ha hn
    split at h
    · have h2 := strdup_apart he hidlBase h1.1 h1.2
      split at h
      · cases h
      · split at h
        · cases h
        · cases h; exact h2
    · split at h
      · cases h
      · cases h; exact h1

theorem bounded (m : Mem) : ∃ lim, ∀ blk ∈ m, blk.1 + blk.2.length ≤ lim := by
  induction m with
  | nil => exact ⟨0, by simp⟩
  | cons b m ih =>
    obtain ⟨lim, h⟩ := ih
    refine ⟨lim + (b.1 + b.2.length), fun blk hb => ?_⟩
    rcases List.mem_cons.1 hb with rfl | hb
    · omega
    · have := h blk hb; omega

/-- Enough memory is allocated for all of that: the copies don't overlap each other or anything else,
so that the object has the right strings. -/
theorem C33_room {e : Env} (he : Mallocs e) {m : Mem} (ha : m.Apart) (hn : ∀ blk ∈ m, blk.1 ≠ 0)
    (ifaces : Option (List Bytes)) (h0 : ∀ s ∈ given ifaces, (0 : Byte) ∉ s) :
    ∃ (m' : Mem) (addrs : List Nat) (l : List Bytes),
      initBase e m ifaces = .ok (m', addrs.map some ++ [some 0]) ∧ Chain (given ifaces) l ∧
      m'.Apart ∧ (∃ x, m' = x ++ m) ∧ Holds m' addrs l := by
  obtain ⟨m', addrs, l, h1, h2, _, h3, h4⟩ := C33_registered e m ifaces h0
  obtain ⟨h5, h6⟩ := initBase_apart he h1 ha hn
  obtain ⟨lim, h7⟩ := bounded m'
  exact ⟨m', addrs, l, h1, h2, h5, h3, h4 lim ⟨h5, h6, h7⟩⟩

/-- The end of the memory in use. -/
def top (m : Mem) : Nat := m.foldr (fun blk n => max (blk.1 + blk.2.length) n) 16

theorem top_le {m : Mem} : ∀ blk ∈ m, blk.1 + blk.2.length ≤ top m := by
  induction m with
  | nil => simp
  | cons b m ih =>
    intro blk hb
    rcases List.mem_cons.1 hb with rfl | hb
    · exact Nat.le_max_left _ _
    · exact Nat.le_trans (ih blk hb) (Nat.le_max_right _ _)

theorem top_pos (m : Mem) : 16 ≤ top m := by
  induction m with
  | nil => exact Nat.le_refl _
  | cons b m ih => exact Nat.le_trans ih (Nat.le_max_right _ _)

/-- There are such allocators. -/
example : Mallocs { Demo.env with alloc := fun m _ => top m } := by
  intro m n _
  refine ⟨by have := top_pos m; simp only; omega, fun blk hb => ?_⟩
  have := top_le blk hb
  simp only [disjoint]
  omega

example : Mem.Apart Demo.mem ∧ ∀ blk ∈ Demo.mem, blk.1 ≠ 0 := by decide

/-! ### Who handles it -/

/-- Transactions which are answered by the library: _PNG, _NTF, and if that's what the request says it
is for, IBase::ping, interfaceDescriptor and interfaceChain. -/
def BuiltIn (iface : Option Bytes) (code : Nat) : Prop :=
  code = 0x5f504e47 ∨ code = 0x5f4e5446 ∨
  iface = some (utf8Text base) ∧ (code = 0x0f504e47 ∨ code = 0x0f445343 ∨ code = 0x0f43484e)

theorem codes : pingTx = 0x5f504e47 ∧ interfaceTx = 0x5f4e5446 ∧ hidlPingTx = 0x0f504e47 ∧
    hidlDescriptorTx = 0x0f445343 ∧ hidlChainTx = 0x0f43484e := by decide

theorem canHandle_builtin {o : Target} {iface : Option Bytes} {code : Nat} (h : BuiltIn iface code) :
    canHandle o iface code = .looper := by
  obtain ⟨c1, c2, c3, c4, c5⟩ := codes
  unfold BuiltIn at h
  rw [← hidlBase_eq] at h
  unfold canHandle
  simp only [c1, c2, c3, c4, c5]
  rcases h with rfl | rfl | ⟨rfl, rfl | rfl | rfl⟩ <;> simp

theorem canHandle_other {o : Target} {iface : Option Bytes} {code : Nat} (h : ¬BuiltIn iface code) :
    canHandle o iface code = if o.txproc then .supported else .notSupported := by
  obtain ⟨c1, c2, c3, c4, c5⟩ := codes
  unfold BuiltIn at h
  rw [← hidlBase_eq] at h
  unfold canHandle
  simp only [c1, c2, c3, c4, c5]
  have h1 : ¬(code = 0x5f504e47 ∨ code = 0x5f4e5446) := fun hc => h (hc.elim .inl (.inr ∘ .inl))
  rw [if_neg h1]
  split
  · rename_i h2
    rw [if_neg (fun hi => h (.inr (.inr ⟨hi, h2⟩)))]
  · rfl

/-- C33: transactions other than the built-in ones are handled by the function provided by the
application, which is called once on the main thread with the code and the flags of the transaction,
and the reply and the status are what it returns. If there is none (any more), the status is -EBADMSG. -/
theorem C33_user (e : Env) (m : Mem) (o : Target) (o' : Target) (user : Nat → Nat → Option Writer × Int)
    (iface : Option Bytes) (code flags : Nat) (h : ¬BuiltIn iface code) :
    dispatch e m (some o) o' true user iface code flags =
      if o.txproc = true ∧ o'.txproc = true then
        .ok ((user code flags).1, (user code flags).2, [(code, flags)])
      else .ok (none, -74, []) := by
  unfold dispatch
  simp only [canHandle_other h]
  cases o.txproc with
  | false => rfl
  | true =>
    simp only [if_true, handleMain, true_and]
    cases o'.txproc <;> rfl

/-- C33: the function isn't called for a built-in transaction, if there's no such object, or if the
looper is being stopped; otherwise it's called no more than once. -/
theorem C33_calls (e : Env) (m : Mem) (o : Option Target) (o' : Target) (run : Bool)
    (user : Nat → Nat → Option Writer × Int) (iface : Option Bytes) (code flags : Nat)
    (r : Option Writer × Int × Calls) (h : dispatch e m o o' run user iface code flags = .ok r) :
    r.2.2 = [] ∨ r.2.2 = [(code, flags)] ∧ ¬BuiltIn iface code ∧ run = true ∧
      ∃ x, o = some x ∧ x.txproc = true := by
  cases o with
  | none => cases h; exact .inl rfl
  | some x =>
    by_cases hb : BuiltIn iface code
    · left
      unfold dispatch at h
      simp only [canHandle_builtin hb, Except.map] at h
      split at h
      · cases h
      · cases h; rfl
    · cases run with
      | true =>
        rw [C33_user e m x o' user iface code flags hb] at h
        split at h
        · rename_i hx
          cases h
          exact .inr ⟨rfl, hb, rfl, x, rfl, hx.1⟩
        · cases h; exact .inl rfl
      | false =>
        left
        unfold dispatch at h
        simp only [canHandle_other hb] at h
        cases hx : x.txproc <;> rw [hx] at h <;> cases h <;> rfl

/-! ### What the built-in ones return -/

/-- The reply `w` is received as `b'`, by somebody whose memory is `dst`. -/
structure Received (io : Io) (w : Writer) (addr : Nat → Nat) (dst : Mem) (b' : Bytes) : Prop where
  small : w.bytes.length < 2 ^ 32
  sane : w.mem.Sane (256 ^ Kernel.word io)
  transfer : ∃ objs, Kernel.Transfer io w.mem w.bytes w.offsets objs addr dst b'

theorem int32_ok (e : Env) (w : Writer) : w.appendInt32 e 0 = .ok { w with bytes := w.bytes ++ [0, 0, 0, 0] } := by
  have := C01.write_eq e w (.int32 0) trivial
  exact this

theorem hidlString_ok (e : Env) {w : Writer} {a : Nat} {s : Bytes} (ha : a ≠ 0) (hs : w.mem.cstr a = some s) :
    ∃ w', Writer.appendHidlString e w a = .ok w' := by
  unfold Writer.appendHidlString
  rw [strLen_cstr ha hs]
  simp only [bind, Except.bind, Writer.appendBufferObject_eq, ne_eq, ha, not_false_eq_true, if_true]
  exact ⟨_, rfl⟩

theorem descs_ok {m : Mem} : ∀ {l : List Nat} {names : List Bytes}, l.map m.cstr = names.map some → 0 ∉ l →
    ∃ ds, Writer.hidlStringDescs m l = .ok ds
  | [], _, _, _ => ⟨[], rfl⟩
  | a :: l, [], h, _ => by simp at h
  | a :: l, s :: names, h, h0 => by
    simp only [List.map_cons, List.cons.injEq] at h
    obtain ⟨ds, hd⟩ := descs_ok h.2 (fun hc => h0 (List.mem_cons_of_mem _ hc))
    refine ⟨(a, s.length % 2 ^ 32) :: ds, ?_⟩
    unfold Writer.hidlStringDescs
    rw [strLen_cstr (by intro hc; subst hc; exact h0 (by simp)) h.1, hd]
    rfl

theorem stringBuffers_ok (e : Env) (idx : Nat) : ∀ (ds : List (Nat × Nat)) (w : Writer) (off : Nat),
    ∃ w', Writer.appendStringBuffers e idx w off ds = .ok w'
  | [], w, _ => ⟨w, rfl⟩
  | (p, len) :: ds, w, off => by
    unfold Writer.appendStringBuffers
    simp only [Writer.appendBufferObject_eq]
    split
    · simp only [bind, Except.bind]
      exact stringBuffers_ok e idx ds _ _
    · simp only [bind, Except.bind]
      exact stringBuffers_ok e idx ds _ _

theorem stringVec_ok (e : Env) {w : Writer} {l : List Nat} {names : List Bytes}
    (h : l.map w.mem.cstr = names.map some) (h0 : 0 ∉ l) :
    ∃ w', Writer.appendHidlStringVec e w l = .ok w' := by
  obtain ⟨ds, hd⟩ := descs_ok h h0
  unfold Writer.appendHidlStringVec
  rw [hd]
  simp only [bind, Except.bind, Writer.appendBufferObject_eq]
  split
  · split
    · exact stringBuffers_ok e _ ds _ _
    · exact ⟨_, rfl⟩
  · exact ⟨_, rfl⟩

/-- The reader of a reply. -/
def reader (io : Io) (pr : Protocol) (b : Bytes) (offs : List Nat) : Reader :=
  Reader.init io pr b offs true 0 b.length

theorem since_zero (io : Io) (pr : Protocol) (b : Bytes) (offs : List Nat) :
    Reader.since io pr b offs 0 0 = reader io pr b offs := rfl

/-- Nothing is left. -/
def AtEnd (r : Reader) : Prop := r.atEnd = true ∧ r.bytesRemaining = 0 ∧ r.objects = []

theorem since_end (io : Io) (pr : Protocol) {b : Bytes} {w : Writer} (h : b.length = w.bytes.length) :
    AtEnd (Reader.since io pr b w.offsets w.bytes.length w.offsets.length) := by
  refine ⟨?_, ?_, ?_⟩
  · simp [Reader.since, Reader.init, Reader.atEnd, h]
  · simp [Reader.since, Reader.init, Reader.bytesRemaining, Reader.remaining, h]
  · simp [Reader.since]

theorem one_int32 {r r' : Reader} {v : UInt32}
    (h : C01.readAll r ([C01.Value.int32 v].map C01.Value.ty) =
      .ok ([C01.Value.int32 v].map C01.Value.seen) r') : r.readUInt32 = .ok v.toNat r' := by
  simp only [C01.readAll, List.map_cons, List.map_nil, C01.Value.ty, C01.Ty.read, C01.Value.seen] at h
  generalize r.readUInt32 = x at h ⊢
  cases x with
  | ok a r1 =>
    simp only [Res.map, Res.bind, Res.ok.injEq, List.cons.injEq, C01.Seen.num.injEq, and_true] at h
    obtain ⟨h1, h2⟩ := h
    subst h1 h2
    rfl
  | fail r => simp [Res.map, Res.bind] at h
  | ub k => simp [Res.map, Res.bind] at h

theorem one_string16 {r r' : Reader} {s : List Char}
    (h : C01.readAll r ([C01.Value.string16 (some s)].map C01.Value.ty) =
      .ok ([C01.Value.string16 (some s)].map C01.Value.seen) r') :
    r.readString16 = .ok (some (utf8Text s)) r' := by
  simp only [C01.readAll, List.map_cons, List.map_nil, C01.Value.ty, C01.Ty.read, C01.Value.seen,
    Option.map_some] at h
  unfold Reader.readString16
  generalize r.readNullableString16 = x at h ⊢
  cases x with
  | ok a r1 =>
    simp only [Res.map, Res.bind, Res.ok.injEq, List.cons.injEq, C01.Seen.obytes.injEq, and_true] at h
    obtain ⟨h1, h2⟩ := h
    subst h1 h2
    rfl
  | fail r => simp [Res.map, Res.bind] at h
  | ub k => simp [Res.map, Res.bind] at h

/-- C33, ping: both codes are answered with a status of zero and nothing else. -/
theorem C33_ping (e : Env) (m : Mem) (o : Target) (iface : Option Bytes) (code : Nat)
    (hc : code = 0x5f504e47 ∨ code = 0x0f504e47 ∧ iface = some (utf8Text base)) :
    ∃ w, (∀ o' run user flags, dispatch e m (some o) o' run user iface code flags = .ok (some w, 0, [])) ∧
      ∀ addr dst b', Received o.io w addr dst b' → ∀ pr, ∃ r,
        (reader o.io pr b' w.offsets).readUInt32 = .ok 0 r ∧ AtEnd r := by
  obtain ⟨c1, c2, c3, c4, c5⟩ := codes
  have hb : BuiltIn iface code := by
    rcases hc with rfl | ⟨rfl, rfl⟩
    · exact .inl rfl
    · exact .inr (.inr ⟨rfl, .inl rfl⟩)
  have hl : handleLooper e m o code = ping e m o := by
    unfold handleLooper
    simp only [c1, c2, c3]
    rcases hc with rfl | ⟨rfl, rfl⟩ <;> simp
  refine ⟨{ createReply m o with bytes := [0, 0, 0, 0] }, ?_, ?_⟩
  · intro o' run user flags
    unfold dispatch
    simp only [canHandle_builtin hb, hl, ping, int32_ok, bind, Except.bind, Except.map]
    rfl
  · intro addr dst b' h pr
    obtain ⟨objs, t⟩ := h.transfer
    have := C01.C01_received (e := e) (io := o.io) (p := o.proto) (m := m) (pre := []) (post := [])
      (vs := [.int32 0]) (w0 := createReply m o) (by intro v hv; simp at hv; subst hv; trivial) rfl
      (C01.writeAll_eq e (createReply m o) _ (by intro v hv; simp at hv; subst hv; trivial)) rfl
      (by simp) t pr
    refine ⟨_, ?_, since_end o.io pr (w := { createReply m o with bytes := [0, 0, 0, 0] }) t.size⟩
    exact one_int32 this

/-- C33, _NTF: the first interface of the object. -/
theorem C33_interface (e : Env) (m : Mem) (o : Target) (iface : Option Bytes) (names : List (List Char))
    (s : List Char) (hh : Holds m o.ifaces (names.map utf8Text)) (hn : names.head? = some s)
    (hs : C18.NameOk s) :
    ∃ w, (∀ o' run user flags,
        dispatch e m (some o) o' run user iface 0x5f4e5446 flags = .ok (some w, 0, [])) ∧
      ∀ addr dst b', Received o.io w addr dst b' → ∀ pr, ∃ r,
        (reader o.io pr b' w.offsets).readString16 = .ok (some (utf8Text s)) r ∧ AtEnd r := by
  obtain ⟨c1, c2, c3, c4, c5⟩ := codes
  have hl : handleLooper e m o 0x5f4e5446 = interface e m o := by
    unfold handleLooper
    simp only [c1, c2, c3]
    simp
  obtain ⟨a, as, hi, hcs⟩ : ∃ a as, o.ifaces = a :: as ∧ m.cstr a = some (utf8Text s) := by
    have h1 := hh.strings
    cases names with
    | nil => cases hn
    | cons x xs =>
      cases hn
      cases hif : o.ifaces with
      | nil => rw [hif] at h1; simp at h1
      | cons a as =>
        rw [hif] at h1
        simp only [List.map_cons, List.cons.injEq] at h1
        exact ⟨a, as, rfl, h1.1⟩
  have hvs : ∀ v ∈ [C01.Value.string16 (some s)], v.Ok := by
    intro v hv; simp at hv; subst hv; exact hs
  have hw := C01.write_eq e (createReply m o) (.string16 (some s)) hs
  refine ⟨{ createReply m o with bytes := (createReply m o).bytes ++ (C01.Value.string16 (some s)).enc }, ?_, ?_⟩
  · intro o' run user flags
    unfold dispatch
    simp only [canHandle_builtin (o := o) (iface := iface) (code := 0x5f4e5446) (.inr (.inl rfl)), hl,
      interface, hi, hcs]
    simp only [C01.Value.write, Option.map_some] at hw
    rw [hw]
    rfl
  · intro addr dst b' h pr
    obtain ⟨objs, t⟩ := h.transfer
    have hwa : C01.writeAll e (createReply m o) [.string16 (some s)] =
        .ok { createReply m o with bytes := (createReply m o).bytes ++ (C01.Value.string16 (some s)).enc } := by
      rw [C01.writeAll_eq e _ _ hvs]
      simp
    have := C01.C01_received (e := e) (io := o.io) (p := o.proto) (m := m) (pre := []) (post := [])
      (vs := [.string16 (some s)]) (w0 := createReply m o) hvs rfl hwa rfl (by simp) t pr
    refine ⟨_, ?_, since_end o.io pr (w := { createReply m o with
      bytes := (createReply m o).bytes ++ (C01.Value.string16 (some s)).enc }) t.size⟩
    exact one_string16 this

theorem status_read {e : Env} {m : Mem} {o : Target} {op : WOp} {w : Writer} {addr : Nat → Nat} {dst : Mem}
    {b' : Bytes} (hop : ∀ off v, op ≠ .overwriteInt32 off v)
    (hw : WOp.runAll e { createReply m o with bytes := [0, 0, 0, 0] } [op] = .ok w)
    (h : Received o.io w addr dst b') (pr : Protocol) :
    (reader o.io pr b' w.offsets).readUInt32 = .ok 0 (Reader.since o.io pr b' w.offsets 4 0) := by
  obtain ⟨objs, t⟩ := h.transfer
  have hvs : ∀ v ∈ [C01.Value.int32 0], v.Ok := by
    intro v hv; simp at hv; subst hv; trivial
  have := C01.C01_received (e := e) (io := o.io) (p := o.proto) (m := m) (pre := []) (post := [op])
    (vs := [.int32 0]) (w0 := createReply m o) hvs rfl (C01.writeAll_eq e _ _ hvs) hw
    (by intro off v hc; simp at hc; exact hop off v hc.symm) t pr
  exact one_int32 this

theorem sent_reply {e : Env} {m : Mem} {o : Target} {op : WOp} {w : Writer} {addr : Nat → Nat} {dst : Mem}
    {b' : Bytes} (hw : op.run e { createReply m o with bytes := [0, 0, 0, 0] } = .ok w)
    (h : Received o.io w addr dst b') :
    Sent e o.io o.proto m [.int32 0] op [] { createReply m o with bytes := [0, 0, 0, 0] } w w addr dst b' := by
  refine ⟨?_, hw, rfl, by simp, by simp, by simp, h.small, h.sane, h.transfer⟩
  simp only [WOp.runAll, WOp.run]
  have := int32_ok e (createReply m o)
  unfold createReply at this ⊢
  rw [this]
  rfl

/-- C33, interfaceDescriptor: a status of zero and the first interface of the object. -/
theorem C33_descriptor (e : Env) (m : Mem) (o : Target) (names : List Bytes) (s : Bytes)
    (hh : Holds m o.ifaces names) (hn : names.head? = some s) (hs : s.length + 1 < 2 ^ 32) :
    ∃ w, (∀ o' run user flags,
        dispatch e m (some o) o' run user (some (utf8Text base)) 0x0f445343 flags = .ok (some w, 0, [])) ∧
      ∀ addr dst b', Received o.io w addr dst b' → ∀ pr, ∃ r r',
        (reader o.io pr b' w.offsets).readUInt32 = .ok 0 r ∧
        r.readHidlString dst = .ok (some s) r' ∧ AtEnd r' := by
  obtain ⟨c1, c2, c3, c4, c5⟩ := codes
  have hl : handleLooper e m o 0x0f445343 = hidlDescriptor e m o := by
    unfold handleLooper
    simp only [c1, c2, c3, c4]
    simp
  obtain ⟨a, as, hi, hcs, ha⟩ : ∃ a as, o.ifaces = a :: as ∧ m.cstr a = some s ∧ a ≠ 0 := by
    have h1 := hh.strings
    have h0 := hh.nonnull
    cases names with
    | nil => cases hn
    | cons x xs =>
      cases hn
      cases hif : o.ifaces with
      | nil => rw [hif] at h1; simp at h1
      | cons a as =>
        rw [hif] at h1 h0
        simp only [List.map_cons, List.cons.injEq] at h1
        exact ⟨a, as, rfl, h1.1, by intro hc; subst hc; exact h0 (by simp)⟩
  obtain ⟨w, hw⟩ := hidlString_ok e (w := { createReply m o with bytes := [0, 0, 0, 0] }) ha hcs
  refine ⟨w, ?_, ?_⟩
  · intro o' run user flags
    unfold dispatch
    have hb : BuiltIn (some (utf8Text base)) 0x0f445343 := .inr (.inr ⟨rfl, .inr (.inl rfl)⟩)
    simp only [canHandle_builtin (o := o) hb, hl, hidlDescriptor, hi, int32_ok, bind, Except.bind,
      List.headD_cons]
    have hw' : Writer.appendHidlString e { createReply m o with
      bytes := (createReply m o).bytes ++ [0, 0, 0, 0] } a = .ok w := hw
    rw [hw']
    rfl
  · intro addr dst b' h pr
    have hrun : (WOp.hidlString a).run e { createReply m o with bytes := [0, 0, 0, 0] } = .ok w := hw
    have hs1 := sent_reply hrun h
    refine ⟨_, _, status_read (e := e) (m := m) (op := .hidlString a) (by intro off v hc; cases hc) ?_ h pr, ?_,
      since_end o.io pr (by obtain ⟨objs, t⟩ := h.transfer; exact t.size)⟩
    · simp only [WOp.runAll]
      rw [hrun]
      rfl
    · exact C13.C13_round_trip hs1 ha hcs hs pr

/-- C33, interfaceChain: a status of zero and all interfaces of the object. -/
theorem C33_chain (e : Env) (m : Mem) (o : Target) (names : List Bytes)
    (hh : Holds m o.ifaces names) (hn : 16 * names.length < 2 ^ 32) (hs : ∀ s ∈ names, s.length + 1 < 2 ^ 32) :
    ∃ w, (∀ o' run user flags,
        dispatch e m (some o) o' run user (some (utf8Text base)) 0x0f43484e flags = .ok (some w, 0, [])) ∧
      ∀ addr dst b', Received o.io w addr dst b' → ∀ pr, ∃ r r',
        (reader o.io pr b' w.offsets).readUInt32 = .ok 0 r ∧
        r.readHidlStringVec dst = .ok (some names) r' ∧ AtEnd r' := by
  obtain ⟨c1, c2, c3, c4, c5⟩ := codes
  have hl : handleLooper e m o 0x0f43484e = hidlChain e m o := by
    unfold handleLooper
    simp only [c1, c2, c3, c4, c5]
    simp
  obtain ⟨w, hw⟩ := stringVec_ok e (w := { createReply m o with bytes := [0, 0, 0, 0] })
    (l := o.ifaces) hh.strings hh.nonnull
  refine ⟨w, ?_, ?_⟩
  · intro o' run user flags
    unfold dispatch
    have hb : BuiltIn (some (utf8Text base)) 0x0f43484e := .inr (.inr ⟨rfl, .inr (.inr rfl)⟩)
    simp only [canHandle_builtin (o := o) hb, hl, hidlChain, int32_ok, bind, Except.bind]
    have hw' : Writer.appendHidlStringVec e { createReply m o with
      bytes := (createReply m o).bytes ++ [0, 0, 0, 0] } o.ifaces = .ok w := hw
    rw [hw']
    rfl
  · intro addr dst b' h pr
    have hrun : (WOp.hidlStringVec o.ifaces).run e { createReply m o with bytes := [0, 0, 0, 0] } = .ok w := hw
    have hs1 := sent_reply hrun h
    refine ⟨_, _, status_read (e := e) (m := m) (op := .hidlStringVec o.ifaces) (by intro off v hc; cases hc) ?_ h pr, ?_,
      since_end o.io pr (by obtain ⟨objs, t⟩ := h.transfer; exact t.size)⟩
    · simp only [WOp.runAll]
      rw [hrun]
      rfl
    · exact C14.C14_round_trip hs1 hh.nonnull hh.strings hn hs pr

/-! ### From the client to the object -/

/-- C33: the interface is the one the client was created for. Internal transactions of the aidl protocols
have none. -/
theorem C33_request (e e' : Env) (m m' : Mem) (io : Io) (p : Protocol) (s : List Char) (hs : C18.NameOk s)
    (w : Writer) (hw : clientNewRequest e' io p m' (some (utf8Text s)) = .ok w) (code : Nat)
    (hc : p = .hidl ∨ code ≤ 0x5f000000) (post : Bytes) (objects : List Nat) (o : Option Target)
    (o' : Target) (run : Bool) (user : Nat → Nat → Option Writer × Int) (flags : Nat) :
    transaction e m o o' run io p user code flags (w.bytes ++ post) objects =
      dispatch e m o o' run user (some (utf8Text s)) code flags := by
  obtain ⟨w0, h0, hpos, _, hq⟩ := C18.C18_header e' io p m' s hs
  rw [hw] at h0
  cases h0
  obtain ⟨q, h1, h2, _⟩ := hq code hc post objects
  unfold transaction
  rw [if_neg (by intro hc; rw [List.append_eq_nil_iff] at hc; rw [hc.1] at hpos; simp at hpos), h1]
  simp only [bind, Except.bind, h2]

/-- The size of an empty request doesn't matter: there's no interface, if there's no data. -/
theorem transaction_nil (e : Env) (m : Mem) (io : Io) (p : Protocol) (o : Option Target) (o' : Target)
    (run : Bool) (user : Nat → Nat → Option Writer × Int) (code flags : Nat) (objects : List Nat) :
    transaction e m o o' run io p user code flags [] objects = dispatch e m o o' run user none code flags := by
  unfold transaction
  rw [if_pos rfl]

/-- C33: the ping sent by gbinder_ipc_ping_sync (`writePing` with the code of the protocol) is answered by
the library for every object, whatever the application does. -/
theorem C33_ping_sent (e e' : Env) (m m' : Mem) (io : Io) (p : Protocol) (o : Target) :
    ∃ q, writePing e' { io := io, protocol := p, mem := m' } p = .ok q ∧
    ∃ w, (∀ o' run user flags, transaction e m (some o) o' run io p user (protoPing p) flags q.bytes q.offsets =
        .ok (some w, 0, [])) ∧
      ∀ addr dst b', Received o.io w addr dst b' → ∀ pr, ∃ r,
        (reader o.io pr b' w.offsets).readUInt32 = .ok 0 r ∧ AtEnd r := by
  obtain ⟨c1, c2, c3, c4, c5⟩ := codes
  by_cases hp : p = .hidl
  · subst hp
    have hn : C18.NameOk base := by unfold C18.NameOk; decide +kernel
    obtain ⟨w, h1, h2⟩ := C33_ping e m o (some (utf8Text base)) 0x0f504e47 (.inr ⟨rfl, rfl⟩)
    obtain ⟨w0, hw0, _⟩ := C18.C18_header e' io .hidl m' base hn
    have hwh := C18.write_header (e := e') (w := { io := io, protocol := .hidl, mem := m' }) (p := .hidl) hn
    refine ⟨{ ({ io := io, protocol := .hidl, mem := m' } : Writer) with
      bytes := [] ++ (C18.headerValues .hidl base).flatMap C01.Value.enc }, ?_, w, ?_, h2⟩
    · unfold writePing
      rw [show ("android.hidl.base@1.0::IBase".toUTF8.data.toList : Bytes) = utf8Text base from hidlBase_eq]
      exact hwh
    · intro o' run user flags
      have hr := C33_request e e' m m' io .hidl base hn w0 hw0 0x0f504e47 (.inl rfl) [] [] (some o) o' run user flags
      rw [h1, List.append_nil] at hr
      have hb : w0.bytes = (C18.headerValues .hidl base).flatMap C01.Value.enc := by
        simp only [clientNewRequest, rangeHeader, newRequestIface, newRequest, Option.getD_none,
          C18.write_header hn, bind, Except.bind, Except.map] at hw0
        cases hw0
        rfl
      simp only [protoPing, c3]
      rw [hb] at hr
      exact hr
  · obtain ⟨w, h1, h2⟩ := C33_ping e m o none 0x5f504e47 (.inl rfl)
    refine ⟨{ io := io, protocol := p, mem := m' }, ?_, w, ?_, h2⟩
    · unfold writePing
      cases p <;> first | rfl | exact absurd rfl hp
    · intro o' run user flags
      have : protoPing p = 0x5f504e47 := by
        cases p <;> first | exact c1 | exact absurd rfl hp
      rw [this, transaction_nil]
      exact h1 o' run user flags

/-! ### Examples -/

/-- Objects with one interface, with the base interface given explicitly, and without any. -/
example : (initBase Demo.env Demo.mem (some [utf8Text ['a']])).toOption.map (fun r => r.2.length) = some 3 ∧
    (initBase Demo.env Demo.mem (some [utf8Text ['a'], utf8Text base])).toOption.map (fun r => r.2.length) = some 3 ∧
    (initBase Demo.env Demo.mem none).toOption.map (fun r => r.2.length) = some 2 ∧
    (∀ s ∈ given (some [utf8Text ['a']]), (0 : Byte) ∉ s) := by decide +kernel

/-- An object the interfaces of which are "ab" and "b". -/
example : Holds Demo.mem [16, 17] [[0x61, 0x62], [0x62]] ∧ C18.NameOk ['a', 'b'] ∧
    utf8Text ['a', 'b'] = [0x61, 0x62] :=
  ⟨⟨by decide, by decide⟩, by unfold C18.NameOk; decide +kernel, by decide +kernel⟩

/-- Its replies are received. -/
example :
    (∃ w0 w1 w' dst b', Sent Demo.env .io64 .hidl Demo.mem [.int32 0] (.hidlString 16) []
      w0 w1 w' Kernel.demoAddr dst b') ∧
    (∃ w0 w1 w' dst b', Sent Demo.env .io32 .hidl Demo.mem [.int32 0] (.hidlStringVec [16, 17]) []
      w0 w1 w' Kernel.demoAddr dst b') :=
  ⟨Kernel.demoSent_sound (by decide +kernel), Kernel.demoSent_sound (by decide +kernel)⟩

/-- IBase codes sent to another interface, and an ordinary code. -/
example : ¬BuiltIn (some (utf8Text ['a'])) 0x0f43484e ∧ ¬BuiltIn none 0x0f504e47 ∧
    ¬BuiltIn (some (utf8Text base)) 1 ∧ BuiltIn (some (utf8Text base)) 0x0f43484e := by
  unfold BuiltIn
  decide +kernel

end Gb.C33
