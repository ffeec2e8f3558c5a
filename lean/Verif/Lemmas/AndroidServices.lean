import Verif.Spec.AndroidServices
import Verif.Spec.Codes
import Verif.Lemmas.Notify
import Verif.Props.C19Android
import Verif.Props.C52
import Verif.Props.C60
import Verif.Props.C80
/-
Requests to the service managers, as Android reads them.
-/
set_option autoImplicit false

namespace Gb.C85
open Client Kernel Android C80 C59

theorem plain_put {e : Env} : ∀ {vs : List C01.Value} {w : Writer},
    putAll e w (vs.map Item.plain) = C01.writeAll e w vs
  | [], _ => rfl
  | v :: vs, w => by
    simp only [List.map_cons, putAll, C01.writeAll, Item.put]
    cases v.write e w with
    | error k => rfl
    | ok w1 => exact plain_put

/-- What has been appended between any other calls, when the parcel is received. -/
theorem items_received {e : Env} {io : Io} {p : Protocol} {m : Mem} {pre post : List WOp} {xs : List Item}
    {w0 w1 w' : Writer} {src dst : Mem} {objs : List KObj} {addr : Nat → Nat} {b' : Bytes}
    (hv : ∀ x ∈ xs, x.Ok) (h0 : WOp.runAll e { io := io, protocol := p, mem := m } pre = .ok w0)
    (h1 : putAll e w0 xs = .ok w1) (h2 : WOp.runAll e w1 post = .ok w')
    (ha : ∀ off v, WOp.overwriteInt32 off v ∉ pre ++ post)
    (t : Transfer io src w'.bytes w'.offsets objs addr dst b') :
    Android.readAll b' w0.bytes.length (xs.map Item.ty) = some (xs.map Item.val, w1.bytes.length) := by
  obtain ⟨hio0, s, hs⟩ := runAll_built (al := false) h0
    (overwrite_free (fun off v hc => ha off v (List.mem_append_left _ hc))) (by intro hc; cases hc)
  rw [putAll_eq e xs w0 hv] at h1
  cases h1
  obtain ⟨new, g⟩ := runAll_grows (al := false) h2
    (overwrite_free (fun off v hc => ha off v (List.mem_append_right _ hc))) (by intro hc; cases hc)
  obtain ⟨y, hy⟩ := kept hio0 hs g t
  obtain ⟨r, hr, _⟩ := g.tail
  simp only at hr
  have hlen : (b'.take w0.bytes.length).length = w0.bytes.length := by
    rw [List.length_take, t.size, hr]
    simp only [List.length_append]
    omega
  obtain ⟨wx, hx1, hx2⟩ := C80_written e { w0 with bytes := b'.take w0.bytes.length } xs hv
  rw [putAll_eq e xs _ hv] at hx1
  cases hx1
  have := hx2 y
  simp only [hlen, List.length_append] at this ⊢
  rw [← this, List.append_assoc, ← hy, List.take_append_drop]

/-- The header of the request. -/
theorem header_received {e : Env} {io : Io} {p : Protocol} {m : Mem} {s : List Char} (hs : C18.NameOk s) {w w' : Writer}
    (hw : clientNewRequest e io p m (some (utf8Text s)) = .ok w)
    {ops : List WOp} (ha : ∀ off v, WOp.overwriteInt32 off v ∉ ops) (h1 : WOp.runAll e w ops = .ok w')
    {src dst : Mem} {objs : List KObj} {addr : Nat → Nat} {b' : Bytes}
    (t : Transfer io src w'.bytes w'.offsets objs addr dst b') :
    enforce syst b' p = some (nameOf s p, w.bytes.length) := by
  obtain ⟨w1, hw1, hq⟩ := C80_header_sent e io p m s hs
  rw [hw] at hw1
  cases hw1
  obtain ⟨new, g⟩ := runAll_grows (al := false) h1 (overwrite_free ha) (by simp)
  have hwb : w = { io := io, protocol := p, mem := m, bytes := w.bytes } := by
    have := hw
    simp only [clientNewRequest, rangeHeader, newRequestIface, C18.write_header hs, bind, Except.bind, Except.map] at this
    cases this
    rfl
  have g' : Grows false { io := io, protocol := p, mem := m, bytes := w.bytes } w' new := by
    rw [← hwb]; exact g
  obtain ⟨y, hy⟩ := kept (w0 := { io := io, protocol := p, mem := m }) (d := w.bytes) (n := 0) (s := []) (al := false) rfl
    .nil (rest := new) (by simpa using g') t
  have hb : b' = w.bytes ++ y := by simpa using hy
  rw [hb]
  exact hq y

/-- The values after the object. -/
theorem tail_items (k : Kind) : ∀ x ∈ (tail k).map Item.plain, x.Ok := by
  intro x hx
  obtain ⟨v, hv, rfl⟩ := List.mem_map.mp hx
  exact tail_ok k v hv

theorem add_parts {e : Env} {q : Qsort} {io : Io} {p : Protocol} {m : Mem} {s name : List Char} (hs : C18.NameOk s)
    (hn : C18.NameOk name) {kind : Kind} (hk : kind ≠ .hidl) {o : LocalRef} (ho : o.addr < 256 ^ word io)
    (hst : p = .aidl3 → o.stability ∈ [0x03, 0x0c, 0x3f]) {at_ : Nat}
    {rs : List Range} (h : Client.new e q io p m (some (utf8Text s)) = .ok rs) {w w' : Writer}
    (hw : firstRequest io p m rs = .ok w) (hr : WOp.runAll e w (addServiceOps (utf8Text name) at_ o kind) = .ok w')
    {src dst : Mem} {objs : List KObj} {addr : Nat → Nat} {b' : Bytes} {node : Nat → Nat} {other : Nat → Option Nat}
    (t : Transfer io src w'.bytes w'.offsets objs addr dst b')
    (t' : References io w'.bytes w'.offsets objs node other b') :
    ∃ p0 p1 p2, enforce syst b' p = some (nameOf s p, p0) ∧
      readAt b' p0 .string16 = some (.units (some (name.flatMap utf16)), p1) ∧
      readBinder io (p == .aidl3) b' w'.offsets p1 =
        some (.handle (node o.addr), if p = .aidl3 then o.stability else 0, p2) ∧
      Android.readAll b' p2 (((tail kind).map Item.plain).map Item.ty) =
        some (((tail kind).map Item.plain).map Item.val, b'.length) := by
  obtain ⟨g1, g2, g3, g4⟩ := request hs h hw
  rw [ops_aidl hk] at hr
  have ha : ∀ off v, WOp.overwriteInt32 off v ∉ WOp.string16 (some (utf8Text name)) :: .localObject (some o) :: tailOps kind := by
    intro off v hm
    simp only [List.mem_cons, reduceCtorEq, false_or] at hm
    exact tail_append off v hm
  have a0 := header_received hs g2 ha hr t
  obtain ⟨w1, e1, hr1⟩ := runAll_split hr
  obtain ⟨w2, e2, hr2⟩ := runAll_split hr1
  have a1 := items_received (e := e) (p := p) (m := m) (pre := headerOps p s) (xs := [.plain (.string16 (some name))])
    (post := .localObject (some o) :: tailOps kind) (w0 := w) (w1 := w1) (by
      intro v hv
      cases List.mem_singleton.mp hv
      exact hn) g1
    (by simp only [putAll, Item.put, C01.Value.write, Option.map_some]; simp only [WOp.run] at e1; rw [e1]; rfl) hr1 (by
      intro off v hm
      rcases List.mem_append.mp hm with hm | hm
      · exact headerOps_append off v hm
      · exact ha off v (List.mem_cons_of_mem _ hm)) t
  have pre2 : WOp.runAll e { io := io, protocol := p, mem := m } (headerOps p s ++ [.string16 (some (utf8Text name))]) =
      .ok w1 := runAll_append g1 (by simp only [WOp.runAll, e1]; rfl)
  have a2 := C19.C19_android e io p m (headerOps p s ++ [.string16 (some (utf8Text name))]) (tailOps kind) w1 w2 w' o ho
    hst ⟨pre2, e2, hr2, by
      intro off v hm
      rcases List.mem_append.mp hm with hm | hm
      · rcases List.mem_append.mp hm with hm | hm
        · exact headerOps_append off v hm
        · simp at hm
      · exact tail_append off v hm⟩ objs node other b' t'
  have pre3 := runAll_append (b := [.localObject (some o)]) pre2 (by simp only [WOp.runAll, e2]; rfl)
  have a3 := items_received (e := e) (p := p) (m := m)
    (pre := headerOps p s ++ [.string16 (some (utf8Text name))] ++ [.localObject (some o)])
    (xs := (tail kind).map Item.plain) (post := []) (w0 := w2) (w1 := w') (tail_items kind) pre3
    (by rw [plain_put, ← tail_run]; exact hr2) rfl (by
      intro off v hm
      simp only [List.append_nil, List.mem_append, List.mem_singleton, reduceCtorEq, or_false] at hm
      exact headerOps_append off v hm) t
  refine ⟨w.bytes.length, w1.bytes.length, w2.bytes.length, a0, ?_, a2, by rw [t.size]; exact a3⟩
  simp only [List.map_cons, List.map_nil, Item.ty, Item.val, Option.map_some, Android.readAll] at a1
  generalize readAt b' w.bytes.length .string16 = x at a1 ⊢
  rcases x with _ | ⟨v, q⟩
  · cases a1
  · simp only [Option.some.injEq, Prod.mk.injEq, List.cons.injEq, and_true] at a1
    rw [a1.1, a1.2]

/-- An object with the stability is one without it, followed by an integer. -/
theorem binder_stable {io : Io} {b : Bytes} {offs : List Nat} {p s q : Nat} {x : Ref}
    (h : readBinder io true b offs p = some (x, s, q)) :
    4 ≤ q ∧ q ≤ b.length ∧ readBinder io false b offs p = some (x, 0, q - 4) ∧ num b (q - 4) 4 = s := by
  have key : ∀ (y : Ref) (k : Nat), finish true b y k = some (x, s, q) →
      4 ≤ q ∧ q ≤ b.length ∧ finish false b y k = some (x, 0, q - 4) ∧ num b (q - 4) 4 = s := by
    intro y k hf
    simp only [finish, if_true] at hf
    repeat' split at hf
    all_goals first
      | cases hf; done
      | (cases hf
         exact ⟨by omega, by assumption, by simp [finish], by simp⟩)
  simp only [readBinder] at h ⊢
  repeat' split at h
  all_goals first
    | cases h; done
    | (obtain ⟨k1, k2, k3, k4⟩ := key _ _ h
       refine ⟨k1, k2, ?_, k4⟩
       simp_all)

/-- If all the bytes are zero, the first ones are. -/
theorem field_zero {b : Bytes} {p n k : Nat} (h : fieldAt b p n = 0) (hk : k ≤ n) : fieldAt b p k = 0 := by
  unfold fieldAt at h ⊢
  have h1 : (b.drop p).take n = (b.drop p).take k ++ ((b.drop p).take n).drop k := by
    rw [List.drop_take, ← List.take_add]
    congr 1
    omega
  rw [h1] at h
  have : ∀ x y : Bytes, leVal (x ++ y) = 0 → leVal x = 0 := by
    intro x
    induction x with
    | nil => intro _ _; rfl
    | cons c x ih =>
      intro y hy
      simp only [List.cons_append, leVal] at hy ⊢
      have := ih y (by omega)
      omega
  exact this _ _ h

theorem one_int {b : Bytes} {p q x : Nat} (h : Android.readAll b p [.int32] = some ([.num x], q)) :
    readAt b p .int32 = some (.num x, q) := by
  obtain ⟨v, us, k, h1, h2, h3⟩ := readAll_cons h
  cases h1
  cases h3
  exact h2

theorem more_ints {b : Bytes} {p q x : Nat} {t : Ty} {ts : List Ty} {vs : List Val}
    (h : Android.readAll b p (.int32 :: t :: ts) = some (.num x :: vs, q)) :
    ∃ k, readAt b p .int32 = some (.num x, k) ∧ Android.readAll b k (t :: ts) = some (vs, q) := by
  obtain ⟨v, us, k, h1, h2, h3⟩ := readAll_cons h
  cases h1
  exact ⟨k, h2, h3⟩

theorem bool_of {b : Bytes} {p q x : Nat} (h : readAt b p .int32 = some (.num x, q)) :
    readAt b p .bool = some (.bool (decide (x ≠ 0)), q) := by
  simp only [readAt] at h ⊢
  split at h
  · rename_i hb
    cases h
    rw [if_pos hb]
  · cases h

/-- Two strings after the header. -/
theorem android_two {e : Env} {io : Io} {p : Protocol} {m : Mem} {s : List Char} {a b : Nat} {sa sb : Bytes}
    (ha : a ≠ 0) (hb : b ≠ 0) (ma : m.cstr a = some sa) (mb : m.cstr b = some sb)
    (hl : sa.length + 1 < 2 ^ 32) (hl' : sb.length + 1 < 2 ^ 32) {w w' : Writer}
    (g1 : WOp.runAll e { io := io, protocol := p, mem := m } (headerOps p s) = .ok w) (g4 : w.mem = m)
    {post : List WOp} (hr : WOp.runAll e w (.hidlString a :: .hidlString b :: post) = .ok w')
    (hpa : ∀ off v, WOp.overwriteInt32 off v ∉ post) (hps : ∀ m, WOp.memory m ∉ post) (hpp : ∀ op ∈ post, op.parent = none)
    (small : w'.bytes.length < 2 ^ 32) (sane : w'.mem.Sane (256 ^ word io))
    {dst : Mem} {objs : List KObj} {addr : Nat → Nat} {b' : Bytes}
    (t : Transfer io w'.mem w'.bytes w'.offsets objs addr dst b') :
    ∃ w1 w2 : Writer, WOp.runAll e { io := io, protocol := p, mem := m } (headerOps p s ++ [.hidlString a, .hidlString b]) = .ok w2 ∧
      WOp.runAll e w2 post = .ok w' ∧
      Parcel.readString ⟨io, b', w'.offsets, dst⟩ w.bytes.length = some (sa, w1.bytes.length) ∧
      Parcel.readString ⟨io, b', w'.offsets, dst⟩ w1.bytes.length = some (sb, w2.bytes.length) := by
  obtain ⟨w1, e1, hr1⟩ := runAll_split hr
  obtain ⟨w2, e2, hr2⟩ := runAll_split hr1
  have a1 := C80_hidl_string (e := e) (io := io) (p := p) (m := m) (pre := headerOps p s) (post := .hidlString b :: post)
    (w0 := w) (w1 := w1) (w' := w') (a := a) (s := sa) (addr := addr) (dst := dst) (b' := b')
    ⟨g1, e1, hr1, by
      intro off v hm
      rcases List.mem_append.mp hm with hm | hm
      · exact headerOps_append off v hm
      · rcases List.mem_cons.mp hm with hm | hm
        · cases hm
        · exact hpa off v hm, by
      intro m hm
      rcases List.mem_cons.mp hm with hm | hm
      · cases hm
      · exact hps m hm, by
      intro op hm
      rcases List.mem_cons.mp hm with rfl | hm
      · rfl
      · exact hpp op hm, small, sane, ⟨objs, t⟩⟩ ha (by rw [g4]; exact ma) hl
  have pre2 := runAll_append (b := [.hidlString a]) g1 (by simp only [WOp.runAll, e1]; rfl)
  have hm1 : w1.mem.cstr b = some sb := by
    obtain ⟨l, hml⟩ := runAll_mem (e := e) [WOp.hidlString a] (w := w) (w' := w1) (by simp only [WOp.runAll, e1]; rfl) (by simp)
    obtain ⟨l', hml'⟩ := runAll_mem (e := e) (WOp.hidlString b :: post) (w := w1) (w' := w') hr1 (by
      intro m hm
      rcases List.mem_cons.mp hm with hm | hm
      · cases hm
      · exact hps m hm)
    rw [hml]
    refine C33.cstr_extend ?_ (by rw [g4]; exact mb)
    have := sane.apart
    rw [hml'] at this
    rw [← hml]
    exact (List.pairwise_append.mp this).2.1
  have a2 := C80_hidl_string (e := e) (io := io) (p := p) (m := m) (pre := headerOps p s ++ [.hidlString a]) (post := post)
    (w0 := w1) (w1 := w2) (w' := w') (a := b) (s := sb) (addr := addr) (dst := dst) (b' := b')
    ⟨pre2, e2, hr2, by
      intro off v hm
      rcases List.mem_append.mp hm with hm | hm
      · simp only [List.mem_append, List.mem_singleton, reduceCtorEq, or_false] at hm
        exact headerOps_append off v hm
      · exact hpa off v hm, hps, hpp, small, sane, ⟨objs, t⟩⟩ hb hm1 hl'
  refine ⟨w1, w2, ?_, hr2, a1, a2⟩
  have := runAll_append (b := [.hidlString b]) pre2 (by simp only [WOp.runAll, e2]; rfl)
  simpa using this


end Gb.C85
