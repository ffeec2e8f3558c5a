import Verif.Model.Lists
import Verif.Props.C01
import Verif.Props.C14
import Verif.Props.C33
import Verif.Props.C60
/-
C52: the list of services is what the service manager says it is.
-/
set_option autoImplicit false

namespace Gb.C52

open Lists C01
open Client (Kind)

/-! ### One name at a time -/

/-- What the service manager says about the index: a name, or nothing (no reply, NULL, or something else
than a string). -/
def says (peer : Nat → Option Reader) (i : Nat) : Option Bytes :=
  match peer i with
  | none => none
  | some r => match r.readString16 with
    | .ok s _ => s
    | _ => none

/-- The replies aren't such that parsing those is undefined. -/
def Sane (peer : Nat → Option Reader) : Prop := ∀ i r, peer i = some r → ∀ k, r.readString16 ≠ .ub k

/-- The names for 0, 1, ... and nothing after that. -/
def Is (f : Nat → Option Bytes) (names : List Bytes) : Prop :=
  (∀ i, i < names.length → f i = names[i]?) ∧ f names.length = none

theorem is_unique {f : Nat → Option Bytes} {a b : List Bytes} (ha : Is f a) (hb : Is f b) : a = b := by
  have hl : a.length = b.length := by
    rcases Nat.lt_trichotomy a.length b.length with h | h | h
    · have := hb.1 _ h
      rw [ha.2, List.getElem?_eq_getElem h] at this
      cases this
    · exact h
    · have := ha.1 _ h
      rw [hb.2, List.getElem?_eq_getElem h] at this
      cases this
  apply List.ext_getElem? 
  intro i
  by_cases hi : i < a.length
  · rw [← ha.1 i hi, ← hb.1 i (hl ▸ hi)]
  · rw [List.getElem?_eq_none (by omega), List.getElem?_eq_none (by omega)]

theorem aidl_step {peer : Nat → Option Reader} (hp : Sane peer) (n : Nat) (l : List Bytes) (asked : List Nat) :
    aidl peer (n + 1) l asked = match says peer l.length with
      | none => .done (l, asked ++ [l.length])
      | some s => aidl peer n (l ++ [s]) (asked ++ [l.length]) := by
  rw [aidl]
  unfold says
  cases hpe : peer l.length with
  | none => rfl
  | some r =>
    simp only
    cases hr : r.readString16 with
    | ok s r' => cases s <;> rfl
    | fail r' => rfl
    | ub k => exact absurd hr (hp _ _ hpe k)

theorem aidl_spec {peer : Nat → Option Reader} (hp : Sane peer) : ∀ (n : Nat) (l : List Bytes) (asked : List Nat),
    (∀ i, i < l.length → says peer i = l[i]?) → asked = List.range l.length →
    (∀ names ids, aidl peer n l asked = .done (names, ids) → Is (says peer) names ∧ ids = List.range (names.length + 1)) ∧
    aidl peer n l asked ≠ .ub ∧
    (aidl peer n l asked = .running → ∀ i, i < l.length + n → says peer i ≠ none)
  | 0, l, asked, hl, ha => by
    refine ⟨?_, ?_, ?_⟩
    · intro _ _ h; cases h
    · intro h; cases h
    · intro _ i hi
      rw [hl i (by omega), List.getElem?_eq_getElem (by omega)]
      simp
  | n + 1, l, asked, hl, ha => by
    rw [aidl_step hp]
    cases hs : says peer l.length with
    | none =>
      refine ⟨?_, by simp, by simp⟩
      intro names ids h
      cases h
      exact ⟨⟨hl, hs⟩, by rw [List.range_succ, ha]⟩
    | some s =>
      have := aidl_spec hp n (l ++ [s]) (asked ++ [l.length]) (by
        intro i hi
        simp only [List.length_append, List.length_singleton] at hi
        by_cases h : i < l.length
        · rw [List.getElem?_append_left h]; exact hl i h
        · have : i = l.length := by omega
          subst this
          simp [hs]) (by simp [List.range_succ, ha])
      obtain ⟨h1, h2, h3⟩ := this
      refine ⟨h1, h2, ?_⟩
      intro hr i hi
      have := h3 hr
      simp only [List.length_append, List.length_singleton] at this
      exact this i (by omega)

/-- C52: the list consists of the names for the indexes 0, 1, ... up to the first missing one. Nothing else
is requested. -/
theorem C52_list {peer : Nat → Option Reader} (hp : Sane peer) {n : Nat} {names : List Bytes} {asked : List Nat}
    (h : aidl peer n [] [] = .done (names, asked)) :
    Is (says peer) names ∧ asked = List.range (names.length + 1) :=
  (aidl_spec hp n [] [] (by simp) rfl).1 names asked h

/-- C52: if there is one missing, then the function returns. -/
theorem C52_returns {peer : Nat → Option Reader} (hp : Sane peer) {names : List Bytes} (hn : Is (says peer) names)
    {n : Nat} (h : names.length < n) :
    aidl peer n [] [] = .done (names, List.range (names.length + 1)) := by
  obtain ⟨h1, h2, h3⟩ := aidl_spec hp n [] [] (by simp) rfl
  cases hr : aidl peer n [] [] with
  | done x =>
    obtain ⟨a, b⟩ := x
    obtain ⟨h4, h5⟩ := h1 a b hr
    have := is_unique hn h4
    subst this
    rw [h5]
  | running => exact absurd hn.2 (h3 hr _ (by simpa using h))
  | ub => exact absurd hr h2

/-- C52: otherwise it doesn't. -/
theorem C52_endless {peer : Nat → Option Reader} (hp : Sane peer) (hn : ∀ i, says peer i ≠ none) (n : Nat) :
    aidl peer n [] [] = .running := by
  obtain ⟨h1, h2, h3⟩ := aidl_spec hp n [] [] (by simp) rfl
  cases hr : aidl peer n [] [] with
  | done x =>
    obtain ⟨a, b⟩ := x
    exact absurd (h1 a b hr).1.2 (hn _)
  | running => rfl
  | ub => exact absurd hr h2

/-! ### Actual replies -/

/-- The reply consists of these values. -/
def Reply (r : Reader) (vs : List Value) : Prop :=
  (∀ v ∈ vs, v.Ok) ∧ ∃ (e : Env) (io : Io) (p pr : Protocol) (m : Mem) (w : Writer) (objs : List Kernel.KObj)
    (addr : Nat → Nat) (dst : Mem) (b' : Bytes),
    writeAll e { io := io, protocol := p, mem := m } vs = .ok w ∧
    Kernel.Transfer io w.mem w.bytes w.offsets objs addr dst b' ∧
    r = C33.reader io pr b' w.offsets

theorem reply_read {r : Reader} {vs : List Value} (h : Reply r vs) :
    ∃ r', readAll r (vs.map Value.ty) = .ok (vs.map Value.seen) r' := by
  obtain ⟨hv, e, io, p, pr, m, w, objs, addr, dst, b', h1, h2, rfl⟩ := h
  have := C01_received (e := e) (io := io) (p := p) (m := m) (pre := []) (post := []) hv rfl h1 rfl (by simp) h2 pr
  exact ⟨_, this⟩

theorem read_string16 {r r' : Reader} {s : Option Bytes} (h : r.readNullableString16 = .ok s r') :
    r.readString16 = .ok s r' := by
  unfold Reader.readString16
  rw [h]

theorem cons_read {r r' : Reader} {t : Ty} {ts : List Ty} {x : Seen} {xs : List Seen}
    (h : readAll r (t :: ts) = .ok (x :: xs) r') : ∃ r1, t.read r = .ok x r1 ∧ readAll r1 ts = .ok xs r' := by
  simp only [readAll] at h
  cases ht : t.read r with
  | ok y r1 =>
    rw [ht] at h
    simp only [Res.bind] at h
    cases hr : readAll r1 ts with
    | ok ys r2 =>
      rw [hr] at h
      simp only [Res.map] at h
      cases h
      exact ⟨r1, rfl, hr⟩
    | fail r2 => rw [hr] at h; cases h
    | ub k => rw [hr] at h; cases h
  | fail r1 => rw [ht] at h; cases h
  | ub k => rw [ht] at h; cases h

theorem map_read {α : Type} {x : Res α} {f : α → Seen} {y : Seen} {r : Reader} (h : x.map f = .ok y r) :
    ∃ a, x = .ok a r ∧ f a = y := by
  cases x with
  | ok a r' => cases h; exact ⟨a, rfl, rfl⟩
  | fail r' => cases h
  | ub k => cases h

theorem string_says {r : Reader} {s : Option (List Char)} {vs : List Value} (h : Reply r (.string16 s :: vs)) :
    ∃ r', r.readString16 = .ok (s.map utf8Text) r' := by
  obtain ⟨r', hr⟩ := reply_read h
  obtain ⟨r1, h1, _⟩ := cons_read hr
  obtain ⟨a, h2, h3⟩ := map_read h1
  cases h3
  exact ⟨r1, read_string16 h2⟩

/-- C52, aidl and aidl2: if the service manager replies with a name for each of its services and with
NULL after that (or doesn't reply), the list consists of the names of the services. -/
theorem C52_services {peer : Nat → Option Reader} {services : List (List Char)}
    (hs : ∀ i (h : i < services.length), ∃ r vs, peer i = some r ∧ Reply r (.string16 (some services[i]) :: vs))
    (he : peer services.length = none ∨
      ∃ r vs, peer services.length = some r ∧ Reply r (.string16 none :: vs)) {n : Nat} (hn : services.length < n) :
    aidl peer n [] [] = .done (services.map utf8Text, List.range (services.length + 1)) := by
  let peer' : Nat → Option Reader := fun i => if i ≤ services.length then peer i else none
  have hsame : ∀ (k : Nat) (l : List Bytes) (asked : List Nat) (hl : l.length ≤ services.length),
      (∀ i, l.length ≤ i → i < services.length → ∃ r vs, peer i = some r ∧ Reply r (.string16 (some (services[i]?.getD [])) :: vs)) →
      aidl peer k l asked = aidl peer' k l asked := by
    intro k
    induction k with
    | zero => intros; rfl
    | succ k ih =>
      intro l asked hl hall
      unfold aidl
      have hpe : peer' l.length = peer l.length := by simp only [peer']; rw [if_pos hl]
      rw [hpe]
      by_cases hlt : l.length < services.length
      · obtain ⟨r, vs, h1, h2⟩ := hall _ (Nat.le_refl _) hlt
        obtain ⟨r', h3⟩ := string_says h2
        simp only [h1, h3, Option.map_some]
        exact ih _ _ (by simp; omega) (fun i hi h => hall i (by simp at hi; omega) h)
      · have heq : l.length = services.length := by omega
        rcases he with h | ⟨r, vs, h1, h2⟩
        · rw [heq, h]
        · obtain ⟨r', h3⟩ := string_says h2
          simp only [heq, h1, h3, Option.map_none]
  have hall : ∀ i, i < services.length → ∃ r vs, peer i = some r ∧ Reply r (.string16 (some (services[i]?.getD [])) :: vs) := by
    intro i hi
    obtain ⟨r, vs, h1, h2⟩ := hs i hi
    refine ⟨r, vs, h1, ?_⟩
    rw [List.getElem?_eq_getElem hi]
    exact h2
  rw [hsame n [] [] (by simp) (fun i _ h => hall i h)]
  have hsane : Sane peer' := by
    intro i r hr k hk
    simp only [peer'] at hr
    split at hr
    · rename_i hi
      by_cases hlt : i < services.length
      · obtain ⟨r2, vs, h1, h2⟩ := hall i hlt
        obtain ⟨r', h3⟩ := string_says h2
        rw [hr] at h1
        cases h1
        rw [hk] at h3
        cases h3
      · have : i = services.length := by omega
        subst this
        rcases he with h | ⟨r2, vs, h1, h2⟩
        · rw [hr] at h; cases h
        · obtain ⟨r', h3⟩ := string_says h2
          rw [hr] at h1
          cases h1
          rw [hk] at h3
          cases h3
    · cases hr
  have his : Is (says peer') (services.map utf8Text) := by
    refine ⟨?_, ?_⟩
    · intro i hi
      simp only [List.length_map] at hi
      obtain ⟨r2, vs, h1, h2⟩ := hall i hi
      obtain ⟨r', h3⟩ := string_says h2
      simp only [says, peer', if_pos (Nat.le_of_lt hi), h1, h3]
      simp [hi]
    · simp only [List.length_map]
      rcases he with h | ⟨r2, vs, h1, h2⟩
      · simp [says, peer', h]
      · obtain ⟨r', h3⟩ := string_says h2
        simp [says, peer', h1, h3]
  have := C52_returns hsane his (n := n) (by simpa using hn)
  simpa using this

/-! ### All at once -/

theorem strings_read {r r' : Reader} {ns : List (Option (List Char))}
    (h : readAll r ((ns.map Value.string16).map Value.ty) = .ok ((ns.map Value.string16).map Value.seen) r') :
    strings ns.length r = .ok (ns.map (·.map utf8Text)) r' := by
  induction ns generalizing r with
  | nil => cases h; rfl
  | cons s ns ih =>
    obtain ⟨r1, h1, h2⟩ := cons_read h
    obtain ⟨a, h3, h4⟩ := map_read h1
    cases h4
    have := ih h2
    simp only [strings, List.length_cons, read_string16 h3, Res.bind, this, Res.map, List.map_cons]

theorem visible_all (l : List Bytes) : visible (l.map some) = l := by
  induction l with
  | nil => rfl
  | cons a l ih => simp [visible, ih]

/-- C52, aidl3 and aidl4: the list consists of the strings up to the first NULL one. (It should be all
of them, see `C52_fails_null`.) -/
theorem C52_aidl3_partial {r : Reader} {status : UInt32} {names : List (Option (List Char))}
    (hn : names.length < 2 ^ 31)
    (h : Reply r (.int32 status :: .int32 (UInt32.ofNat names.length) :: names.map .string16)) :
    ∃ l, aidl3 (some r) = .done l ∧ visible l = visible (names.map (·.map utf8Text)) := by
  obtain ⟨r', hr⟩ := reply_read h
  obtain ⟨r1, h1, hr⟩ := cons_read hr
  obtain ⟨r2, h2, hr⟩ := cons_read hr
  obtain ⟨a, h3, h4⟩ := map_read h1
  cases h4
  obtain ⟨b, h5, h6⟩ := map_read h2
  have hb : b = names.length := by
    cases h6
    simp only [UInt32.toNat_ofNat']
    omega
  subst hb
  refine ⟨names.map (·.map utf8Text), ?_, rfl⟩
  simp only [aidl3, h3, h5]
  rw [if_neg (by omega), strings_read hr]

/-- C52, aidl3 and aidl4: if the number of names is negative, the list is empty. Nothing is allocated. -/
theorem C52_aidl3_negative {r : Reader} {status count : UInt32} {vs : List Value} (hc : 2 ^ 31 ≤ count.toNat)
    (h : Reply r (.int32 status :: .int32 count :: vs)) : aidl3 (some r) = .done [] := by
  obtain ⟨r', hr⟩ := reply_read h
  obtain ⟨r1, h1, hr⟩ := cons_read hr
  obtain ⟨r2, h2, hr⟩ := cons_read hr
  obtain ⟨a, h3, h4⟩ := map_read h1
  cases h4
  obtain ⟨b, h5, h6⟩ := map_read h2
  cases h6
  simp only [aidl3, h3, h5]
  rw [if_pos hc]

/-- C52, aidl3 and aidl4: if there are no NULLs, the list consists of the names of the services. -/
theorem C52_aidl3_services_partial {r : Reader} {status : UInt32} {services : List (List Char)}
    (hn : services.length < 2 ^ 31)
    (h : Reply r (.int32 status :: .int32 (UInt32.ofNat services.length) :: services.map (.string16 ∘ some))) :
    ∃ l, aidl3 (some r) = .done l ∧ visible l = services.map utf8Text := by
  have := C52_aidl3_partial (r := r) (status := status) (names := services.map some) (by simpa using hn)
    (by simpa [Function.comp_def] using h)
  obtain ⟨l, h1, h2⟩ := this
  refine ⟨l, h1, ?_⟩
  rw [h2]
  have : (services.map some).map (·.map utf8Text) = (services.map utf8Text).map some := by simp [Function.comp_def]
  rw [this, visible_all]

/-- C52, hidl: the list consists of the strings in the vector. -/
theorem C52_hidl {e : Env} {io : Io} {p : Protocol} {m : Mem} {post : List WOp}
    {w0 w1 w' : Writer} {addr : Nat → Nat} {dst : Mem} {b' : Bytes} {strv : List Nat}
    {strs : List Bytes} {status : UInt32}
    (h : Sent e io p m [.int32 status] (.hidlStringVec strv) post w0 w1 w' addr dst b')
    (h0 : 0 ∉ strv) (hs : strv.map w0.mem.cstr = strs.map some)
    (hn : 16 * strs.length < 2 ^ 32) (hl : ∀ s ∈ strs, s.length + 1 < 2 ^ 32) (pr : Protocol) :
    hidl dst (some (C33.reader io pr b' w'.offsets)) = .done (some strs) := by
  have h14 := C14.C14_round_trip h h0 hs hn hl pr
  obtain ⟨objs, t⟩ := h.transfer
  have hvs : ∀ v ∈ [C01.Value.int32 status], v.Ok := by
    intro v hv; simp at hv; subst hv; trivial
  have hb := h.before
  simp only [WOp.runAll, WOp.run, bind, Except.bind] at hb
  have hw : C01.writeAll e { io := io, protocol := p, mem := m } [.int32 status] = .ok w0 := by
    simp only [C01.writeAll, Value.write, bind, Except.bind]
    split at hb
    · cases hb
    · exact hb
  have ha : WOp.runAll e w0 (.hidlStringVec strv :: post) = .ok w' := by
    simp only [WOp.runAll, bind, Except.bind, h.call]
    exact h.after
  have h1 := C01_received (e := e) (io := io) (p := p) (m := m) (pre := []) (post := .hidlStringVec strv :: post)
    hvs rfl hw ha (by
      intro off v hc
      simp only [List.nil_append, List.mem_cons, reduceCtorEq, false_or] at hc
      exact h.append off v (List.mem_append_right _ hc)) t pr
  have h2 := C33.one_int32 h1
  have h3 : Reader.since io pr b' w'.offsets 0 0 = C33.reader io pr b' w'.offsets := rfl
  simp only [hidl]
  have h4 : (C33.reader io pr b' w'.offsets).readUInt32 =
      .ok status.toNat (Reader.since io pr b' w'.offsets w0.bytes.length w0.offsets.length) := h2
  rw [h4]
  simp only [h14]

/-- Without a reply there's no list; one which has no objects in it isn't a list for hwservicemanager. -/
theorem C52_no_reply (m : Mem) : aidl3 none = .done [] ∧ hidl m none = .done none := ⟨rfl, rfl⟩

theorem C52_no_list (m : Mem) (io : Io) (pr : Protocol) (b : Bytes) :
    hidl m (some (C33.reader io pr b [])) = .done none := by
  have key : ∀ r : Reader, r.objects = [] → r.readHidlStringVec m = .ok none r := by
    intro r hr
    simp [Reader.readHidlStringVec, Reader.readBufferObject, Reader.canReadObject, hr]
  by_cases h : 4 ≤ b.length
  · have h1 : (C33.reader io pr b []).readUInt32 =
        .ok (leVal (b.take 4)) ((C33.reader io pr b []).advance 4) := by
      simp [C33.reader, Reader.init, Reader.readUInt32, Reader.readWord, Reader.canRead, Reader.remaining,
        Reader.deref, slice, h]
    simp only [hidl, h1]
    rw [key _ (by rfl)]
  · have h1 : (C33.reader io pr b []).readUInt32 = .fail (C33.reader io pr b []) := by
      simp [C33.reader, Reader.init, Reader.readUInt32, Reader.readWord, Reader.canRead, Reader.remaining, h]
    simp only [hidl, h1]
    rw [key _ (by rfl)]

/-! ### The question -/

/-- What the method takes: nothing in case of HIDL, dumpPriority (all of them) in case of IServiceManager.aidl, and the
index before that. -/
def asks (i : Nat) : Kind → List Value
  | .aidl => [.int32 (UInt32.ofNat i)]
  | .aidl2 => [.int32 (UInt32.ofNat i), .int32 0xf]
  | .aidl3 | .aidl4 => [.int32 0xf]
  | .hidl => []

/-- As the calls which write that. -/
def asked (i : Nat) (k : Kind) : List WOp := (asks i k).map fun
  | .int32 v => .int32 v
  | _ => .bytes []

theorem ops_asked (i : Nat) (k : Kind) : Services.listOps i k = asked i k := by cases k <;> rfl

theorem asks_ok (i : Nat) (k : Kind) : ∀ v ∈ asks i k, v.Ok := by
  cases k <;> simp [asks, Value.Ok]

theorem asks_ints (i : Nat) (k : Kind) : ∀ x ∈ (asks i k).map Value.ty, x = C01.Ty.int32 := by
  cases k <;> simp [asks, Value.ty]

theorem asked_append {i : Nat} {k : Kind} : ∀ off v, WOp.overwriteInt32 off v ∉ asked i k := by
  intro off v
  cases k <;> simp [asked, asks]

theorem asked_run {e : Env} {w : Writer} {i : Nat} {k : Kind} :
    WOp.runAll e w (asked i k) = C01.writeAll e w (asks i k) := by
  cases k <;> simp [asked, asks, WOp.runAll, C01.writeAll, WOp.run, Value.write]

/-- The code which is used is that of the method. -/
theorem C52_code (kind : Kind) : Services.listCode kind = Codes.code kind .list := by cases kind <;> decide

/-- The manager which receives the request (with the library's own functions) finds the right interface, and what the
method takes. -/
theorem C52_query {e : Env} {q : Client.Qsort} {io : Io} {p : Protocol} {m : Mem} {s : List Char} (hs : C18.NameOk s)
    {kind : Kind} {i : Nat} {rs : List Client.Range} (h : Client.new e q io p m (some (utf8Text s)) = .ok rs) {w w' : Writer}
    (hw : Client.firstRequest io p m rs = .ok w) (hr : WOp.runAll e w (Services.listOps i kind) = .ok w')
    {src dst : Mem} {objs : List Kernel.KObj} {addr : Nat → Nat} {b' : Bytes}
    (t : Kernel.Transfer io src w'.bytes w'.offsets objs addr dst b') :
    ∃ rq r1, RemoteReq.setData io p (Codes.code kind .list) b' w'.offsets = .ok rq ∧ rq.iface = some (utf8Text s) ∧
      C01.readAll rq.initReader ((asks i kind).map Value.ty) = .ok ((asks i kind).map Value.seen) r1 ∧ C33.AtEnd r1 := by
  obtain ⟨g1, g2, g3, g4⟩ := C59.request hs h hw
  rw [ops_asked] at hr
  have hc : p = .hidl ∨ Codes.code kind .list ≤ 0x5f000000 := by
    right; cases kind <;> decide
  obtain ⟨rq, i1, i2, i3⟩ := C59.incoming hs g2 g1 asked_append hr t hc
  have a1 := C01.C01_received (e := e) (p := p) (m := m) (pre := C59.headerOps p s) (vs := asks i kind)
    (post := []) (w0 := w) (w1 := w') (asks_ok i kind) g1 (by rw [← asked_run]; exact hr) rfl (by
      intro off v hm
      rw [List.append_nil] at hm
      exact C59.headerOps_append off v hm) t p
  have hw0 : w.offsets.length = 0 := by rw [g3]; rfl
  rw [hw0] at a1
  refine ⟨rq, (Reader.since io p b' w'.offsets w'.bytes.length w'.offsets.length).startAt w.bytes.length, i1, i2, ?_, ?_⟩
  · rw [i3, C59.readAll_startAt _ _ (asks_ints i kind)]
    exact Reader.startAt_ok a1 _
  · obtain ⟨z1, z2, z3⟩ := C33.since_end io p (b := b') (w := w') t.size
    exact ⟨z1, z2, z3⟩

/-! ### The question and the answer -/

/-- C52: gbinder_servicemanager_list_sync with a service manager of the old kind, which knows what it's asked for. -/
theorem C52_paged {kind : Kind} (hk : kind = .aidl ∨ kind = .aidl2) {m : Mem} {peer : List WOp → Option Reader}
    {services : List (List Char)}
    (hs : ∀ i (h : i < services.length), ∃ r vs, peer (asked i kind) = some r ∧
      Reply r (.string16 (some services[i]) :: vs))
    (he : peer (asked services.length kind) = none ∨
      ∃ r vs, peer (asked services.length kind) = some r ∧ Reply r (.string16 none :: vs))
    {n : Nat} (hn : services.length < n) :
    Services.list kind m peer n = .done (some (services.map utf8Text)) := by
  have key := C52_services (peer := fun i => peer (Services.listOps i kind)) (services := services)
    (by intro i h; simp only [ops_asked]; exact hs i h) (by simp only [ops_asked]; exact he) hn
  rcases hk with rfl | rfl <;> simp only [Services.list, key]

/-- C52: with one which replies with a list. -/
theorem C52_listed_partial {kind : Kind} (hk : kind = .aidl3 ∨ kind = .aidl4) {m : Mem}
    {peer : List WOp → Option Reader} {services : List (List Char)} (hn : services.length < 2 ^ 31) {r : Reader}
    {status : UInt32} (hp : peer (asked 0 kind) = some r)
    (h : Reply r (.int32 status :: .int32 (UInt32.ofNat services.length) :: services.map (.string16 ∘ some)))
    (n : Nat) : Services.list kind m peer n = .done (some (services.map utf8Text)) := by
  obtain ⟨l, h1, h2⟩ := C52_aidl3_services_partial hn h
  rcases hk with rfl | rfl <;> simp only [Services.list, ops_asked, hp, h1, h2]

/-! ### Examples -/

theorem plain_reply (e : Env) (io : Io) (p pr : Protocol) {vs : List Value} (hv : ∀ v ∈ vs, v.Ok) {m : Mem}
    (hm : m.Sane (256 ^ Kernel.word io)) :
    Reply (C33.reader io pr (vs.flatMap Value.enc) []) vs := by
  refine ⟨hv, e, io, p, pr, m, _, [], fun _ => 0, m, _, writeAll_eq e _ vs hv, ?_, rfl⟩
  refine ⟨rfl, ⟨_, rfl⟩, rfl, fun _ _ _ => rfl, ?_, hm, ?_, ?_⟩
  · intro i o a len par h; cases h
  · intro i a len par h; cases h
  · intro i a len par h; cases h

theorem nil_sane (n : Nat) : Mem.Sane n [] := ⟨by simp [Mem.Apart], by simp, by simp⟩

theorem int32_moves {r r1 : Reader} {a : Nat} (h : r.readUInt32 = .ok a r1) : r1 = r.advance 4 := by
  simp only [Reader.readUInt32, Reader.readWord, Reader.deref] at h
  split at h
  · split at h
    · cases h; rfl
    · cases h
  · cases h

theorem strings_end {r : Reader} (h : ¬ r.pos + 4 ≤ r.fin) (n : Nat) :
    strings n r = .ok (List.replicate n none) r := by
  induction n with
  | zero => rfl
  | succ n ih =>
    have h1 : r.readString16 = .ok none r := by
      simp [Reader.readString16, Reader.readNullableString16, Reader.readNullableUtf16, h, Res.map, Res.bind]
    simp only [strings, h1, Res.bind, ih, Res.map, List.replicate_succ]

/-- Nobody checks that there can be so many names in the reply: no matter how long the list is going to be, there's a
reply of 8 bytes which makes it that long. -/
theorem C52_fails_size (n : Nat) (hn : n < 2 ^ 31) : ∃ r, Reply r [.int32 0, .int32 (UInt32.ofNat n)] ∧ r.buf.length = 8 ∧
    aidl3 (some r) = .done (List.replicate n none) := by
  have hok : ∀ v ∈ [Value.int32 0, .int32 (UInt32.ofNat n)], v.Ok := by simp [Value.Ok]
  have hr := plain_reply Demo.env .io64 .aidl3 .aidl3 hok (nil_sane _)
  refine ⟨_, hr, by simp [C33.reader, Reader.init, Value.enc], ?_⟩
  obtain ⟨r', h⟩ := reply_read hr
  obtain ⟨r1, h1, h⟩ := cons_read h
  obtain ⟨r2, h2, h⟩ := cons_read h
  obtain ⟨a, h3, h4⟩ := map_read h1
  cases h4
  obtain ⟨b, h5, h6⟩ := map_read h2
  have hb : b = n := by
    cases h6
    simp only [UInt32.toNat_ofNat']
    omega
  subst hb
  simp only [aidl3, h3, h5]
  rw [if_neg (by omega)]
  have e1 := int32_moves h3
  have e2 := int32_moves h5
  rw [strings_end (by rw [e2, e1]; simp [Reader.advance, C33.reader, Reader.init, Value.enc])]

/-- C52 fails with aidl3: the names after NULL aren't there. -/
theorem C52_fails_null : ∃ r, Reply r [.int32 0, .int32 3, .string16 (some ['A']), .string16 none, .string16 (some ['B'])] ∧
    ∃ l, aidl3 (some r) = .done l ∧ visible l = [[0x41]] := by
  have hok : ∀ v ∈ [Value.int32 0, .int32 3, .string16 (some ['A']), .string16 none, .string16 (some ['B'])], v.Ok := by
    simp [Value.Ok]
    decide
  have hr := plain_reply Demo.env .io64 .aidl3 .aidl3 hok (nil_sane _)
  refine ⟨_, hr, ?_⟩
  obtain ⟨l, h1, h2⟩ := C52_aidl3_partial (names := [some ['A'], none, some ['B']]) (by decide) hr
  exact ⟨l, h1, by rw [h2]; decide +kernel⟩

/-- A service manager which knows about two services, and an error instead of the third one. -/
example : ∃ peer : Nat → Option Reader,
    (∀ i (h : i < [['a'], ['b', 'c']].length), ∃ r vs, peer i = some r ∧
      Reply r (.string16 (some [['a'], ['b', 'c']][i]) :: vs)) ∧
    peer 2 = none ∧
    aidl peer 3 [] [] = .done ([[0x61], [0x62, 0x63]], [0, 1, 2]) := by
  have hok : ∀ s ∈ [['a'], ['b', 'c']], ∀ v ∈ [Value.string16 (some s)], v.Ok := by
    simp [Value.Ok]
    decide
  let peer : Nat → Option Reader := fun i => ([['a'], ['b', 'c']][i]?).map fun s =>
    C33.reader .io32 .aidl ([Value.string16 (some s)].flatMap Value.enc) []
  have hs : ∀ i (h : i < [['a'], ['b', 'c']].length), ∃ r vs, peer i = some r ∧
      Reply r (.string16 (some [['a'], ['b', 'c']][i]) :: vs) := by
    intro i h
    refine ⟨_, [], ?_, plain_reply Demo.env .io32 .aidl .aidl (hok _ (List.getElem_mem h)) (nil_sane _)⟩
    simp only [peer]
    rw [List.getElem?_eq_getElem h]
    rfl
  refine ⟨peer, hs, rfl, ?_⟩
  rw [C52_services hs (.inl rfl) (by decide)]
  have : [['a'], ['b', 'c']].map utf8Text = [[0x61], [0x62, 0x63]] := by decide +kernel
  rw [this]
  rfl

/-- A reply in the form expected by aidl3. -/
example : ∃ r l, Reply r (.int32 0 :: .int32 (UInt32.ofNat 2) :: [['a'], ['b', 'c']].map (.string16 ∘ some)) ∧
    aidl3 (some r) = .done l ∧ visible l = [[0x61], [0x62, 0x63]] := by
  have hok : ∀ v ∈ (.int32 0 :: .int32 (UInt32.ofNat 2) :: [['a'], ['b', 'c']].map (Value.string16 ∘ some)), v.Ok := by
    simp [Value.Ok]
    decide
  have hr := plain_reply Demo.env .io64 .aidl3 .aidl3 hok (nil_sane _)
  obtain ⟨l, h1, h2⟩ := C52_aidl3_services_partial (services := [['a'], ['b', 'c']]) (by decide) hr
  exact ⟨_, l, hr, h1, by rw [h2]; decide +kernel⟩

/-- The number is -1. -/
example : ∃ r, Reply r [.int32 0, .int32 0xffffffff] ∧ aidl3 (some r) = .done [] := by
  have hok : ∀ v ∈ [Value.int32 0, .int32 0xffffffff], v.Ok := by simp [Value.Ok]
  have hr := plain_reply Demo.env .io64 .aidl3 .aidl3 hok (nil_sane _)
  exact ⟨_, hr, C52_aidl3_negative (by decide) hr⟩

/-- Questions of all kinds, the fifth index. -/
def check (io : Io) (p : Protocol) (s : List Char) (kind : Kind) : Bool :=
  match Client.new Demo.env C45.qsort io p [] (some (utf8Text s)) with
  | .error _ => false
  | .ok rs => match Client.firstRequest io p [] rs with
    | .error _ => false
    | .ok w => match WOp.runAll Demo.env w (Services.listOps 5 kind) with
      | .error _ => false
      | .ok w' => w'.io == io && Kernel.demoBoth w'

theorem check_sound {io : Io} {p : Protocol} {s : List Char} {kind : Kind} (h : check io p s kind = true) :
    ∃ rs w w' dst b', Client.new Demo.env C45.qsort io p [] (some (utf8Text s)) = .ok rs ∧
      Client.firstRequest io p [] rs = .ok w ∧ WOp.runAll Demo.env w (Services.listOps 5 kind) = .ok w' ∧
      Kernel.Transfer io w'.mem w'.bytes w'.offsets (Kernel.demoObjs w') Kernel.demoAddr dst b' := by
  unfold check at h
  split at h
  · cases h
  rename_i rs h1
  split at h
  · cases h
  rename_i w h2
  split at h
  · cases h
  rename_i w' h3
  simp only [Bool.and_eq_true, beq_iff_eq] at h
  obtain ⟨dst, b', b1, _⟩ := Kernel.demoBoth_sound h.2
  rw [h.1] at b1
  exact ⟨rs, w, w', dst, b', h1, h2, h3, b1⟩

example : ∀ kind, check .io64 (if kind = .hidl then .hidl else .aidl2) ['a', '.', 'M'] kind = true := by
  intro kind
  cases kind <;> decide +kernel

/-- And one from hwservicemanager. -/
example : ∃ w0 w1 w' dst b', Sent Demo.env .io64 .hidl Demo.mem [.int32 0] (.hidlStringVec [16, 17]) []
    w0 w1 w' Kernel.demoAddr dst b' := Kernel.demoSent_sound (by decide +kernel)

end Gb.C52
