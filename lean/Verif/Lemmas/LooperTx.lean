import Verif.Spec.LooperTx
/-
Helper lemmas about transactions passed to the main thread.
-/
set_option autoImplicit false

namespace Gb.LooperTx

/-- What the looper does about a particular transaction. -/
inductive Lp
  | out
  | wait
  | wait2
  | got (ok : Bool)
  | destroy
  | reply
  deriving DecidableEq

def lp (p : Phase) (t : Nat) : Lp :=
  match p with
  | .wait u => if u = t then .wait else .out
  | .wait2 u => if u = t then .wait2 else .out
  | .got u ok => if u = t then .got ok else .out
  | .destroy u _ => if u = t then .destroy else .out
  | .reply u _ => if u = t then .reply else .out
  | _ => .out

/-- References from the looper. -/
def Lp.tx : Lp → Nat
  | .wait | .wait2 | .got _ => 1
  | _ => 0

def Lp.req : Lp → Nat
  | .out => 0
  | _ => 1

def Cb.ref : Cb → Nat
  | .done => 0
  | _ => 1

def reqTx (r : Option Req) : Bool := (r.map (·.tx)).getD false
def hasReq (x : Option Tx) : Bool := (x.map (·.hasReq)).getD false

/-- After the callback. -/
def Fin (c : Call) (tx : Tx) : Prop :=
  (tx.hasReq = true ∧ tx.st = .complete ∧ reqTx c.req = false ∧ c.cmp = false) ∨
  (tx.hasReq = false ∧ tx.st = .blocked ∧ reqTx c.req = true ∧ c.cmp = false) ∨
  (tx.hasReq = false ∧ tx.st = .complete ∧ reqTx c.req = c.cmp)

def Stage (l : Lp) (c : Call) : Prop :=
  match c.cb with
  | .pending => ∃ tx, c.tx = some tx ∧ tx.st = .scheduled ∧ tx.hasReq = true ∧ reqTx c.req = false ∧
      c.cmp = false ∧ c.held = 0 ∧ l ≠ .out ∧ l ≠ .reply
  | .running => ∃ tx, c.tx = some tx ∧ tx.hasReq = true ∧ (tx.st = .processing ∨
      (tx.st = .blocking ∧ reqTx c.req = true ∧ c.cmp = false) ∨ tx.st = .processed)
  | .dropReq => ∃ tx, c.tx = some tx ∧ tx.hasReq = true ∧ tx.st = .blocked ∧ reqTx c.req = true ∧ c.cmp = false
  | .dropTx => ∃ tx, c.tx = some tx ∧ tx.hasReq = true ∧ tx.st = .complete ∧ c.cmp = false
  | .write true => ∃ tx, c.tx = some tx ∧ tx.hasReq = true ∧ tx.st = .complete ∧ reqTx c.req = false ∧ c.cmp = false
  | .write false => ∃ tx, c.tx = some tx ∧ tx.hasReq = false ∧
      ((tx.st = .blocked ∧ reqTx c.req = true ∧ c.cmp = false) ∨
       (tx.st = .complete ∧ reqTx c.req = c.cmp ∧ l = .out))
  | .fin => ∃ tx, c.tx = some tx ∧ Fin c tx
  | .done => ∀ tx, c.tx = some tx → Fin c tx

structure Ok (l : Lp) (c : Call) : Prop where
  tx0 : c.tx = none → l.tx = 0 ∧ c.cb = .done ∧ reqTx c.req = false
  tx1 : ∀ tx, c.tx = some tx → tx.refs = l.tx + c.cb.ref + (reqTx c.req).toNat ∧ 0 < tx.refs
  req0 : c.req = none → l = .out ∧ hasReq c.tx = false ∧ c.held = 0
  req1 : ∀ r, c.req = some r → r.refs = l.req + (hasReq c.tx).toNat + c.held ∧ (0 < r.refs ∨ c.cmp = true)
  cmp : c.cmp = true → reqTx c.req = true ∧
    (0 < c.held ∨ c.cb = .running ∨ c.req.map (·.refs) = some 0)
  stage : Stage l c

/-- What a function does to the pipe. -/
def Sum (c c' : Call) (e : List Eff) : Prop :=
  (e = [] ∧ c'.tx.map (·.pipe) = c.tx.map (·.pipe)) ∨
  (e = [.close] ∧ c'.tx = none ∧ c.tx ≠ none) ∨
  (∃ b, e = [.write b] ∧ c'.tx.map (·.pipe) = c.tx.map (·.pipe) ∧ c.tx ≠ none)

/-- What has been written to the pipe so far. -/
def written (c : Call) : List Bool :=
  match c.cb, c.tx with
  | .fin, some tx | .done, some tx =>
    if tx.hasReq then [true] else if tx.st = .blocked then [false] else [false, true]
  | _, _ => []

/-- What has been done so far. -/
def works (c : Call) : Work :=
  match c.tx with
  | none => .new
  | some tx =>
    match c.cb with
    | .pending => .scheduled
    | .running =>
      match tx.st with
      | .blocking => .blocking
      | .processed => .processed tx.val
      | _ => if reqTx c.req = true ∧ c.cmp = false then .handling else .detached
    | .dropReq | .write false => .blocked
    | .dropTx | .write true => .ready tx.val
    | .fin | .done => if tx.st = .blocked then .blocked else .ready tx.val

def writes : List Eff → List Bool
  | [] => []
  | .write b :: e => b :: writes e
  | .close :: e => writes e

/-- The looper gets what it's supposed to get. -/
structure Good (l : Lp) (c : Call) (b : List Bool) (w : Work) : Prop where
  wait : l = .wait → b = written c
  wait2 : l = .wait2 → false :: b = written c
  got : l = .got true → b = [] ∧ (c.cb = .fin ∨ c.cb = .done) ∧ ∃ tx, c.tx = some tx ∧ tx.st = .complete
  work : l = .wait ∨ l = .wait2 ∨ l = .got true → w = works c

theorem ok_handle {l : Lp} {c : Call} (h : Ok l c) (hp : c.cb = .pending) :
    ∃ c' e, c.handle = some (c', e) ∧ Ok l c' ∧ Sum c c' e ∧
      ∀ t b w, Good l c b w → Good l c' (b ++ writes e) (w.next t (.handle t)) := by
  obtain ⟨tx, req, cb, cmp, held⟩ := c
  obtain ⟨h1, h2, h3, h4, h5, h6⟩ := h
  simp only at hp
  subst hp
  simp only [Stage] at h6
  obtain ⟨tx, rfl, hst, hr, hrt, hc, hh, hl⟩ := h6
  simp only at h1 h2 h3 h4 h5 hr hst hrt hc hh
  cases req with
  | none => simp [hasReq, hr] at h3
  | some r =>
    refine ⟨_, _, rfl, ⟨?_, ?_, ?_, ?_, ?_, ?_⟩, .inl ⟨rfl, rfl⟩, ?_⟩
    rotate_right
    · rintro t b w ⟨g1, g2, g3, g4⟩
      refine ⟨fun hx => ?_, fun hx => ?_, fun hx => ?_, fun hx => ?_⟩
      · have := g1 hx; simpa [written, writes] using this
      · have := g2 hx; simp [written] at this
      · have := (g3 hx).2.1; simp at this
      · rw [g4 hx]; simp [works, Work.next, reqTx, hc]
    all_goals simp_all [hasReq, reqTx, Cb.ref, Stage]
    all_goals omega

theorem ok_block {l : Lp} {c : Call} (h : Ok l c) (hp : c.cb = .running ∨ c.cb = .done ∧ 0 < c.held)
    (hcmp : c.cmp = false) :
    ∃ c' e, c.block = some (c', e) ∧ Ok l c' ∧ Sum c c' e ∧
      ∀ t b w, Good l c b w → Good l c' (b ++ writes e) (w.next t (.block t)) := by
  obtain ⟨tx, req, cb, cmp, held⟩ := c
  obtain ⟨h1, h2, h3, h4, h5, h6⟩ := h
  simp only at hcmp
  subst hcmp
  cases req with
  | none => simp at hp h3 h6; rcases hp with rfl | hp
            · obtain ⟨tx, rfl, hr, _⟩ := h6; simp [hasReq, hr] at h3
            · omega
  | some r =>
    simp only [Call.block]
    cases hrt : r.tx with
    | false =>
      simp only [Bool.false_eq_true, if_false]
      refine ⟨_, _, rfl, ⟨h1, h2, h3, h4, h5, h6⟩, .inl ⟨rfl, rfl⟩, ?_⟩
      rintro t b w ⟨g1, g2, g3, g4⟩
      refine ⟨by simpa [writes] using g1, by simpa [writes] using g2, by simpa [writes] using g3, ?_⟩
      intro hl
      have hw := g4 hl
      rw [hw]
      rcases hp with hp | hp
      · simp only at hp; subst hp
        obtain ⟨tx, rfl, hr, hst⟩ := h6
        rcases hst with hst | hst | hst <;> simp_all [works, reqTx, Work.next]
      · obtain ⟨hp, hh⟩ := hp; simp only at hp; subst hp
        cases tx with
        | none => simp [works, Work.next]
        | some tx => simp only [works]; split <;> rfl
    | true =>
      simp only [if_true]
      cases tx with
      | none => simp [reqTx, hrt] at h1
      | some tx =>
        simp only
        split
        · rename_i hst
          have hp : cb = .running := by
            rcases hp with hp | hp
            · exact hp
            · obtain ⟨hp, hh⟩ := hp; simp only at hp; subst hp
              have := h6 tx rfl
              simp [Fin, hst] at this
          subst hp
          refine ⟨_, _, rfl, ⟨?_, ?_, ?_, ?_, ?_, ?_⟩, .inl ⟨rfl, rfl⟩, ?_⟩
          rotate_right
          · rintro t b w ⟨g1, g2, g3, g4⟩
            constructor <;> simp_all [written, works, writes, Work.next, reqTx]
          all_goals simp_all [hasReq, reqTx, Cb.ref, Stage]
        · rename_i hst
          refine ⟨_, _, rfl, ⟨h1, h2, h3, h4, h5, h6⟩, .inl ⟨rfl, rfl⟩, ?_⟩
          rintro t b w ⟨g1, g2, g3, g4⟩
          refine ⟨by simpa [writes] using g1, by simpa [writes] using g2, by simpa [writes] using g3, ?_⟩
          intro hl
          have hw := g4 hl
          rw [hw]
          rcases hp with hp | hp
          · simp only at hp; subst hp
            obtain ⟨tx', heq, hr, hst'⟩ := h6
            simp only [Option.some.injEq] at heq; subst heq
            rcases hst' with hst' | hst' | hst' <;> simp_all [works, reqTx, Work.next]
          · obtain ⟨hp, hh⟩ := hp; simp only at hp; subst hp
            simp only [works]; split <;> rfl

theorem ok_complete {l : Lp} {c : Call} (v : Val) (h : Ok l c)
    (hp : c.cb = .running ∨ c.cb = .done ∧ 0 < c.held) (hcmp : c.cmp = false) :
    ∃ c' e, c.complete v = some (c', e) ∧ Ok l c' ∧ Sum c c' e ∧
      ∀ t b w, Good l c b w → Good l c' (b ++ writes e) (w.next t (.complete t v)) := by
  obtain ⟨tx, req, cb, cmp, held⟩ := c
  obtain ⟨h1, h2, h3, h4, h5, h6⟩ := h
  simp only at hcmp
  subst hcmp
  cases req with
  | none => simp at hp h3 h6; rcases hp with rfl | hp
            · obtain ⟨tx, rfl, hr, _⟩ := h6; simp [hasReq, hr] at h3
            · omega
  | some r =>
    simp only [Call.complete]
    cases hrt : r.tx with
    | false =>
      simp only [Bool.false_eq_true, if_false]
      refine ⟨_, _, rfl, ⟨h1, h2, h3, h4, h5, h6⟩, .inl ⟨rfl, rfl⟩, ?_⟩
      rintro t b w ⟨g1, g2, g3, g4⟩
      refine ⟨by simpa [writes] using g1, by simpa [writes] using g2, by simpa [writes] using g3, ?_⟩
      intro hl
      have hw := g4 hl
      rw [hw]
      rcases hp with hp | hp
      · simp only at hp; subst hp
        obtain ⟨tx, rfl, hr, hst⟩ := h6
        rcases hst with hst | hst | hst <;> simp_all [works, reqTx, Work.next]
      · obtain ⟨hp, hh⟩ := hp; simp only at hp; subst hp
        cases tx with
        | none => simp [works, Work.next]
        | some tx =>
          have := h6 tx rfl
          simp only [works]
          split
          · rename_i hst; simp [Fin, hst, reqTx, hrt] at this
          · rfl
    | true =>
      simp only [if_true]
      cases tx with
      | none => simp [reqTx, hrt] at h1
      | some tx =>
        rcases hp with hp | ⟨hp, hh⟩
        · simp only at hp; subst hp
          obtain ⟨tx', heq, hr, hst⟩ := h6
          simp only [Option.some.injEq] at heq; subst heq
          rcases hst with hst | hst | hst
          · simp only [hst]
            refine ⟨_, _, rfl, ⟨?_, ?_, ?_, ?_, ?_, ?_⟩, .inl ⟨rfl, rfl⟩, ?_⟩
            rotate_right
            · rintro t b w ⟨g1, g2, g3, g4⟩
              constructor <;> simp_all [written, works, writes, Work.next, reqTx]
            all_goals simp_all [hasReq, reqTx, Cb.ref, Stage]
          · simp only [hst.1]
            refine ⟨_, _, rfl, ⟨?_, ?_, ?_, ?_, ?_, ?_⟩, .inl ⟨rfl, rfl⟩, ?_⟩
            rotate_right
            · rintro t b w ⟨g1, g2, g3, g4⟩
              constructor <;> simp_all [written, works, writes, Work.next, reqTx]
            all_goals simp_all [hasReq, reqTx, Cb.ref, Stage]
          · simp only [hst]
            refine ⟨_, _, rfl, ⟨?_, ?_, ?_, ?_, ?_, ?_⟩, .inl ⟨rfl, rfl⟩, ?_⟩
            rotate_right
            · rintro t b w ⟨g1, g2, g3, g4⟩
              constructor <;> simp_all [written, works, writes, Work.next, reqTx]
            all_goals simp_all [hasReq, reqTx, Cb.ref, Stage]
        · simp only at hp; subst hp
          have hf := h6 tx rfl
          simp only [Fin, reqTx, hrt, Option.map_some, Option.getD_some] at hf
          rcases hf with hf | hf | hf
          · simp at hf
          · simp only [hf.2.1]
            refine ⟨_, _, rfl, ⟨?_, ?_, ?_, ?_, ?_, ?_⟩, .inr (.inr ⟨true, rfl, rfl, by simp⟩), ?_⟩
            rotate_right
            · rintro t b w ⟨g1, g2, g3, g4⟩
              constructor <;> simp_all [written, works, writes, Work.next, reqTx]
            all_goals simp_all [hasReq, reqTx, Cb.ref, Stage, Fin]
          · simp at hf

theorem ok_drop {l : Lp} {c : Call} (h : Ok l c) (hcmp : c.cmp = true) :
    ∃ c' e, c.drop = some (c', e) ∧ Ok l c' ∧ Sum c c' e ∧
      ∀ b w, Good l c b w → Good l c' (b ++ writes e) w := by
  obtain ⟨tx, req, cb, cmp, held⟩ := c
  obtain ⟨h1, h2, h3, h4, h5, h6⟩ := h
  simp only at hcmp
  subst hcmp
  have hrt := (h5 rfl).1
  cases req with
  | none => simp [reqTx] at hrt
  | some r =>
    obtain ⟨rn, rt⟩ := r
    simp only [reqTx, Option.map_some, Option.getD_some] at hrt
    subst hrt
    cases tx with
    | none => simp [reqTx] at h1
    | some tx =>
      obtain ⟨n, pipe, hr, st, val⟩ := tx
      have hn := (h2 _ rfl).1
      have hrn := (h4 _ rfl).1
      simp only [reqTx, hasReq, Option.map_some, Option.getD_some, Bool.toNat_true] at hn hrn
      clear h1 h2 h3 h4 h5
      -- is it the last one?
      by_cases h1n : l.tx + cb.ref = 0
      · have hn1 : n = 1 := by omega
        clear hn
        subst hn1
        have hcb : cb = .done := by cases cb <;> simp [Cb.ref] at h1n ⊢
        subst hcb
        have hf := h6 _ rfl
        simp only [Fin, reqTx, Option.map_some, Option.getD_some] at hf
        have hr0 : hr = false ∧ st = .complete := by simpa using hf
        obtain ⟨rfl, rfl⟩ := hr0
        simp only [Call.drop, Call.txUnref, Bool.false_eq_true, if_false]
        simp only [Bool.toNat_false] at hrn
        have hlt : l.tx = 0 := by omega
        refine ⟨_, _, rfl, ?_, .inr (.inl ⟨rfl, rfl, by simp⟩), ?_⟩
        · by_cases hz : rn = 0
          · have : l = .out := by cases l <;> simp [Lp.req] at hrn ⊢ <;> omega
            subst this
            have : held = 0 := by omega
            constructor <;> simp [reqTx, Lp.tx, hasReq, Stage, hz, this]
          · constructor <;> simp [reqTx, hasReq, Stage, hz, hlt] <;> omega
        · rintro b w ⟨g1, g2, g3, g4⟩
          constructor <;> intro hl
          · subst hl; simp [Lp.tx] at hlt
          · subst hl; simp [Lp.tx] at hlt
          · subst hl; simp [Lp.tx] at hlt
          · rcases hl with rfl | rfl | rfl <;> simp [Lp.tx] at hlt
      · obtain ⟨m, rfl⟩ : ∃ m, n = m + 2 := ⟨n - 2, by omega⟩
        simp only [Call.drop, Call.txUnref]
        have hs2 : Stage l { tx := some { refs := m + 1, pipe := pipe, hasReq := hr, st := st, val := val }, req := if rn = 0 then none else some { refs := rn, tx := false }, cb := cb, cmp := false, held := held } := by
          have hq : reqTx (if rn = 0 then none else some { refs := rn, tx := false }) = false := by
            split <;> rfl
          cases cb <;> (try rename_i bb; cases bb) <;>
            simp [Stage, Fin, reqTx] at h6 <;> simp [Stage, Fin, hq] <;> grind
        refine ⟨_, _, rfl, ?_, .inl ⟨rfl, rfl⟩, ?_⟩
        · by_cases hz : rn = 0
          · have hlo : l = .out := by cases l <;> simp [Lp.req] at hrn ⊢ <;> omega
            have hheld : held = 0 := by omega
            have hr0 : hr = false := by cases hr <;> simp at hrn ⊢; omega
            simp only [hz] at hs2
            subst hlo hheld hr0 hz
            exact ⟨by simp, by simp [reqTx]; omega, by simp [hasReq], by simp, by simp, hs2⟩
          · simp only [if_neg hz] at hs2 ⊢
            exact ⟨by simp, by simp [reqTx]; omega, by simp, by simp [hasReq]; omega, by simp, hs2⟩
        · rintro b w ⟨g1, g2, g3, g4⟩
          constructor
          · intro hl; have := g1 hl; cases cb <;> simpa [writes, written] using this
          · intro hl; have := g2 hl; cases cb <;> simpa [writes, written] using this
          · intro hl; have := g3 hl; simpa [writes] using this
          · intro hl
            rw [g4 hl]
            cases cb <;> (try rename_i bb; cases bb) <;> simp [works, reqTx]
            by_cases hz : rn = 0 <;> simp [hz]

theorem ok_ref {l : Lp} {c : Call} (h : Ok l c) (hp : c.cb = .running ∨ 0 < c.held) :
    ∃ c' e, (c.req.map fun r => ({ c with req := some { r with refs := r.refs + 1 }, held := c.held + 1 },
      ([] : List Eff))) = some (c', e) ∧ Ok l c' ∧ Sum c c' e ∧
      ∀ b w, Good l c b w → Good l c' (b ++ writes e) w := by
  obtain ⟨tx, req, cb, cmp, held⟩ := c
  obtain ⟨h1, h2, h3, h4, h5, h6⟩ := h
  cases req with
  | none =>
    have h3 := h3 rfl
    rcases hp with hp | hp
    · simp only at hp; subst hp
      obtain ⟨tx, rfl, hr, _⟩ := h6
      simp [hasReq, hr] at h3
    · simp only at hp h3; omega
  | some r =>
    refine ⟨_, _, rfl, ⟨h1, h2, by simp, ?_, ?_, ?_⟩, .inl ⟨rfl, rfl⟩, ?_⟩
    rotate_left
    · intro hc; exact ⟨(h5 hc).1, .inl (by simp)⟩
    rotate_right
    · intro r' hr'
      cases hr'
      have := h4 r rfl
      simp only at this ⊢
      omega
    · have hcb : cb ≠ .pending := by
        rintro rfl
        obtain ⟨tx, _, _, _, _, _, hh, _⟩ := h6
        simp only at hh hp
        rcases hp with hp | hp
        · cases hp
        · omega
      cases cb <;> (try rename_i bb; cases bb) <;> first | exact absurd rfl hcb | exact h6
    · rintro b w ⟨g1, g2, g3, g4⟩
      simp only [writes, List.append_nil]
      exact ⟨g1, g2, g3, g4⟩

/-- Someone else has a reference to the request too. -/
theorem reqUnref_more {c : Call} {r : Req} (hr : c.req = some r) (hn : 1 < r.refs) :
    c.reqUnref = some ({ c with req := some { r with refs := r.refs - 1 } }, []) := by
  obtain ⟨n, rt⟩ := r
  simp only at hn
  obtain ⟨m, rfl⟩ : ∃ m, n = m + 2 := ⟨n - 2, by omega⟩
  simp only [Call.reqUnref, hr]
  rfl

theorem ok_unref {l : Lp} {c : Call} (h : Ok l c) (hh : 0 < c.held)
    (hcmp : c.cmp = true → 1 < c.held ∨ c.cb = .running) :
    ∃ c' e, { c with held := c.held - 1 }.reqUnref = some (c', e) ∧ Ok l c' ∧ Sum c c' e ∧
      ∀ b w, Good l c b w → Good l c' (b ++ writes e) w := by
  obtain ⟨tx, req, cb, cmp, held⟩ := c
  obtain ⟨h1, h2, h3, h4, h5, h6⟩ := h
  simp only at hh hcmp
  have hcb : cb ≠ .pending := by
    rintro rfl
    obtain ⟨tx, _, _, _, _, _, hh', _⟩ := h6
    simp only at hh'
    omega
  cases req with
  | none => have := (h3 rfl).2.2; simp only at this; omega
  | some r =>
    obtain ⟨rn, rt⟩ := r
    have hrn := h4 _ rfl
    simp only at hrn
    by_cases h1n : 1 < rn
    · rw [reqUnref_more rfl h1n]
      refine ⟨_, _, rfl, ⟨h1, h2, by simp, ?_, ?_, ?_⟩, .inl ⟨rfl, rfl⟩, ?_⟩
      rotate_left
      · intro hc
        refine ⟨(h5 hc).1, ?_⟩
        rcases hcmp hc with h | h
        · exact .inl (by simp only; omega)
        · exact .inr (.inl h)
      rotate_right
      · intro r' hr'
        cases hr'
        simp only
        exact ⟨by omega, by omega⟩
      · cases cb <;> (try rename_i bb; cases bb) <;> first | exact absurd rfl hcb | exact h6
      · rintro b w ⟨g1, g2, g3, g4⟩
        simp only [writes, List.append_nil]
        exact ⟨g1, g2, g3, g4⟩
    · -- the last reference
      have hrn1 : rn = 1 := by omega
      subst hrn1
      have hlo : l = .out := by cases l <;> simp [Lp.req] at hrn ⊢ <;> omega
      subst hlo
      have hh1 : held = 1 := by simp [Lp.req] at hrn; omega
      subst hh1
      have hhr : hasReq tx = false := by
        cases hx : hasReq tx with
        | false => rfl
        | true => simp [Lp.req, hx] at hrn
      have hncmp : cmp = false := by
        cases cmp with
        | false => rfl
        | true =>
          rcases hcmp rfl with h | h
          · omega
          · subst h
            obtain ⟨tx, rfl, hr, _⟩ := h6
            simp [hasReq, hr] at hhr
      subst hncmp
      have hgood : ∀ c' e, ∀ b w, Good .out { tx := tx, req := some { refs := 1, tx := rt }, cb := cb, cmp := false, held := 1 } b w → Good .out c' (b ++ writes e) w := by
        intro c' e b w _
        constructor <;> simp
      cases rt with
      | false =>
        simp only [Call.reqUnref, Bool.false_eq_true, if_false]
        refine ⟨_, _, rfl, ⟨?_, ?_, by simp [hhr], by simp, by simp, ?_⟩, .inl ⟨rfl, rfl⟩, hgood _ _⟩
        · intro hx; have := h1 hx; simpa [reqTx] using this
        · intro tx' hx; have := h2 tx' hx; simpa [reqTx] using this
        · cases cb <;> (try rename_i bb; cases bb) <;> first | exact absurd rfl hcb | skip
          all_goals simp [Stage, Fin, reqTx] at h6 ⊢
          all_goals first | exact h6 | (simp [hasReq] at hhr; grind)
      | true =>
        cases tx with
        | none => simp [reqTx] at h1
        | some tx =>
          simp only [hasReq, Option.map_some, Option.getD_some] at hhr
          have hst : tx.st = .blocked ∧ (cb = .write false ∨ cb = .fin ∨ cb = .done) := by
            cases cb <;> (try rename_i bb; cases bb) <;> simp [Stage, Fin, reqTx, hhr] at h6 <;> simp [h6]
          simp only [Call.reqUnref, Call.complete, if_true, hst.1]
          refine ⟨_, _, rfl, ⟨by simp, ?_, by simp, ?_, by simp [reqTx], ?_⟩, .inr (.inr ⟨true, rfl, rfl, by simp⟩), hgood _ _⟩
          · intro tx' hx
            cases hx
            exact h2 tx rfl
          · intro r' hx
            cases hx
            simp [hasReq, hhr, Lp.req]
          · rcases hst.2 with rfl | rfl | rfl <;> simp [Stage, Fin, reqTx, hhr]

theorem ok_ret {l : Lp} {c : Call} (v : Val) (h : Ok l c) (hp : c.cb = .running) (hcmp : c.cmp = false) :
    ∃ c' e, c.ret v = some (c', e) ∧ Ok l c' ∧ Sum c c' e ∧
      ∀ t b w, Good l c b w → Good l c' (b ++ writes e) (w.next t (.ret t v)) := by
  obtain ⟨tx, req, cb, cmp, held⟩ := c
  obtain ⟨h1, h2, h3, h4, h5, h6⟩ := h
  simp only at hp hcmp
  subst hp hcmp
  obtain ⟨tx, rfl, hr, hst⟩ := h6
  simp only at h1 h2 h3 h4 h5 hr hst
  have hg : ∀ c' : Call, (c'.cb = .dropTx ∨ c'.cb = .dropReq) → ∀ t b w,
      (w = works { tx := some tx, req := req, cb := .running, cmp := false, held := held } → w.next t (.ret t v) = works c') →
      Good l { tx := some tx, req := req, cb := .running, cmp := false, held := held } b w →
      Good l c' (b ++ writes []) (w.next t (.ret t v)) := by
    rintro c' hc t b w hw ⟨g1, g2, g3, g4⟩
    refine ⟨fun hl => ?_, fun hl => ?_, fun hl => ?_, fun hl => hw (g4 hl)⟩
    · have := g1 hl; rcases hc with hc | hc <;> simpa [written, writes, hc] using this
    · have := g2 hl; simp [written] at this
    · have := (g3 hl).2.1; simp at this
  simp only [Call.ret]
  rcases hst with hst | hst | hst
  · simp only [hst]
    refine ⟨_, _, rfl, ⟨by simp, ?_, ?_, ?_, by simp, ?_⟩, .inl ⟨rfl, rfl⟩, ?_⟩
    · intro tx' hx; cases hx; exact h2 tx rfl
    · intro hx; have := h3 hx; simpa [hasReq] using this
    · intro r hx; have := h4 r hx; simpa [hasReq] using this
    · exact ⟨_, rfl, hr, rfl, rfl⟩
    · intro t b w
      refine hg _ (.inl rfl) t b w ?_
      intro hw
      rw [hw]
      simp only [works, hst]
      split <;> simp [Work.next]
  · simp only [hst.1]
    refine ⟨_, _, rfl, ⟨by simp, ?_, ?_, ?_, by simp, ?_⟩, .inl ⟨rfl, rfl⟩, ?_⟩
    · intro tx' hx; cases hx; exact h2 tx rfl
    · intro hx; have := h3 hx; simpa [hasReq] using this
    · intro r hx; have := h4 r hx; simpa [hasReq] using this
    · exact ⟨_, rfl, hr, rfl, hst.2.1, rfl⟩
    · intro t b w
      refine hg _ (.inr rfl) t b w ?_
      intro hw
      rw [hw]
      simp only [works, hst.1]
      simp [Work.next]
  · simp only [hst]
    refine ⟨_, _, rfl, ⟨by simp, ?_, ?_, ?_, by simp, ?_⟩, .inl ⟨rfl, rfl⟩, ?_⟩
    · intro tx' hx; cases hx; exact h2 tx rfl
    · intro hx; have := h3 hx; simpa [hasReq] using this
    · intro r hx; have := h4 r hx; simpa [hasReq] using this
    · exact ⟨_, rfl, hr, rfl, rfl⟩
    · intro t b w
      refine hg _ (.inl rfl) t b w ?_
      intro hw
      rw [hw]
      simp only [works, hst]
      simp [Work.next]

theorem txUnref_more {c : Call} {tx : Tx} (d : Bool) (hr : c.tx = some tx) (hn : 1 < tx.refs) :
    c.txUnref d = some ({ c with tx := some { tx with refs := tx.refs - 1 } }, [], false) := by
  obtain ⟨n, p, hr', st, v⟩ := tx
  simp only at hn
  obtain ⟨m, rfl⟩ : ∃ m, n = m + 2 := ⟨n - 2, by omega⟩
  simp only [Call.txUnref, hr]
  rfl

/-- The last reference to the transaction. -/
theorem txUnref_last {c : Call} {tx : Tx} (d : Bool) (hx : c.tx = some tx) (hn : tx.refs = 1)
    (hr : tx.hasReq = true → ∃ r, c.req = some r ∧ 0 < r.refs ∧ (r.refs = 1 → r.tx = false)) :
    ∃ r', c.txUnref d = some ({ c with tx := none, req := r' }, if d then [] else [.close], d) ∧
      r' = if tx.hasReq = true then
        (match c.req with
        | some r => if r.refs = 1 then none else some { r with refs := r.refs - 1 }
        | none => none) else c.req := by
  obtain ⟨n, p, hr', st, v⟩ := tx
  simp only at hn hr
  subst hn
  refine ⟨_, ?_, rfl⟩
  simp only [Call.txUnref, hx]
  cases hr' with
  | false => simp
  | true =>
    obtain ⟨r, h1, h2, h3⟩ := hr rfl
    simp only [if_true, h1]
    by_cases hr1 : r.refs = 1
    · simp [Call.reqUnref, h1, hr1, h3 hr1]
    · rw [reqUnref_more (c := { req := some r, cb := c.cb, cmp := c.cmp, held := c.held }) (r := r) rfl (by omega)]
      simp [hr1]

theorem ok_tail {l : Lp} {c : Call}
    (h : Ok l c) (hp : c.cb = .dropReq ∨ c.cb = .dropTx ∨ (∃ b, c.cb = .write b) ∨ c.cb = .fin) :
    ∃ c' e, c.tail = some (c', e) ∧ Ok l c' ∧ Sum c c' e ∧
      ∀ b w, Good l c b w → Good l c' (b ++ writes e) w := by
  obtain ⟨tx, req, cb, cmp, held⟩ := c
  obtain ⟨h1, h2, h3, h4, h5, h6⟩ := h
  simp only at hp
  rcases hp with rfl | rfl | ⟨bb, rfl⟩ | rfl
  · -- dropReq
    obtain ⟨tx, rfl, hr, hst, hrt, hcmp⟩ := h6
    simp only at h1 h2 h3 h4 h5 hr hst hrt hcmp
    subst hcmp
    cases req with
    | none => simp [reqTx] at hrt
    | some r =>
      obtain ⟨rn, rt⟩ := r
      simp only [reqTx, Option.map_some, Option.getD_some] at hrt
      subst hrt
      have hrn := h4 _ rfl
      simp only [hasReq, Option.map_some, Option.getD_some, hr, Bool.toNat_true] at hrn
      simp only [Call.tail, hr, if_true]
      by_cases h1n : 1 < rn
      · rw [reqUnref_more rfl h1n]
        refine ⟨_, _, rfl, ⟨by simp, ?_, by simp, ?_, by simp, ?_⟩, .inl ⟨rfl, rfl⟩, ?_⟩
        · intro tx' hx; cases hx; exact h2 tx rfl
        · intro r hx
          cases hx
          simp only [hasReq, Option.map_some, Option.getD_some, Bool.toNat_false]
          exact ⟨by omega, by omega⟩
        · exact ⟨_, rfl, rfl, .inl ⟨hst, rfl, rfl⟩⟩
        · rintro b w ⟨g1, g2, g3, g4⟩
          refine ⟨fun hl => ?_, fun hl => ?_, fun hl => ?_, fun hl => ?_⟩
          · have := g1 hl; simpa [written, writes] using this
          · have := g2 hl; simp [written] at this
          · have := (g3 hl).2.1; simp at this
          · rw [g4 hl]; simp [works]
      · have hlo : l = .out := by cases l <;> simp [Lp.req] at hrn ⊢ <;> omega
        subst hlo
        have hh : held = 0 := by omega
        have hrn1 : rn = 1 := by omega
        subst hh hrn1
        simp only [Call.reqUnref, Call.complete, if_true, hst]
        refine ⟨_, _, rfl, ⟨by simp, ?_, by simp, ?_, by simp [reqTx], ?_⟩, .inr (.inr ⟨true, rfl, rfl, by simp⟩), ?_⟩
        · intro tx' hx; cases hx; exact h2 tx rfl
        · intro r hx
          cases hx
          simp [hasReq, Lp.req]
        · exact ⟨_, rfl, rfl, .inr ⟨rfl, rfl, rfl⟩⟩
        · intro b w _
          constructor <;> simp
  · -- dropTx
    obtain ⟨tx, rfl, hr, hst, hcmp⟩ := h6
    simp only at h1 h2 h3 h4 h5 hr hst hcmp
    subst hcmp
    cases req with
    | none => simp [hasReq, hr] at h3
    | some r =>
      obtain ⟨rn, rt⟩ := r
      have hn := (h2 tx rfl).1
      have hrn := h4 _ rfl
      simp only [Call.tail]
      have hg : ∀ n : Nat, ∀ b w, Good l { tx := some tx, req := some { refs := rn, tx := rt }, cb := .dropTx, cmp := false, held := held } b w →
          Good l { tx := some { tx with refs := n }, req := some { refs := rn, tx := false }, cb := .write true, cmp := false, held := held } (b ++ writes []) w := by
        rintro n b w ⟨g1, g2, g3, g4⟩
        refine ⟨fun hl => ?_, fun hl => ?_, fun hl => ?_, fun hl => ?_⟩
        · have := g1 hl; simpa [written, writes] using this
        · have := g2 hl; simp [written] at this
        · have := (g3 hl).2.1; simp at this
        · rw [g4 hl]; simp [works]
      cases rt with
      | false =>
        simp only [Bool.false_eq_true, if_false]
        refine ⟨_, _, rfl, ⟨by simp, ?_, by simp, h4, by simp, ?_⟩, .inl ⟨rfl, rfl⟩, ?_⟩
        · exact h2
        · exact ⟨_, rfl, hr, hst, rfl, rfl⟩
        · exact hg tx.refs
      | true =>
        simp only [if_true]
        simp only [reqTx, Cb.ref, Option.map_some, Option.getD_some, Bool.toNat_true] at hn
        rw [txUnref_more false rfl (by omega)]
        refine ⟨_, _, rfl, ⟨by simp, ?_, by simp, ?_, by simp, ?_⟩, .inl ⟨rfl, rfl⟩, ?_⟩
        · intro tx' hx
          cases hx
          simp [reqTx, Cb.ref]
          omega
        · intro r hx
          cases hx
          exact hrn
        · exact ⟨_, rfl, hr, hst, rfl, rfl⟩
        · exact hg (tx.refs - 1)
  · -- write
    cases bb with
    | true =>
      obtain ⟨tx, rfl, hr, hst, hrt, hcmp⟩ := h6
      simp only at hrt hcmp
      subst hcmp
      simp only [Call.tail]
      refine ⟨_, _, rfl, ⟨by simp, h2, h3, h4, by simp, ?_⟩, .inr (.inr ⟨true, rfl, rfl, by simp⟩), ?_⟩
      · exact ⟨_, rfl, .inl ⟨hr, hst, hrt, rfl⟩⟩
      · rintro b w ⟨g1, g2, g3, g4⟩
        refine ⟨fun hl => ?_, fun hl => ?_, fun hl => ?_, fun hl => ?_⟩
        · have := g1 hl; simp [written, writes] at this ⊢; simp [this, hr]
        · have := g2 hl; simp [written] at this
        · have := (g3 hl).2.1; simp at this
        · rw [g4 hl]; simp [works, hst]
    | false =>
      obtain ⟨tx, rfl, hr, hst⟩ := h6
      simp only [Call.tail]
      refine ⟨_, _, rfl, ⟨by simp, h2, h3, h4, ?_, ?_⟩, .inr (.inr ⟨false, rfl, rfl, by simp⟩), ?_⟩
      · intro hc
        have := h5 hc
        exact ⟨this.1, by simpa using this.2⟩
      · refine ⟨_, rfl, ?_⟩
        rcases hst with hst | hst
        · exact .inr (.inl ⟨hr, hst⟩)
        · exact .inr (.inr ⟨hr, hst.1, hst.2.1⟩)
      · rcases hst with hst | hst
        · rintro b w ⟨g1, g2, g3, g4⟩
          refine ⟨fun hl => ?_, fun hl => ?_, fun hl => ?_, fun hl => ?_⟩
          · have := g1 hl; simp [written, writes] at this ⊢; simp [this, hr, hst]
          · have := g2 hl; simp [written] at this
          · have := (g3 hl).2.1; simp at this
          · rw [g4 hl]; simp [works, hst]
        · intro b w _
          obtain ⟨_, _, rfl⟩ := hst
          constructor <;> simp
  · -- fin
    obtain ⟨tx, rfl, hf⟩ := h6
    have hn := (h2 tx rfl).1
    simp only [Cb.ref] at hn
    simp only [Call.tail]
    by_cases h1n : 1 < tx.refs
    · rw [txUnref_more false rfl h1n]
      refine ⟨_, _, rfl, ⟨by simp, ?_, ?_, ?_, ?_, ?_⟩, .inl ⟨rfl, rfl⟩, ?_⟩
      · intro tx' hx
        cases hx
        simp only [Cb.ref]
        exact ⟨by omega, by omega⟩
      · intro hx; have := h3 hx; simpa [hasReq] using this
      · intro r hx; have := h4 r hx; simpa [hasReq] using this
      · intro hc
        have := h5 hc
        exact ⟨this.1, by simpa using this.2⟩
      · intro tx' hx
        cases hx
        exact hf
      · rintro b w ⟨g1, g2, g3, g4⟩
        refine ⟨fun hl => ?_, fun hl => ?_, fun hl => ?_, fun hl => ?_⟩
        · have := g1 hl; simpa [written, writes] using this
        · have := g2 hl; simpa [written, writes] using this
        · have := g3 hl; simpa [writes] using this
        · rw [g4 hl]; simp [works]
    · have hn1 : tx.refs = 1 := by omega
      have hlt : l.tx = 0 := by omega
      have hrt : reqTx req = false := by
        cases hx : reqTx req with
        | false => rfl
        | true => simp [hx] at hn; omega
      have hcmp : cmp = false := by
        cases cmp with
        | false => rfl
        | true => have := (h5 rfl).1; simp only at this; rw [hrt] at this; cases this
      subst hcmp
      have hgood : ∀ c' e, ∀ b w, Good l { tx := some tx, req := req, cb := .fin, cmp := false, held := held } b w → Good l c' (b ++ writes e) w := by
        intro c' e b w _
        constructor <;> (intro hl)
        · subst hl; simp [Lp.tx] at hlt
        · subst hl; simp [Lp.tx] at hlt
        · subst hl; simp [Lp.tx] at hlt
        · rcases hl with rfl | rfl | rfl <;> simp [Lp.tx] at hlt
      obtain ⟨r', hu, hr'⟩ := txUnref_last (c := { tx := some tx, req := req, cb := .done, cmp := false, held := held }) false rfl hn1 (by
        intro hr
        cases req with
        | none => have := h3 rfl; simp [hasReq, hr] at this
        | some r =>
          have := h4 r rfl
          refine ⟨r, rfl, ?_, fun _ => by simpa [reqTx] using hrt⟩
          simpa using this.2)
      rw [hu]
      simp only at hr'
      refine ⟨_, _, rfl, ?_, .inr (.inl ⟨by simp, rfl, by simp⟩), hgood _ _⟩
      have hrt' : reqTx r' = false := by
        rw [hr']
        split
        · cases req with
          | none => rfl
          | some r =>
            simp only
            split
            · rfl
            · simpa [reqTx] using hrt
        · exact hrt
      cases hq : tx.hasReq with
      | false =>
        simp only [hq, Bool.false_eq_true, if_false] at hr'
        subst hr'
        refine ⟨fun _ => ⟨hlt, rfl, hrt⟩, by simp, ?_, ?_, by simp, by simp [Stage]⟩
        · intro hx; have := h3 hx; simpa [hasReq, hq] using this
        · intro r hx; have := h4 r hx; simpa [hasReq, hq] using this
      | true =>
        simp only [hq, if_true] at hr'
        cases req with
        | none => have := h3 rfl; simp [hasReq, hq] at this
        | some r =>
          have h4 := h4 r rfl
          simp only [hasReq, Option.map_some, Option.getD_some, hq, Bool.toNat_true] at h4
          simp only at hr'
          by_cases hr1 : r.refs = 1
          · simp only [hr1, if_true] at hr'
            subst hr'
            have : l = .out := by cases l <;> simp [Lp.req] at h4 ⊢ <;> omega
            refine ⟨fun _ => ⟨hlt, rfl, rfl⟩, by simp, fun _ => ⟨this, rfl, by simp only; omega⟩, by simp, by simp, by simp [Stage]⟩
          · simp only [if_neg hr1] at hr'
            subst hr'
            refine ⟨fun _ => ⟨hlt, rfl, hrt'⟩, by simp, by simp, ?_, by simp, by simp [Stage]⟩
            intro r'' hx
            cases hx
            simp [hasReq]
            omega

theorem ok_take {k : Bool} {c : Call} (h : Ok (.got k) c) :
    ∃ tx c' d, c.tx = some tx ∧ c.txUnref true = some (c', [], d) ∧ Ok .destroy c' ∧
      ((d = true ∧ c'.tx = none ∧ c.cb = .done) ∨ (d = false ∧ c'.tx.map (·.pipe) = c.tx.map (·.pipe))) := by
  obtain ⟨tx, req, cb, cmp, held⟩ := c
  obtain ⟨h1, h2, h3, h4, h5, h6⟩ := h
  cases tx with
  | none => simp [Lp.tx] at h1
  | some tx =>
    have hn := h2 tx rfl
    simp only [Lp.tx] at hn
    have hst : Stage .destroy { tx := some tx, req := req, cb := cb, cmp := cmp, held := held } := by
      cases cb <;> (try rename_i bb; cases bb) <;> first | exact h6 | skip
      · obtain ⟨tx', a, b, c, d, e, f, g⟩ := h6
        exact ⟨tx', a, b, c, d, e, f, by simp, by simp⟩
      · obtain ⟨tx', a, b, c⟩ := h6
        refine ⟨tx', a, b, ?_⟩
        rcases c with c | ⟨_, _, c⟩
        · exact .inl c
        · cases c
    by_cases h1n : 1 < tx.refs
    · refine ⟨tx, _, _, rfl, txUnref_more true rfl h1n, ⟨by simp, ?_, ?_, ?_, h5, ?_⟩, .inr ⟨rfl, rfl⟩⟩
      · intro tx' hx
        cases hx
        simp only [Lp.tx]
        exact ⟨by omega, by omega⟩
      · intro hx; have := h3 hx; simp at this
      · intro r hx; have := h4 r hx; simpa [hasReq, Lp.req] using this
      · cases cb <;> (try rename_i bb; cases bb) <;> simp [Stage, Fin] at hst ⊢ <;> exact hst
    · have hcb : cb = .done := by cases cb <;> simp [Cb.ref] at hn ⊢ <;> omega
      subst hcb
      have hrt : reqTx req = false := by
        cases hx : reqTx req with
        | false => rfl
        | true => simp [hx, Cb.ref] at hn; omega
      have hcmp : cmp = false := by
        cases cmp with
        | false => rfl
        | true => have := (h5 rfl).1; simp only at this; rw [hrt] at this; cases this
      subst hcmp
      cases req with
      | none => have := h3 rfl; simp at this
      | some r =>
        have h4 := h4 r rfl
        simp only [Lp.req] at h4
        simp only [reqTx, Option.map_some, Option.getD_some] at hrt
        obtain ⟨r', hu, hr'⟩ := txUnref_last (c := { tx := some tx, req := some r, cb := .done, cmp := false, held := held }) true rfl (by omega)
          (fun _ => ⟨r, rfl, by omega, fun _ => hrt⟩)
        simp only at hr' hu
        refine ⟨tx, _, _, rfl, by simpa using hu, ⟨fun _ => ⟨rfl, rfl, ?_⟩, by simp, ?_, ?_, by simp, by simp [Stage]⟩,
          .inl ⟨rfl, rfl, rfl⟩⟩
        · rw [hr']
          split
          · split <;> simp [reqTx, hrt]
          · simp [reqTx, hrt]
        · intro hx
          simp only at hx
          rw [hx] at hr'
          split at hr'
          · rename_i hq
            simp [hasReq, hq] at h4
            split at hr'
            · omega
            · cases hr'
          · cases hr'
        · intro r'' hx
          simp only at hx
          rw [hx] at hr'
          split at hr'
          · rename_i hq
            simp [hasReq, hq] at h4
            split at hr'
            · cases hr'
            · cases hr'
              simp [hasReq, Lp.req]
              omega
          · rename_i hq
            simp only [hasReq, Option.map_some, Option.getD_some] at h4
            cases hr'
            simp only [Bool.not_eq_true] at hq
            simp only [hq, Bool.toNat_false] at h4
            simp [hasReq, Lp.req]
            omega

theorem ok_destroy {c : Call} (h : Ok .destroy c) (hp : c.cb = .pending) :
    ∃ c', { c with cb := .done }.txUnref false = some (c', [.close], false) ∧ Ok .reply c' ∧ c'.tx = none ∧
      c.tx ≠ none := by
  obtain ⟨tx, req, cb, cmp, held⟩ := c
  obtain ⟨h1, h2, h3, h4, h5, h6⟩ := h
  simp only at hp
  subst hp
  obtain ⟨tx, rfl, hst, hr, hrt, hcmp, hh, _⟩ := h6
  simp only at hrt hcmp hh
  subst hcmp hh
  have hn := h2 tx rfl
  simp only [Lp.tx, Cb.ref, hrt, Bool.toNat_false] at hn
  cases req with
  | none => have := h3 rfl; simp at this
  | some r =>
    have h4 := h4 r rfl
    simp [Lp.req, hasReq, hr] at h4
    obtain ⟨r', hu, hr'⟩ := txUnref_last (c := { tx := some tx, req := some r, cb := .done, cmp := false, held := 0 }) false rfl (by omega)
      (fun _ => ⟨r, rfl, by omega, fun h => by omega⟩)
    simp only [Bool.false_eq_true, if_false] at hr' hu
    simp only [hr, if_true, h4] at hr'
    subst hr'
    refine ⟨_, hu, ⟨fun _ => ⟨rfl, rfl, ?_⟩, by simp, by simp, ?_, by simp, by simp [Stage]⟩, rfl, by simp⟩
    · simpa [reqTx] using hrt
    · intro r'' hx
      simp at hx
      subst hx
      simp [Lp.req, hasReq]

theorem ok_destroy2 {c : Call} (h : Ok .destroy c) (hp : c.cb ≠ .pending) : Ok .reply c := by
  obtain ⟨tx, req, cb, cmp, held⟩ := c
  obtain ⟨h1, h2, h3, h4, h5, h6⟩ := h
  refine ⟨h1, h2, ?_, h4, h5, ?_⟩
  · intro hx; have := (h3 hx).1; cases this
  · simp only at hp
    cases cb <;> (try rename_i bb; cases bb) <;> simp [Stage, Fin] at h6 hp ⊢ <;> exact h6

theorem ok_answer {c : Call} (h : Ok .reply c) :
    ∃ c' e, c.reqUnref = some (c', e) ∧ Ok .out c' ∧ Sum c c' e := by
  obtain ⟨tx, req, cb, cmp, held⟩ := c
  obtain ⟨h1, h2, h3, h4, h5, h6⟩ := h
  have hcb : cb ≠ .pending := by
    rintro rfl
    obtain ⟨tx, _, _, _, _, _, _, h⟩ := h6
    simp at h
  cases req with
  | none => have := h3 rfl; simp at this
  | some r =>
    obtain ⟨rn, rt⟩ := r
    have hrn := h4 _ rfl
    simp only [Lp.req] at hrn
    have hst : Stage .out { tx := tx, req := some { refs := rn, tx := rt }, cb := cb, cmp := cmp, held := held } := by
      cases cb <;> (try rename_i bb; cases bb) <;> first | exact absurd rfl hcb | exact h6 | skip
      obtain ⟨tx', a, b, c⟩ := h6
      refine ⟨tx', a, b, ?_⟩
      rcases c with c | ⟨_, _, c⟩
      · exact .inl c
      · cases c
    by_cases h1n : 1 < rn
    · rw [reqUnref_more rfl h1n]
      refine ⟨_, _, rfl, ⟨h1, h2, by simp, ?_, ?_, ?_⟩, .inl ⟨rfl, rfl⟩⟩
      · intro r' hr'
        cases hr'
        simp only [Lp.req]
        exact ⟨by omega, by omega⟩
      · intro hc
        have := h5 hc
        refine ⟨this.1, ?_⟩
        rcases this.2 with h | h | h
        · exact .inl h
        · exact .inr (.inl h)
        · simp at h; omega
      · cases cb <;> (try rename_i bb; cases bb) <;> simp [Stage, Fin, reqTx] at hst ⊢ <;> exact hst
    · have hrn1 : rn = 1 := by omega
      subst hrn1
      have hh0 : held = 0 := by omega
      subst hh0
      have hhr : hasReq tx = false := by
        cases hx : hasReq tx with
        | false => rfl
        | true => simp [hx] at hrn
      have hncmp : cmp = false := by
        cases cmp with
        | false => rfl
        | true =>
          rcases (h5 rfl).2 with h | h | h
          · simp at h
          · simp only at h; subst h
            obtain ⟨tx, rfl, hr, _⟩ := h6
            simp [hasReq, hr] at hhr
          · simp at h
      subst hncmp
      cases rt with
      | false =>
        simp only [Call.reqUnref, Bool.false_eq_true, if_false]
        refine ⟨_, _, rfl, ⟨?_, ?_, by simp [hhr], by simp, by simp, ?_⟩, .inl ⟨rfl, rfl⟩⟩
        · intro hx; have := h1 hx; simpa [reqTx, Lp.tx] using this
        · intro tx' hx; have := h2 tx' hx; simpa [reqTx, Lp.tx] using this
        · cases cb <;> (try rename_i bb; cases bb) <;> first | exact absurd rfl hcb | skip
          all_goals simp [Stage, Fin, reqTx] at hst ⊢
          all_goals first | exact hst | (simp [hasReq] at hhr; grind)
      | true =>
        cases tx with
        | none => simp [reqTx] at h1
        | some tx =>
          simp only [hasReq, Option.map_some, Option.getD_some] at hhr
          have hst : tx.st = .blocked ∧ (cb = .write false ∨ cb = .fin ∨ cb = .done) := by
            cases cb <;> (try rename_i bb; cases bb) <;> simp [Stage, Fin, reqTx, hhr] at h6 <;> simp [h6]
          simp only [Call.reqUnref, Call.complete, if_true, hst.1]
          refine ⟨_, _, rfl, ⟨by simp, ?_, by simp, ?_, by simp [reqTx], ?_⟩, .inr (.inr ⟨true, rfl, rfl, by simp⟩)⟩
          · intro tx' hx
            cases hx
            exact h2 tx rfl
          · intro r' hx
            cases hx
            simp [hasReq, hhr, Lp.req]
          · rcases hst.2 with rfl | rfl | rfl <;> simp [Stage, Fin, reqTx, hhr]

/-! ### Pipes -/

abbrev pipeOpt (c : Call) : Option Nat := c.tx.map (·.pipe)

structure Pipes (s : State) : Prop where
  alive : ∀ t p, pipeOpt (s.call t) = some p → s.pipes p ≠ none ∧ p < s.npipes
  uniq : ∀ t u p, pipeOpt (s.call t) = some p → pipeOpt (s.call u) = some p → t = u
  mine : ∀ t, (lp s.phase t).tx = 1 → ∃ p, pipeOpt (s.call t) = some p ∧ s.txfd = some p
  txfd : ∀ p, s.txfd = some p → s.pipes p ≠ none ∧ p < s.npipes ∧
    ∀ t, pipeOpt (s.call t) = some p → (lp s.phase t).tx = 1
  leak : ∀ p, s.pipes p ≠ none → s.txfd = some p ∨ ∃ t, pipeOpt (s.call t) = some p
  closed : ∀ p, s.npipes ≤ p → s.pipes p = none

structure Inv (s : State) : Prop where
  ok : ∀ t, Ok (lp s.phase t) (s.call t)
  fresh : ∀ t, s.calls ≤ t → s.call t = {} ∧ lp s.phase t = .out
  pipes : Pipes s
  gone : s.phase = .gone → s.txfd = none

theorem ok_new : Ok .out {} := by
  constructor <;> simp [Lp.tx, reqTx, hasReq, Stage]

theorem inv_init : Inv {} := by
  refine ⟨fun t => ok_new, fun t _ => ⟨rfl, rfl⟩, ⟨?_, ?_, ?_, ?_, ?_, ?_⟩, by simp⟩
  · intro t p h; simp at h
  · intro t u p h; simp at h
  · intro t h; simp [lp, Lp.tx] at h
  · intro p h; simp at h
  · intro p h; simp at h
  · intro p h; rfl

theorem pipeOf_eq {c : Call} {p : Nat} (h : pipeOpt c = some p) : pipeOf c = p := by
  have : pipeOf c = (pipeOpt c).getD 0 := rfl
  rw [this, h]; rfl

/-- A function is called, which doesn't change what the looper is doing. -/
theorem inv_apply {s : State} {t : Nat} {f : Option (Call × List Eff)} {c' : Call} {e : List Eff} {evs : List Ev}
    {ph : Phase} (h : Inv s) (hlt : lp s.phase t ≠ .out ∨ s.call t ≠ {})
    (hf : f = some (c', e)) (hok : Ok (lp ph t) c') (hsum : Sum (s.call t) c' e)
    (hph : ∀ u, (lp ph u).tx = (lp s.phase u).tx) (hph2 : ∀ u, u ≠ t → lp ph u = lp s.phase u)
    (hgone : ph = .gone → s.phase = .gone) :
    ∃ pipes, apply s t f evs = .ok { s with call := upd s.call t c', pipes, log := s.log ++ evs } ∧
      Inv { s with call := upd s.call t c', pipes, log := s.log ++ evs, phase := ph } ∧
      (∀ p, pipeOpt (s.call t) ≠ some p → pipes p = s.pipes p) ∧
      (∀ p, pipeOpt c' = some p → pipes p = (s.pipes p).map (· ++ writes e)) := by
  subst hf
  have hfr : ¬ s.calls ≤ t := by
    intro hc
    have := h.fresh t hc
    rcases hlt with hlt | hlt
    · exact hlt this.2
    · exact hlt this.1
  have hok' : ∀ u, Ok (lp ph u) (upd s.call t c' u) := by
    intro u
    by_cases hu : u = t
    · subst hu; rw [upd_same]; exact hok
    · rw [upd_ne _ _ hu, hph2 u hu]; exact h.ok u
  have hfresh' : ∀ u, s.calls ≤ u → upd s.call t c' u = {} ∧ lp ph u = .out := by
    intro u hu
    have hne : u ≠ t := by intro hx; subst hx; exact hfr hu
    rw [upd_ne _ _ hne, hph2 u hne]
    exact h.fresh u hu
  obtain ⟨p1, p2, p3, p4, p5, p6⟩ := h.pipes
  have hgone' : ph = .gone → s.txfd = none := fun hx => h.gone (hgone hx)
  rcases hsum with ⟨rfl, hs⟩ | ⟨rfl, hs, hx⟩ | ⟨b, rfl, hs, hx⟩
  · have hpo : ∀ u, pipeOpt (upd s.call t c' u) = pipeOpt (s.call u) := by
      intro u
      by_cases hu : u = t
      · subst hu; rw [upd_same]; exact hs
      · rw [upd_ne _ _ hu]
    refine ⟨s.pipes, rfl, ⟨hok', hfresh', ⟨?_, ?_, ?_, ?_, ?_, ?_⟩, hgone'⟩, fun p _ => rfl, fun p _ => ?_⟩
    · intro u p hp; rw [hpo] at hp; exact p1 u p hp
    · intro u v p hp hq; rw [hpo] at hp hq; exact p2 u v p hp hq
    · intro u hu; rw [hpo]; simp only at hu; rw [hph] at hu; exact p3 u hu
    · intro p hp
      have := p4 p hp
      refine ⟨this.1, this.2.1, fun u hu => ?_⟩
      simp only
      rw [hpo] at hu; rw [hph]; exact this.2.2 u hu
    · intro p hp
      rcases p5 p hp with h | ⟨u, h⟩
      · exact .inl h
      · exact .inr ⟨u, by rw [hpo]; exact h⟩
    · exact p6
    · cases s.pipes p <;> simp [writes]
  · -- the pipe gets closed
    cases hct : (s.call t).tx with
    | none => exact absurd hct hx
    | some tx =>
      have hpt : pipeOpt (s.call t) = some tx.pipe := by simp [pipeOpt, hct]
      have hal := p1 t _ hpt
      obtain ⟨l, hl⟩ := Option.ne_none_iff_exists'.1 hal.1
      have hl0 : (lp s.phase t).tx = 0 := by
        rw [← hph]; exact (hok.tx0 hs).1
      have hpo : ∀ u, u ≠ t → pipeOpt (upd s.call t c' u) = pipeOpt (s.call u) := by
        intro u hu; rw [upd_ne _ _ hu]
      have hpt' : pipeOpt (upd s.call t c' t) = none := by rw [upd_same]; simp [pipeOpt, hs]
      refine ⟨upd s.pipes tx.pipe none, ?_, ⟨hok', hfresh', ⟨?_, ?_, ?_, ?_, ?_, ?_⟩, hgone'⟩, ?_, ?_⟩
      · simp only [apply, pipeOf_eq hpt, effects, effect, hl]
      · intro u p hp
        have hu : u ≠ t := by intro hu; subst hu; rw [hpt'] at hp; cases hp
        rw [hpo u hu] at hp
        have hne : p ≠ tx.pipe := by intro hq; subst hq; exact hu (p2 u t _ hp hpt)
        simp only
        rw [upd_ne _ _ hne]
        exact p1 u p hp
      · intro u v p hp hq
        have hu : u ≠ t := by intro hu; subst hu; rw [hpt'] at hp; cases hp
        have hv : v ≠ t := by intro hu; subst hu; rw [hpt'] at hq; cases hq
        rw [hpo u hu] at hp
        rw [hpo v hv] at hq
        exact p2 u v p hp hq
      · intro u hu
        simp only at hu
        rw [hph] at hu
        have hut : u ≠ t := by intro hx; subst hx; omega
        rw [hpo u hut]
        exact p3 u hu
      · intro p hp
        have := p4 p hp
        have hne : p ≠ tx.pipe := by
          intro hq; subst hq
          have := this.2.2 t hpt
          omega
        simp only
        rw [upd_ne _ _ hne]
        refine ⟨this.1, this.2.1, fun u hu => ?_⟩
        have hut : u ≠ t := by intro hu'; subst hu'; rw [hpt'] at hu; cases hu
        rw [hpo u hut] at hu; rw [hph]; exact this.2.2 u hu
      · intro p hp
        simp only [upd] at hp
        split at hp
        · exact absurd rfl hp
        · rename_i hne
          rcases p5 p hp with h | ⟨u, h⟩
          · exact .inl h
          · have hut : u ≠ t := by
              intro hu; subst hu; rw [hpt] at h; cases h; exact hne rfl
            exact .inr ⟨u, by rw [hpo u hut]; exact h⟩
      · intro p hp
        simp only [upd]
        split
        · rfl
        · exact p6 p hp
      · intro p hp
        rw [upd_ne]
        intro hq; subst hq; exact hp hpt
      · intro p hp
        simp [pipeOpt, hs] at hp
  · -- something gets written
    cases hct : (s.call t).tx with
    | none => exact absurd hct hx
    | some tx =>
      have hpt : pipeOpt (s.call t) = some tx.pipe := by simp [pipeOpt, hct]
      have hal := p1 t _ hpt
      obtain ⟨l, hl⟩ := Option.ne_none_iff_exists'.1 hal.1
      have hpo : ∀ u, pipeOpt (upd s.call t c' u) = pipeOpt (s.call u) := by
        intro u
        by_cases hu : u = t
        · subst hu; rw [upd_same]; exact hs
        · rw [upd_ne _ _ hu]
      have hne : ∀ p, upd s.pipes tx.pipe (some (l ++ [b])) p ≠ none ↔ s.pipes p ≠ none := by
        intro p
        simp only [upd]
        split
        · rename_i hp; subst hp; simp [hl]
        · rfl
      refine ⟨upd s.pipes tx.pipe (some (l ++ [b])), ?_, ⟨hok', hfresh', ⟨?_, ?_, ?_, ?_, ?_, ?_⟩, hgone'⟩, ?_, ?_⟩
      · simp only [apply, pipeOf_eq hpt, effects, effect, hl]
      · intro u p hp; rw [hpo] at hp; simp only [hne]; exact p1 u p hp
      · intro u v p hp hq; rw [hpo] at hp hq; exact p2 u v p hp hq
      · intro u hu; rw [hpo]; simp only at hu; rw [hph] at hu; exact p3 u hu
      · intro p hp
        have := p4 p hp
        simp only [hne]
        refine ⟨this.1, this.2.1, fun u hu => ?_⟩
        rw [hpo] at hu; rw [hph]; exact this.2.2 u hu
      · intro p hp
        simp only [hne] at hp
        rcases p5 p hp with h | ⟨u, h⟩
        · exact .inl h
        · exact .inr ⟨u, by rw [hpo]; exact h⟩
      · intro p hp
        have := p6 p hp
        simp only at hp ⊢
        rw [upd_ne _ _ (by omega)]
        exact this
      · intro p hp
        rw [upd_ne]
        intro hq; subst hq; exact hp hpt
      · intro p hp
        have hp : pipeOpt (s.call t) = some p := hs.symm.trans hp
        have := hpt.symm.trans hp
        cases this
        rw [upd_same, hl]
        rfl

/-! ### Results -/

def Ev.who : Ev → Nat
  | .begin t => t
  | .noPipe t => t
  | .handle t => t
  | .block t => t
  | .complete t _ => t
  | .ret t _ => t
  | .giveUp t => t
  | .answer t _ => t

theorem next_other {t : Nat} {w : Work} {e : Ev} (h : e.who ≠ t) : w.next t e = w := by
  cases e <;> simp only [Ev.who] at h <;> cases w <;> simp [Work.next, h]

theorem work_append (t : Nat) (a : List Ev) (e : Ev) : work t (a ++ [e]) = (work t a).next t e := by
  simp [work]

theorem next_ready (t : Nat) (v : Val) (e : Ev) : (Work.ready v).next t e = .ready v := by
  cases e <;> rfl

theorem answers_append (t : Nat) (a b : List Ev) : answers t (a ++ b) = answers t a ++ answers t b := by
  induction a with
  | nil => rfl
  | cons e a ih =>
    cases e <;> simp only [List.cons_append, answers] <;> try exact ih
    split
    · simp [ih]
    · exact ih

/-- Nobody has given up. -/
def Patient (s : State) : Prop := ∀ t, Ev.giveUp t ∉ s.log

structure G (s : State) : Prop where
  good : ∀ t, (lp s.phase t).tx = 1 →
    ∃ p b, pipeOpt (s.call t) = some p ∧ s.pipes p = some b ∧ Good (lp s.phase t) (s.call t) b (work t s.log)
  empty : Patient s → (s.phase = .idle ∨ ∃ t v, s.phase = .destroy t v ∨ s.phase = .reply t v) →
    ∀ p, s.txfd = some p → s.pipes p = some []
  val : ∀ t v, s.phase = .destroy t v ∨ s.phase = .reply t v →
    work t s.log = .ready v ∨ ((.giveUp t ∈ s.log ∨ .noPipe t ∈ s.log) ∧ v = efault)
  gotf : ∀ t, s.phase = .got t false → .giveUp t ∈ s.log
  cnt : ∀ t, (answers t s.log).length = if t < s.calls ∧ lp s.phase t = .out then 1 else 0
  ans : ∀ a t v b, s.log = a ++ .answer t v :: b → work t a = .ready v ∨ ((.giveUp t ∈ a ∨ .noPipe t ∈ a) ∧ v = efault)
  new : ∀ t, s.calls ≤ t → work t s.log = .new

theorem g_init : G {} := by
  refine ⟨?_, ?_, ?_, ?_, ?_, ?_, ?_⟩
  · intro t h; simp [lp, Lp.tx] at h
  · intro _ _ p h; simp at h
  · intro t v h; simp at h
  · intro t h; simp at h
  · intro t; simp [answers]
  · intro a t v b h; simp at h
  · intro t _; rfl

theorem split_append {α : Type} {l a b : List α} {e x : α} (h : l ++ [e] = a ++ x :: b) :
    (b = [] ∧ e = x ∧ l = a) ∨ ∃ b', b = b' ++ [e] ∧ l = a ++ x :: b' := by
  cases hb : b.reverse with
  | nil =>
    have : b = [] := by simpa using hb
    subst this
    have := List.append_inj' h (by simp)
    exact .inl ⟨rfl, by simpa using this.2, this.1⟩
  | cons y ys =>
    have hb' : b = ys.reverse ++ [y] := by
      have := congrArg List.reverse hb
      simpa using this
    subst hb'
    right
    have h : l ++ [e] = (a ++ x :: ys.reverse) ++ [y] := by simpa using h
    have := List.append_inj' h (by simp)
    have h2 : e = y := by simpa using this.2
    subst h2
    exact ⟨ys.reverse, rfl, this.1⟩

/-- Events which the main thread produces. -/
def Ev.main : Ev → Bool
  | .handle _ | .block _ | .complete _ _ | .ret _ _ => true
  | _ => false

/-- The log is only extended with something that the main thread does. -/
theorem g_log {s : State} {evs : List Ev} (h : ∀ e ∈ evs, e.main = true) (hlen : evs.length ≤ 1) :
    (∀ t, Ev.giveUp t ∈ s.log ++ evs ↔ Ev.giveUp t ∈ s.log) ∧
    (∀ t, Ev.noPipe t ∈ s.log ++ evs ↔ Ev.noPipe t ∈ s.log) ∧ (∀ t, answers t (s.log ++ evs) = answers t s.log) ∧
    ∀ a t v b, s.log ++ evs = a ++ .answer t v :: b → ∃ b', s.log = a ++ .answer t v :: b' := by
  cases evs with
  | nil =>
    refine ⟨fun t => by simp, fun t => by simp, fun t => by simp, fun a t v b hx => ⟨b, by simpa using hx⟩⟩
  | cons e evs =>
    cases evs with
    | cons _ _ => simp at hlen
    | nil =>
      have he := h e (by simp)
      refine ⟨fun t => ?_, fun t => ?_, fun t => ?_, fun a t v b hx => ?_⟩
      · simp only [List.mem_append, List.mem_singleton]
        constructor
        · rintro (h | h)
          · exact h
          · subst h; simp [Ev.main] at he
        · exact .inl
      · simp only [List.mem_append, List.mem_singleton]
        constructor
        · rintro (h | h)
          · exact h
          · subst h; simp [Ev.main] at he
        · exact .inl
      · rw [answers_append]
        cases e <;> simp [Ev.main] at he <;> simp [answers]
      · rcases split_append hx with ⟨_, h, _⟩ | ⟨b', _, h⟩
        · subst h; simp [Ev.main] at he
        · exact ⟨b', h⟩

theorem g_apply {s : State} {t : Nat} {c' : Call} {e : List Eff} {evs : List Ev} {pipes : Nat → Option (List Bool)}
    (hi : Inv s) (hg : G s) (hlt : lp s.phase t ≠ .out ∨ s.call t ≠ {})
    (hok : Ok (lp s.phase t) c')
    (hsum : Sum (s.call t) c' e)
    (hp1 : ∀ p, pipeOpt (s.call t) ≠ some p → pipes p = s.pipes p)
    (hp2 : ∀ p, pipeOpt c' = some p → pipes p = (s.pipes p).map (· ++ writes e))
    (hevs : ∀ e ∈ evs, e.main = true ∧ e.who = t) (hlen : evs.length ≤ 1)
    (hgood : ∀ b w, Good (lp s.phase t) (s.call t) b w →
      Good (lp s.phase t) c' (b ++ writes e) (evs.foldl (Work.next t) w)) :
    G { s with call := upd s.call t c', pipes, log := s.log ++ evs } := by
  obtain ⟨l1, l4, l2, l3⟩ := g_log (s := s) (evs := evs) (fun e he => (hevs e he).1) hlen
  have hw : ∀ u, work u (s.log ++ evs) = evs.foldl (Work.next u) (work u s.log) := by
    intro u; simp [work]
  have hwne : ∀ u, u ≠ t → work u (s.log ++ evs) = work u s.log := by
    intro u hu
    cases evs with
    | nil => simp
    | cons x evs =>
      cases evs with
      | cons _ _ => simp at hlen
      | nil =>
        rw [work_append]
        exact next_other (by rw [(hevs x (by simp)).2]; exact Ne.symm hu)
  have hfr : ¬ s.calls ≤ t := by
    intro hc
    have := hi.fresh t hc
    rcases hlt with hlt | hlt
    · exact hlt this.2
    · exact hlt this.1
  refine ⟨?_, ?_, ?_, ?_, ?_, ?_, ?_⟩
  · intro u hu
    simp only at hu ⊢
    obtain ⟨p, b, h1, h2, h3⟩ := hg.good u hu
    by_cases hut : u = t
    · subst hut
      rw [upd_same]
      have hp' : pipeOpt c' = some p := by
        rcases hsum with ⟨_, hs⟩ | ⟨_, hs, _⟩ | ⟨_, _, hs, _⟩
        · exact hs.trans h1
        · have := (hok.tx0 hs).1; omega
        · exact hs.trans h1
      refine ⟨p, b ++ writes e, hp', ?_, ?_⟩
      · rw [hp2 p hp', h2]; rfl
      · rw [hw]; exact hgood b _ h3
    · rw [upd_ne _ _ hut]
      refine ⟨p, b, h1, ?_, ?_⟩
      · rw [hp1 p (fun hx => hut (hi.pipes.uniq u t p h1 hx))]; exact h2
      · rw [hwne u hut]; exact h3
  · intro hp hph p htx
    simp only at hp hph htx ⊢
    have hpat : Patient s := fun u => by rw [← l1 u]; exact hp u
    have := hg.empty hpat hph p htx
    rw [hp1 p]
    · exact this
    · intro hx
      have h2 := (hi.pipes.txfd p htx).2.2 t hx
      rcases hph with hph | ⟨u, v, hph | hph⟩ <;> rw [hph] at h2 <;> simp only [lp] at h2
      · simp [Lp.tx] at h2
      · split at h2 <;> simp [Lp.tx] at h2
      · split at h2 <;> simp [Lp.tx] at h2
  · intro u v hph
    simp only at hph ⊢
    rcases hg.val u v hph with h | h
    · left
      by_cases hut : u = t
      · subst hut
        rw [hw, h]
        clear hw hwne hgood l1 l2 l3 l4 hlen
        induction evs with
        | nil => rfl
        | cons x evs ih => rw [List.foldl_cons, next_ready]; exact ih (fun e he => hevs e (List.mem_cons_of_mem _ he))
      · rw [hwne u hut]; exact h
    · right; rw [l1, l4]; exact h
  · intro u hu
    simp only at hu ⊢
    rw [l1]; exact hg.gotf u hu
  · intro u
    simp only [l2]
    exact hg.cnt u
  · intro a u v b hx
    obtain ⟨b', h⟩ := l3 a u v b hx
    exact hg.ans a u v b' h
  · intro u hu
    simp only at hu ⊢
    have hut : u ≠ t := by intro hx; subst hx; exact hfr hu
    rw [hwne u hut]
    exact hg.new u hu

/-- What each step does: it can't be made, or it's fine. -/
def Fine (s : State) (l : Label) : Prop :=
  step s l = .no ∨ ∃ s', step s l = .ok s' ∧ Inv s' ∧ (G s → (l = .begin → Patient s) → G s')

theorem fine_apply {s : State} {t : Nat} {f : Option (Call × List Eff)} {evs : List Ev} {l : Label}
    (hi : Inv s) (hlt : lp s.phase t ≠ .out ∨ s.call t ≠ {})
    (hstep : step s l = apply s t f evs)
    (hevs : ∀ e ∈ evs, e.main = true ∧ e.who = t) (hlen : evs.length ≤ 1)
    (hf : ∃ c' e, f = some (c', e) ∧ Ok (lp s.phase t) c' ∧ Sum (s.call t) c' e ∧
      ∀ b w, Good (lp s.phase t) (s.call t) b w →
        Good (lp s.phase t) c' (b ++ writes e) (evs.foldl (Work.next t) w)) : Fine s l := by
  obtain ⟨c', e, h1, h2, h3, h4⟩ := hf
  obtain ⟨pipes, h5, h6, h7, h8⟩ := inv_apply (evs := evs) hi hlt h1 h2 h3 (fun _ => rfl) (fun _ _ => rfl) (fun h => h)
  refine .inr ⟨_, hstep.trans h5, h6, fun hg _ => ?_⟩
  exact g_apply hi hg hlt h2 h3 h7 h8 hevs hlen h4

theorem lp_cases {p : Phase} {t u : Nat} (h : (lp p t).tx = 1) (hu : (lp p u).tx = 1) : t = u := by
  cases p <;> simp only [lp] at h hu <;> (try split at h) <;> (try split at hu) <;> simp_all [Lp.tx]

/-- One transaction at a time. -/
theorem lp_out {p : Phase} {t u : Nat} (h : lp p t ≠ .out) (hu : u ≠ t) : lp p u = .out := by
  cases p <;> simp only [lp] at h ⊢ <;> (try split at h) <;> simp_all
  all_goals intro hx; exact absurd hx.symm hu

theorem ok_call_ne {l : Lp} {c : Call} (h : Ok l c) (hl : l ≠ .out) : c ≠ {} := by
  rintro rfl
  exact hl (h.req0 rfl).1

theorem fine_main {s : State} (hi : Inv s) (l : Label)
    (hl : l ≠ .begin ∧ l ≠ .noPipe ∧ l ≠ .read ∧ l ≠ .giveUp ∧ l ≠ .take ∧ l ≠ .destroy ∧ l ≠ .answer ∧ l ≠ .exit) :
    Fine s l := by
  have hcb : ∀ t, (s.call t).cb ≠ .done → lp s.phase t ≠ .out ∨ s.call t ≠ {} := by
    intro t h; right; intro hx; rw [hx] at h; exact h rfl
  have hheld : ∀ t, 0 < (s.call t).held → lp s.phase t ≠ .out ∨ s.call t ≠ {} := by
    intro t h; right; intro hx; rw [hx] at h; simp at h
  have hcm : ∀ t, (s.call t).cmp = true → lp s.phase t ≠ .out ∨ s.call t ≠ {} := by
    intro t h; right; intro hx; rw [hx] at h; simp at h
  cases l with
  | begin | noPipe | read | giveUp | take | destroy | answer | exit => simp at hl
  | handle t =>
    by_cases hc : (s.call t).cb = .pending
    · refine fine_apply hi (hcb t (by simp [hc])) (by simp only [step, hc, if_true]; rfl) ?_ (by simp) ?_
      · intro e he; simp at he; subst he; exact ⟨rfl, rfl⟩
      · obtain ⟨c', e, h1, h2, h3, h4⟩ := ok_handle (hi.ok t) hc
        exact ⟨c', e, h1, h2, h3, h4 t⟩
    · exact .inl (by simp only [step, if_neg hc])
  | block t =>
    by_cases hc : ((s.call t).cb = .running ∨ (s.call t).cb = .done ∧ 0 < (s.call t).held) ∧ (s.call t).cmp = false
    · refine fine_apply hi ?_ (by simp only [step, if_pos hc]; rfl) ?_ (by simp) ?_
      · rcases hc.1 with h | h
        · exact hcb t (by simp [h])
        · exact hheld t h.2
      · intro e he; simp at he; subst he; exact ⟨rfl, rfl⟩
      · obtain ⟨c', e, h1, h2, h3, h4⟩ := ok_block (hi.ok t) hc.1 hc.2
        exact ⟨c', e, h1, h2, h3, h4 t⟩
    · exact .inl (by simp only [step, if_neg hc])
  | complete t v =>
    by_cases hc : ((s.call t).cb = .running ∨ (s.call t).cb = .done ∧ 0 < (s.call t).held) ∧ (s.call t).cmp = false
    · refine fine_apply hi ?_ (by simp only [step, if_pos hc]; rfl) ?_ (by simp) ?_
      · rcases hc.1 with h | h
        · exact hcb t (by simp [h])
        · exact hheld t h.2
      · intro e he; simp at he; subst he; exact ⟨rfl, rfl⟩
      · obtain ⟨c', e, h1, h2, h3, h4⟩ := ok_complete v (hi.ok t) hc.1 hc.2
        exact ⟨c', e, h1, h2, h3, h4 t⟩
    · exact .inl (by simp only [step, if_neg hc])
  | drop t =>
    by_cases hc : (s.call t).cmp = true
    · refine fine_apply hi (hcm t hc) (by simp only [step, if_pos hc]; rfl) (by simp) (by simp) ?_
      exact ok_drop (hi.ok t) hc
    · exact .inl (by simp only [step, if_neg hc])
  | ref t =>
    by_cases hc : (s.call t).cb = .running ∨ 0 < (s.call t).held
    · refine fine_apply hi ?_ (by simp only [step, if_pos hc]; rfl) (by simp) (by simp) ?_
      · rcases hc with h | h
        · exact hcb t (by simp [h])
        · exact hheld t h
      · exact ok_ref (hi.ok t) hc
    · exact .inl (by simp only [step, if_neg hc])
  | unref t =>
    by_cases hc : 0 < (s.call t).held ∧ ((s.call t).cmp = true → 1 < (s.call t).held ∨ (s.call t).cb = .running)
    · refine fine_apply hi (hheld t hc.1) (by simp only [step, if_pos hc]; rfl) (by simp) (by simp) ?_
      exact ok_unref (hi.ok t) hc.1 hc.2
    · exact .inl (by simp only [step, if_neg hc])
  | ret t v =>
    by_cases hc : (s.call t).cb = .running ∧ (s.call t).cmp = false
    · refine fine_apply hi (hcb t (by simp [hc])) (by simp only [step, if_pos hc]; rfl) ?_ (by simp) ?_
      · intro e he; simp at he; subst he; exact ⟨rfl, rfl⟩
      · obtain ⟨c', e, h1, h2, h3, h4⟩ := ok_ret v (hi.ok t) hc.1 hc.2
        exact ⟨c', e, h1, h2, h3, h4 t⟩
    · exact .inl (by simp only [step, if_neg hc])
  | tail t =>
    have key : ((s.call t).cb = .dropReq ∨ (s.call t).cb = .dropTx ∨ (∃ b, (s.call t).cb = .write b) ∨ (s.call t).cb = .fin) →
        step s (.tail t) = apply s t (s.call t).tail [] → Fine s (.tail t) := by
      intro hc hs
      refine fine_apply hi (hcb t ?_) hs (by simp) (by simp) ?_
      · rcases hc with h | h | ⟨b, h⟩ | h <;> simp [h]
      · exact ok_tail (hi.ok t) hc
    cases hc : (s.call t).cb with
    | pending => exact .inl (by simp only [step, hc])
    | running => exact .inl (by simp only [step, hc])
    | done => exact .inl (by simp only [step, hc])
    | dropReq => exact key (.inl hc) (by simp only [step, hc])
    | dropTx => exact key (.inr (.inl hc)) (by simp only [step, hc])
    | write b => exact key (.inr (.inr (.inl ⟨b, hc⟩))) (by simp only [step, hc])
    | fin => exact key (.inr (.inr (.inr hc))) (by simp only [step, hc])

/-- The looper moves on without doing anything to the transaction. -/
theorem inv_phase {s : State} {t : Nat} {ph : Phase} (hi : Inv s) (hs : lp s.phase t ≠ .out)
    (hp : lp ph t ≠ .out) (ho : ∀ u, u ≠ t → lp ph u = .out) (htx : (lp ph t).tx = (lp s.phase t).tx)
    (hok : Ok (lp ph t) (s.call t)) (log : List Ev) : Inv { s with phase := ph, log } := by
  have htx' : ∀ u, (lp ph u).tx = (lp s.phase u).tx := by
    intro u
    by_cases hu : u = t
    · subst hu; exact htx
    · rw [ho u hu, lp_out hs hu]
  obtain ⟨p1, p2, p3, p4, p5, p6⟩ := hi.pipes
  refine ⟨?_, ?_, ⟨p1, p2, ?_, ?_, p5, p6⟩, ?_⟩
  · intro u
    by_cases hu : u = t
    · subst hu; exact hok
    · have := hi.ok u
      rw [lp_out hs hu] at this
      simp only
      rw [ho u hu]
      exact this
  · intro u hu
    have := hi.fresh u hu
    refine ⟨this.1, ?_⟩
    by_cases hut : u = t
    · subst hut; exact absurd this.2 hs
    · exact ho u hut
  · intro u hu; simp only at hu; rw [htx'] at hu; exact p3 u hu
  · intro p hp
    have := p4 p hp
    exact ⟨this.1, this.2.1, fun u hu => by simp only; rw [htx']; exact this.2.2 u hu⟩
  · intro hx; simp only at hx; rw [hx] at hp; exact absurd rfl hp

theorem ok_shift {l l' : Lp} {c : Call} (h : Ok l c) (hl : l.tx = 1) (hl' : l'.tx = 1) : Ok l' c := by
  have e1 : l.req = 1 := by cases l <;> simp [Lp.tx] at hl <;> rfl
  have e2 : l'.req = 1 := by cases l' <;> simp [Lp.tx] at hl' <;> rfl
  have n1 : l ≠ .out := by rintro rfl; simp [Lp.tx] at hl
  have n2 : l' ≠ .out := by rintro rfl; simp [Lp.tx] at hl'
  have n3 : l' ≠ .reply := by rintro rfl; simp [Lp.tx] at hl'
  obtain ⟨tx, req, cb, cmp, held⟩ := c
  obtain ⟨h1, h2, h3, h4, h5, h6⟩ := h
  refine ⟨?_, ?_, ?_, ?_, h5, ?_⟩
  · intro hx; have := h1 hx; omega
  · intro tx hx; rw [hl', ← hl]; exact h2 tx hx
  · intro hx; exact absurd (h3 hx).1 n1
  · intro r hx; rw [e2, ← e1]; exact h4 r hx
  · cases cb <;> (try rename_i bb; cases bb) <;> first | exact h6 | skip
    · obtain ⟨tx', a, b, c, d, e, f, g⟩ := h6
      exact ⟨tx', a, b, c, d, e, f, n2, n3⟩
    · obtain ⟨tx', a, b, c⟩ := h6
      refine ⟨tx', a, b, ?_⟩
      rcases c with c | ⟨_, _, c⟩
      · exact .inl c
      · exact absurd c n1

theorem inv_pipes {s : State} (hi : Inv s) {pipes : Nat → Option (List Bool)}
    (h : ∀ p, pipes p ≠ none ↔ s.pipes p ≠ none) : Inv { s with pipes } := by
  obtain ⟨p1, p2, p3, p4, p5, p6⟩ := hi.pipes
  refine ⟨hi.ok, hi.fresh, ⟨?_, p2, p3, ?_, ?_, ?_⟩, hi.gone⟩
  · intro t p hp; simp only; rw [h]; exact p1 t p hp
  · intro p hp; simp only; rw [h]; exact p4 p hp
  · intro p hp; simp only at hp; rw [h] at hp; exact p5 p hp
  · intro p hp
    have := p6 p hp
    have h2 := h p
    simp only
    cases hx : pipes p with
    | none => rfl
    | some l => rw [hx, this] at h2; simp at h2

theorem fine_read {s : State} (hi : Inv s) : Fine s .read := by
  -- the byte is read from the right pipe
  have key : ∀ t (b : Bool) (l : List Bool) (p : Nat) (ph : Phase), (lp s.phase t).tx = 1 → (lp ph t).tx = 1 →
      (∀ u, u ≠ t → lp ph u = .out) → pipeOpt (s.call t) = some p → s.pipes p = some (b :: l) →
      (∀ u, ph ≠ .got u false) → (∀ u v, ph ≠ .destroy u v ∧ ph ≠ .reply u v) → ph ≠ .idle →
      (∀ w, Good (lp s.phase t) (s.call t) (b :: l) w → Good (lp ph t) (s.call t) l w) →
      Inv { s with pipes := upd s.pipes p (some l), phase := ph } ∧
      (G s → G { s with pipes := upd s.pipes p (some l), phase := ph }) := by
    intro t b l p ph h1 h2 h3 h4 h5 h6 h7 h8 h9
    have hne : lp s.phase t ≠ .out := by intro hx; rw [hx] at h1; simp [Lp.tx] at h1
    have hne' : lp ph t ≠ .out := by intro hx; rw [hx] at h2; simp [Lp.tx] at h2
    constructor
    · have := inv_phase hi hne hne' h3 (by omega) (ok_shift (hi.ok t) h1 h2) s.log
      exact inv_pipes this (by intro q; simp only [upd]; split <;> simp_all)
    · intro hg
      refine ⟨?_, ?_, ?_, ?_, ?_, hg.ans, hg.new⟩
      · intro u hu
        simp only at hu ⊢
        have hut : u = t := by
          apply Classical.byContradiction
          intro hut
          rw [h3 u hut] at hu
          simp [Lp.tx] at hu
        subst hut
        obtain ⟨p', b', g1, g2, g3⟩ := hg.good u h1
        rw [h4] at g1; cases g1
        rw [h5] at g2; cases g2
        exact ⟨p, l, h4, by rw [upd_same], h9 _ g3⟩
      · intro _ hph
        simp only at hph
        rcases hph with hph | ⟨u, v, hph | hph⟩
        · exact absurd hph h8
        · exact absurd hph (h7 u v).1
        · exact absurd hph (h7 u v).2
      · intro u v hph
        simp only at hph
        rcases hph with hph | hph
        · exact absurd hph (h7 u v).1
        · exact absurd hph (h7 u v).2
      · intro u hph; exact absurd hph (h6 u)
      · intro u
        rw [hg.cnt u]
        simp only
        by_cases hut : u = t
        · subst hut; simp [hne, hne']
        · simp [h3 u hut, lp_out hne hut]
  cases hph : s.phase with
  | wait t =>
    have hl : (lp s.phase t).tx = 1 := by simp [hph, lp, Lp.tx]
    obtain ⟨p, hp, htxfd⟩ := hi.pipes.mine t hl
    cases htx : (s.call t).tx with
    | none => simp [pipeOpt, htx] at hp
    | some tx =>
      simp [pipeOpt, htx] at hp
      have hp2 : pipeOpt (s.call t) = some p := by simp [pipeOpt, htx, hp]
      obtain ⟨bl, hbl⟩ := Option.ne_none_iff_exists'.1 (hi.pipes.alive t p hp2).1
      cases bl with
      | nil => exact .inl (by simp only [step, hph, htx, hp, hbl])
      | cons b l =>
        have hb := key t b l p (if b then .got t true else .wait2 t) hl (by cases b <;> simp [lp, Lp.tx])
          (by intro u hu; cases b <;> simp [lp] <;> exact fun hx => absurd hx.symm hu) hp2 hbl
          (by intro u; cases b <;> simp) (by intro u v; cases b <;> simp) (by cases b <;> simp) (by
            rintro w ⟨g1, g2, g3, g4⟩
            have hlw : lp s.phase t = .wait := by simp [hph, lp]
            have hw := g1 hlw
            have hwk := g4 (.inl hlw)
            cases b with
            | false =>
              simp only [Bool.false_eq_true, if_false, lp, if_true]
              exact ⟨by simp, fun _ => hw, by simp, fun _ => hwk⟩
            | true =>
              simp only [if_true, lp]
              refine ⟨by simp, by simp, fun _ => ?_, fun _ => hwk⟩
              have hst := (hi.ok t).stage
              generalize hcc : s.call t = c at hw hst htx
              obtain ⟨ctx, creq, ccb, ccmp, cheld⟩ := c
              simp only at htx
              subst htx
              cases ccb <;> simp [written] at hw
              · obtain ⟨tx', he, hf⟩ := hst
                cases he
                rcases hf with hf | hf | hf
                · simp only [hf.1, if_true] at hw; exact ⟨by simpa using hw, by simp, tx, rfl, hf.2.1⟩
                · simp [hf] at hw
                · simp [hf] at hw
              · have hf := hst tx rfl
                rcases hf with hf | hf | hf
                · simp only [hf.1, if_true] at hw; exact ⟨by simpa using hw, by simp, tx, rfl, hf.2.1⟩
                · simp [hf] at hw
                · simp [hf] at hw)
        refine .inr ⟨_, by simp only [step, hph, htx, hp, hbl], hb.1, fun hg _ => hb.2 hg⟩
  | wait2 t =>
    have hl : (lp s.phase t).tx = 1 := by simp [hph, lp, Lp.tx]
    obtain ⟨p, hp, htxfd⟩ := hi.pipes.mine t hl
    cases htx : (s.call t).tx with
    | none => simp [pipeOpt, htx] at hp
    | some tx =>
      simp [pipeOpt, htx] at hp
      have hp2 : pipeOpt (s.call t) = some p := by simp [pipeOpt, htx, hp]
      obtain ⟨bl, hbl⟩ := Option.ne_none_iff_exists'.1 (hi.pipes.alive t p hp2).1
      cases bl with
      | nil => exact .inl (by simp only [step, hph, htx, hp, hbl])
      | cons b l =>
        have hb := key t b l p (.got t true) hl (by simp [lp, Lp.tx])
          (by intro u hu; simp [lp]; exact fun hx => absurd hx.symm hu) hp2 hbl
          (by intro u; simp) (by intro u v; simp) (by simp) (by
            rintro w ⟨g1, g2, g3, g4⟩
            have hlw : lp s.phase t = .wait2 := by simp [hph, lp]
            have hw := g2 hlw
            have hwk := g4 (.inr (.inl hlw))
            simp only [if_true, lp]
            refine ⟨by simp, by simp, fun _ => ?_, fun _ => hwk⟩
            have hst := (hi.ok t).stage
            generalize hcc : s.call t = c at hw hst htx
            obtain ⟨ctx, creq, ccb, ccmp, cheld⟩ := c
            simp only at htx
            subst htx
            cases ccb <;> simp [written] at hw
            · obtain ⟨tx', he, hf⟩ := hst
              cases he
              rcases hf with hf | hf | hf
              · simp [hf.1] at hw
              · simp [hf] at hw
              · simp [hf] at hw; exact ⟨by simpa using hw.2, by simp, tx, rfl, hf.2.1⟩
            · have hf := hst tx rfl
              rcases hf with hf | hf | hf
              · simp [hf.1] at hw
              · simp [hf] at hw
              · simp [hf] at hw; exact ⟨by simpa using hw.2, by simp, tx, rfl, hf.2.1⟩)
        refine .inr ⟨_, by simp only [step, hph, htx, hp, hbl], hb.1, fun hg _ => hb.2 hg⟩
  | idle => exact .inl (by simp only [step, hph])
  | got t k => exact .inl (by simp only [step, hph])
  | destroy t v => exact .inl (by simp only [step, hph])
  | reply t v => exact .inl (by simp only [step, hph])
  | gone => exact .inl (by simp only [step, hph])

theorem next_idle {t : Nat} {w : Work} {e : Ev} (h : (∃ u, e = .giveUp u) ∨ (∃ u, e = .noPipe u) ∨ ∃ u v, e = .answer u v) :
    w.next t e = w := by
  rcases h with ⟨u, rfl⟩ | ⟨u, rfl⟩ | ⟨u, v, rfl⟩ <;> cases w <;> rfl

theorem fine_giveUp {s : State} (hi : Inv s) : Fine s .giveUp := by
  have key : ∀ t, lp s.phase t = .wait ∨ lp s.phase t = .wait2 →
      step s .giveUp = .ok { s with phase := .got t false, log := s.log ++ [.giveUp t] } → Fine s .giveUp := by
    intro t hl hst
    have h1 : (lp s.phase t).tx = 1 := by rcases hl with h | h <;> rw [h] <;> rfl
    have hne : lp s.phase t ≠ .out := by rcases hl with h | h <;> rw [h] <;> simp
    have hph : lp (.got t false) t = .got false := by simp [lp]
    have hout : ∀ u, u ≠ t → lp (.got t false) u = .out := by
      intro u hu; simp [lp]; exact fun hx => absurd hx.symm hu
    refine .inr ⟨_, hst, ?_, fun hg _ => ?_⟩
    · exact inv_phase hi hne (by rw [hph]; simp) hout (by rw [hph, h1]; rfl)
        (by rw [hph]; exact ok_shift (hi.ok t) h1 rfl) _
    · refine ⟨?_, ?_, ?_, ?_, ?_, ?_, ?_⟩
      · intro u hu
        simp only at hu ⊢
        by_cases hut : u = t
        · subst hut
          obtain ⟨p, b, g1, g2, _⟩ := hg.good u h1
          refine ⟨p, b, g1, g2, ?_⟩
          rw [hph]
          constructor <;> simp
        · rw [hout u hut] at hu; simp [Lp.tx] at hu
      · intro hp; exact absurd (by simp) (hp t)
      · intro u v hx; simp at hx
      · intro u hx
        simp at hx
        subst hx
        simp
      · intro u
        simp only [answers_append]
        simp only [answers, List.append_nil]
        rw [hg.cnt u]
        by_cases hut : u = t
        · subst hut; simp [hne, hph]
        · simp [hout u hut, lp_out hne hut]
      · intro a u v b hx
        rcases split_append hx with ⟨_, h, _⟩ | ⟨b', _, h⟩
        · cases h
        · exact hg.ans a u v b' h
      · intro u hu
        simp only [work_append]
        rw [next_idle (.inl ⟨_, rfl⟩)]
        exact hg.new u hu
  cases hph : s.phase with
  | wait t => exact key t (.inl (by simp [hph, lp])) (by simp only [step, hph])
  | wait2 t => exact key t (.inr (by simp [hph, lp])) (by simp only [step, hph])
  | idle => exact .inl (by simp only [step, hph])
  | got t k => exact .inl (by simp only [step, hph])
  | destroy t v => exact .inl (by simp only [step, hph])
  | reply t v => exact .inl (by simp only [step, hph])
  | gone => exact .inl (by simp only [step, hph])

theorem fine_take {s : State} (hi : Inv s) : Fine s .take := by
  cases hph : s.phase with
  | got t k =>
    have hlt : lp s.phase t = .got k := by simp [hph, lp]
    have hne : lp s.phase t ≠ .out := by simp [hlt]
    have hok := hi.ok t
    rw [hlt] at hok
    obtain ⟨tx, c', d, htx, hu, hok', hd⟩ := ok_take hok
    have hout : ∀ v u, u ≠ t → lp (.destroy t v) u = .out := by
      intro v u hu; simp [lp]; exact fun hx => absurd hx.symm hu
    have htt : ∀ v, lp (.destroy t v) t = .destroy := by intro v; simp [lp]
    have h0 : ∀ v u, (lp (.destroy t v) u).tx = 0 := by
      intro v u; simp only [lp]; split <;> rfl
    obtain ⟨p, hp, hfd⟩ := hi.pipes.mine t (by rw [hlt]; rfl)
    obtain ⟨p1, p2, p3, p4, p5, p6⟩ := hi.pipes
    have hin : ∀ u q, pipeOpt (upd s.call t c' u) = some q → pipeOpt (s.call u) = some q := by
      intro u q hx
      by_cases hut : u = t
      · subst hut
        rw [upd_same] at hx
        rcases hd with ⟨_, hd, _⟩ | ⟨_, hd⟩
        · simp [pipeOpt, hd] at hx
        · exact hd.symm.trans hx
      · rw [upd_ne _ _ hut] at hx; exact hx
    have hstep : step s .take = .ok { s with
        call := upd s.call t c', txfd := if d then s.txfd else none
        phase := .destroy t (if k then tx.val else efault) } := by
      simp only [step, hph, htx, hu, effects]
    refine .inr ⟨_, hstep, ?_, ?_⟩
    · refine ⟨?_, ?_, ⟨?_, ?_, ?_, ?_, ?_, p6⟩, by simp⟩
      · intro u
        simp only
        by_cases hut : u = t
        · subst hut; rw [upd_same, htt]; exact hok'
        · rw [upd_ne _ _ hut, hout _ u hut]
          have := hi.ok u
          rw [lp_out hne hut] at this
          exact this
      · intro u hx
        have hut : u ≠ t := by intro hx2; subst hx2; exact hne (hi.fresh u hx).2
        simp only
        rw [upd_ne _ _ hut]
        exact ⟨(hi.fresh u hx).1, hout _ u hut⟩
      · intro u q hx; exact p1 u q (hin u q hx)
      · intro u v q hx hy; exact p2 u v q (hin u q hx) (hin v q hy)
      · intro u hx; simp only at hx; rw [h0] at hx; cases hx
      · intro q hx
        simp only at hx ⊢
        rcases hd with ⟨rfl, hd, _⟩ | ⟨rfl, hd⟩
        · simp only [if_true] at hx
          refine ⟨(p4 q hx).1, (p4 q hx).2.1, fun u hy => ?_⟩
          have hut : u = t := by
            have := (p4 q hx).2.2 u (hin u q hy)
            exact lp_cases this (by rw [hlt]; rfl)
          subst hut
          rw [upd_same] at hy
          simp [pipeOpt, hd] at hy
        · simp at hx
      · intro q hx
        simp only at hx ⊢
        rcases hd with ⟨rfl, hd, _⟩ | ⟨rfl, hd⟩
        · simp only [if_true]
          rcases p5 q hx with h | ⟨u, hy⟩
          · exact .inl h
          · by_cases hut : u = t
            · subst hut; rw [hp] at hy; cases hy; exact .inl hfd
            · exact .inr ⟨u, by rw [upd_ne _ _ hut]; exact hy⟩
        · right
          rcases p5 q hx with h | ⟨u, hy⟩
          · rw [hfd] at h; cases h
            exact ⟨t, by rw [upd_same]; exact hd.trans hp⟩
          · by_cases hut : u = t
            · subst hut; exact ⟨u, by rw [upd_same]; exact hd.trans hy⟩
            · exact ⟨u, by rw [upd_ne _ _ hut]; exact hy⟩
    · intro hg _
      refine ⟨?_, ?_, ?_, ?_, ?_, hg.ans, hg.new⟩
      · intro u hx; simp only at hx; rw [h0] at hx; cases hx
      · intro hpat _ q hx
        simp only at hx ⊢
        have hk : k = true := by
          cases k with
          | true => rfl
          | false => exact absurd (hg.gotf t hph) (hpat t)
        subst hk
        obtain ⟨p', b, g1, g2, g3⟩ := hg.good t (by rw [hlt]; rfl)
        rw [hp] at g1; cases g1
        have := (g3.got hlt).1
        subst this
        rcases hd with ⟨rfl, hd, _⟩ | ⟨rfl, hd⟩
        · simp only [if_true] at hx
          rw [hfd] at hx; cases hx; exact g2
        · simp at hx
      · intro u v hx
        simp only [reduceCtorEq, or_false] at hx
        cases hx
        cases k with
        | false => exact .inr ⟨.inl (hg.gotf _ hph), rfl⟩
        | true =>
          obtain ⟨p', b, g1, g2, g3⟩ := hg.good t (by rw [hlt]; rfl)
          obtain ⟨_, hcb, tx', htx', hst⟩ := g3.got hlt
          have hw := g3.work (.inr (.inr hlt))
          left
          simp only [if_true]
          rw [hw]
          rw [htx] at htx'; cases htx'
          rcases hcb with hcb | hcb <;> simp [works, htx, hcb, hst]
      · intro u hx; simp at hx
      · intro u
        simp only
        rw [hg.cnt u]
        by_cases hut : u = t
        · subst hut; simp [hne, htt]
        · simp [hout _ u hut, lp_out hne hut]
  | wait t => exact .inl (by simp only [step, hph])
  | wait2 t => exact .inl (by simp only [step, hph])
  | idle => exact .inl (by simp only [step, hph])
  | destroy t v => exact .inl (by simp only [step, hph])
  | reply t v => exact .inl (by simp only [step, hph])
  | gone => exact .inl (by simp only [step, hph])

/-- A change which doesn't matter to the looper. -/
theorem g_phase {s : State} {t : Nat} {call : Nat → Call} {pipes : Nat → Option (List Bool)} {v : Val}
    (hg : G s) (hph : s.phase = .destroy t v) (hp : ∀ p, s.txfd = some p → pipes p = s.pipes p) :
    G { s with call, pipes, phase := .reply t v } := by
  have hlt : lp s.phase t = .destroy := by simp [hph, lp]
  have hne : lp s.phase t ≠ .out := by simp [hlt]
  have hout : ∀ u, u ≠ t → lp (.reply t v) u = .out := by
    intro u hu; simp [lp]; exact fun hx => absurd hx.symm hu
  refine ⟨?_, ?_, ?_, ?_, ?_, hg.ans, hg.new⟩
  · intro u hx; simp only [lp] at hx; split at hx <;> simp [Lp.tx] at hx
  · intro hpat _ q hx
    simp only at hx ⊢
    rw [hp q hx]
    exact hg.empty hpat (.inr ⟨t, v, .inl hph⟩) q hx
  · intro u w hx
    simp only [reduceCtorEq, false_or] at hx
    cases hx
    exact hg.val t v (.inl hph)
  · intro u hx; simp at hx
  · intro u
    simp only
    rw [hg.cnt u]
    by_cases hut : u = t
    · subst hut
      have : lp (.reply u v) u = .reply := by simp [lp]
      simp [hne, this]
    · simp [hout u hut, lp_out hne hut]

theorem fine_destroy {s : State} (hi : Inv s) : Fine s .destroy := by
  cases hph : s.phase with
  | destroy t v =>
    have hlt : lp s.phase t = .destroy := by simp [hph, lp]
    have hne : lp s.phase t ≠ .out := by simp [hlt]
    have hok := hi.ok t
    rw [hlt] at hok
    have hrt : lp (.reply t v) t = .reply := by simp [lp]
    have hout : ∀ u, u ≠ t → lp (.reply t v) u = .out := by
      intro u hu; simp [lp]; exact fun hx => absurd hx.symm hu
    by_cases hp : (s.call t).cb = .pending
    · obtain ⟨c', h1, h2, h3, h4⟩ := ok_destroy hok hp
      obtain ⟨pipes, h5, h6, h7, h8⟩ := inv_apply (evs := []) (f := some (c', [.close])) (ph := .reply t v) hi (.inl hne) rfl
        (by rw [hrt]; exact h2) (.inr (.inl ⟨rfl, h3, h4⟩))
        (by intro u; rw [hph]; simp only [lp]; split <;> rfl)
        (by intro u hu; rw [hout u hu, lp_out hne hu]) (by simp)
      simp only [List.append_nil] at h5 h6
      have he : effects (pipeOf (s.call t)) s.pipes [.close] = some pipes := by
        simp only [apply] at h5
        split at h5
        · cases h5
        · injection h5 with h5; injection h5; simp_all
      refine .inr ⟨_, by simp only [step, hph, hp, if_true, h1, he], h6, fun hg _ => ?_⟩
      apply g_phase hg hph
      intro q hq
      apply h7
      intro hx
      have := (hi.pipes.txfd q hq).2.2 t hx
      rw [hlt] at this
      simp [Lp.tx] at this
    · have hstep : step s .destroy = .ok { s with phase := .reply t v } := by
        simp only [step, hph, hp, if_false]
      refine .inr ⟨_, hstep, ?_, fun hg _ => ?_⟩
      · exact inv_phase hi hne (by simp [hrt]) hout (by rw [hrt, hlt]; rfl) (by rw [hrt]; exact ok_destroy2 hok hp) s.log
      · exact g_phase hg hph (fun _ _ => rfl)
  | wait t => exact .inl (by simp only [step, hph])
  | wait2 t => exact .inl (by simp only [step, hph])
  | idle => exact .inl (by simp only [step, hph])
  | got t k => exact .inl (by simp only [step, hph])
  | reply t v => exact .inl (by simp only [step, hph])
  | gone => exact .inl (by simp only [step, hph])

theorem fine_answer {s : State} (hi : Inv s) : Fine s .answer := by
  cases hph : s.phase with
  | reply t v =>
    have hlt : lp s.phase t = .reply := by simp [hph, lp]
    have hne : lp s.phase t ≠ .out := by simp [hlt]
    have hok := hi.ok t
    rw [hlt] at hok
    obtain ⟨c', e, h1, h2, h3⟩ := ok_answer hok
    obtain ⟨pipes, h5, h6, h7, h8⟩ := inv_apply (evs := [.answer t v]) (ph := .idle) hi (.inl hne) h1
      h2 h3
      (by intro u; rw [hph]; simp only [lp]; split <;> rfl)
      (by intro u hu; rw [lp_out hne hu]; rfl) (by simp)
    refine .inr ⟨_, by simp only [step, hph, h5], h6, fun hg _ => ?_⟩
    have htc : t < s.calls := by
      apply Nat.lt_of_not_le
      intro hx
      exact hne (hi.fresh t hx).2
    refine ⟨?_, ?_, ?_, ?_, ?_, ?_, ?_⟩
    · intro u hx; simp [lp, Lp.tx] at hx
    · intro hpat _ q hx
      simp only at hx ⊢
      rw [h7 q (by
        intro hy
        have := (hi.pipes.txfd q hx).2.2 t hy
        rw [hlt] at this
        simp [Lp.tx] at this)]
      exact hg.empty (fun u hu => hpat u (by simp [hu])) (.inr ⟨t, v, .inr hph⟩) q hx
    · intro u w hx; simp at hx
    · intro u hx; simp at hx
    · intro u
      simp only [answers_append, List.length_append, hg.cnt u]
      by_cases hut : u = t
      · subst hut
        have : lp .idle u = .out := rfl
        simp [hne, answers, htc, this]
      · have h1 : ¬ t = u := fun h => hut h.symm
        have h2 : lp .idle u = .out := rfl
        simp [lp_out hne hut, h2, answers, h1]
    · intro a u w b hx
      rcases split_append hx with ⟨_, h, h'⟩ | ⟨b', _, h⟩
      · cases h
        subst h'
        exact hg.val t v (.inr hph)
      · exact hg.ans a u w b' h
    · intro u hu
      simp only [work_append]
      rw [next_idle (.inr (.inr ⟨_, _, rfl⟩))]
      exact hg.new u hu
  | wait t => exact .inl (by simp only [step, hph])
  | wait2 t => exact .inl (by simp only [step, hph])
  | idle => exact .inl (by simp only [step, hph])
  | got t k => exact .inl (by simp only [step, hph])
  | destroy t v => exact .inl (by simp only [step, hph])
  | gone => exact .inl (by simp only [step, hph])

theorem fine_exit {s : State} (hi : Inv s) : Fine s .exit := by
  cases hph : s.phase with
  | idle =>
    obtain ⟨p1, p2, p3, p4, p5, p6⟩ := hi.pipes
    have hl : ∀ u, lp s.phase u = .out := by intro u; rw [hph]; rfl
    have hnp : ∀ u q, s.txfd = some q → pipeOpt (s.call u) ≠ some q := by
      intro u q hq hx
      have := (p4 q hq).2.2 u hx
      rw [hl] at this; simp [Lp.tx] at this
    have key : ∀ pipes : Nat → Option (List Bool), (∀ q, s.txfd = some q → pipes q = none) →
        (∀ q, s.txfd ≠ some q → pipes q = s.pipes q) →
        Inv { s with phase := .gone, txfd := none, pipes } ∧
        (G s → G { s with phase := .gone, txfd := none, pipes }) := by
      intro pipes k1 k2
      constructor
      · refine ⟨?_, ?_, ⟨?_, p2, ?_, by simp, ?_, ?_⟩, fun _ => rfl⟩
        · intro u; have := hi.ok u; rw [hl] at this; exact this
        · intro u hu; exact ⟨(hi.fresh u hu).1, rfl⟩
        · intro u q hx
          have := p1 u q hx
          refine ⟨?_, this.2⟩
          simp only
          rw [k2 q (fun hy => hnp u q hy hx)]
          exact this.1
        · intro u hu; simp [lp, Lp.tx] at hu
        · intro q hq
          simp only at hq ⊢
          have hne : s.txfd ≠ some q := fun hx => hq (k1 q hx)
          rw [k2 q hne] at hq
          rcases p5 q hq with h | h
          · exact absurd h hne
          · exact .inr h
        · intro q hq
          simp only at hq ⊢
          by_cases hx : s.txfd = some q
          · exact k1 q hx
          · rw [k2 q hx]; exact p6 q hq
      · intro hg
        refine ⟨?_, ?_, ?_, ?_, ?_, hg.ans, hg.new⟩
        · intro u hu; simp [lp, Lp.tx] at hu
        · intro _ _ q hq; simp at hq
        · intro u v hx; simp at hx
        · intro u hx; simp at hx
        · intro u
          have := hg.cnt u
          rw [hl] at this
          exact this
    cases htx : s.txfd with
    | none =>
      have := key s.pipes (by intro q hq; rw [htx] at hq; cases hq) (fun _ _ => rfl)
      exact .inr ⟨_, by simp only [step, hph, htx], this.1, fun hg _ => this.2 hg⟩
    | some p =>
      have hp := (p4 p htx).1
      obtain ⟨bl, hbl⟩ := Option.ne_none_iff_exists'.1 hp
      have := key (upd s.pipes p none) (by intro q hq; rw [htx] at hq; cases hq; exact upd_same ..)
        (by intro q hq; rw [upd_ne]; intro hx; subst hx; exact hq htx)
      exact .inr ⟨_, by simp only [step, hph, htx, effect, hbl], this.1, fun hg _ => this.2 hg⟩
  | wait t => exact .inl (by simp only [step, hph])
  | wait2 t => exact .inl (by simp only [step, hph])
  | got t k => exact .inl (by simp only [step, hph])
  | destroy t v => exact .inl (by simp only [step, hph])
  | reply t v => exact .inl (by simp only [step, hph])
  | gone => exact .inl (by simp only [step, hph])

theorem fine_begin {s : State} (hi : Inv s) : Fine s .begin := by
  cases hph : s.phase with
  | idle =>
    obtain ⟨p1, p2, p3, p4, p5, p6⟩ := hi.pipes
    have hl : ∀ u, lp s.phase u = .out := by intro u; rw [hph]; rfl
    have hnp : ∀ u q, s.txfd = some q → pipeOpt (s.call u) ≠ some q := by
      intro u q hq hx
      have := (p4 q hq).2.2 u hx
      rw [hl] at this; simp [Lp.tx] at this
    have hwt : lp (.wait s.calls) s.calls = .wait := by simp [lp]
    have hout : ∀ u, u ≠ s.calls → lp (.wait s.calls) u = .out := by
      intro u hu; simp [lp]; exact fun hx => absurd hx.symm hu
    have key : ∀ (pipes : Nat → Option (List Bool)) (npipes p : Nat) (c : Call),
        c = { tx := some { refs := 2, pipe := p, hasReq := true, st := .scheduled, val := (none, 0) },
              req := some { refs := 2, tx := false }, cb := .pending } →
        pipes p ≠ none → p < npipes → s.npipes ≤ npipes → (∀ u, pipeOpt (s.call u) ≠ some p) →
        (∀ q, q ≠ p → pipes q = s.pipes q) → (∀ q, npipes ≤ q → pipes q = none) →
        (∀ q, q ≠ p → s.txfd ≠ some q) →
        Inv { s with calls := s.calls + 1, call := upd s.call s.calls c, phase := .wait s.calls, npipes
                     pipes, txfd := some p, log := s.log ++ [.begin s.calls] } ∧
        (G s → pipes p = some [] →
         G { s with calls := s.calls + 1, call := upd s.call s.calls c, phase := .wait s.calls, npipes
                    pipes, txfd := some p, log := s.log ++ [.begin s.calls] }) := by
      intro pipes npipes p c hc k1 k2 k3 k4 k5 k6 k7
      have hcp : pipeOpt c = some p := by rw [hc]; rfl
      constructor
      · refine ⟨?_, ?_, ⟨?_, ?_, ?_, ?_, ?_, k6⟩, by simp⟩
        · intro u
          simp only
          by_cases hu : u = s.calls
          · subst hu
            rw [upd_same, hwt, hc]
            constructor <;> simp [Lp.tx, Lp.req, reqTx, hasReq, Stage, Cb.ref]
          · rw [upd_ne _ _ hu, hout u hu]
            have := hi.ok u; rw [hl] at this; exact this
        · intro u hu
          simp only at hu ⊢
          rw [upd_ne _ _ (by omega), hout u (by omega)]
          exact ⟨(hi.fresh u (by omega)).1, rfl⟩
        · intro u q hx
          simp only at hx ⊢
          by_cases hu : u = s.calls
          · subst hu; rw [upd_same, hcp] at hx; cases hx; exact ⟨k1, k2⟩
          · rw [upd_ne _ _ hu] at hx
            have hqp : q ≠ p := by intro hy; subst hy; exact k4 u hx
            rw [k5 q hqp]
            exact ⟨(p1 u q hx).1, Nat.lt_of_lt_of_le (p1 u q hx).2 k3⟩
        · intro u v q hx hy
          simp only at hx hy
          by_cases hu : u = s.calls <;> by_cases hv : v = s.calls
          · omega
          · subst hu; rw [upd_same, hcp] at hx; rw [upd_ne _ _ hv] at hy; cases hx; exact absurd hy (k4 v)
          · subst hv; rw [upd_same, hcp] at hy; rw [upd_ne _ _ hu] at hx; cases hy; exact absurd hx (k4 u)
          · rw [upd_ne _ _ hu] at hx; rw [upd_ne _ _ hv] at hy; exact p2 u v q hx hy
        · intro u hu
          simp only at hu ⊢
          by_cases hx : u = s.calls
          · subst hx; rw [upd_same]; exact ⟨p, hcp, rfl⟩
          · rw [hout u hx] at hu; simp [Lp.tx] at hu
        · intro q hq
          simp only at hq ⊢
          cases hq
          refine ⟨k1, k2, fun u hx => ?_⟩
          by_cases hu : u = s.calls
          · subst hu; rw [hwt]; rfl
          · rw [upd_ne _ _ hu] at hx; exact absurd hx (k4 u)
        · intro q hq
          simp only at hq ⊢
          by_cases hqp : q = p
          · left; rw [hqp]
          · rw [k5 q hqp] at hq
            rcases p5 q hq with h | ⟨u, h⟩
            · exact absurd h (k7 q hqp)
            · right
              refine ⟨u, ?_⟩
              have hu : u ≠ s.calls := by
                intro hx; subst hx
                rw [(hi.fresh _ (Nat.le_refl _)).1] at h
                simp at h
              rw [upd_ne _ _ hu]; exact h
      · intro hg hp
        refine ⟨?_, ?_, ?_, ?_, ?_, ?_, ?_⟩
        · intro u hu
          simp only at hu ⊢
          by_cases hx : u = s.calls
          · subst hx
            rw [upd_same]
            refine ⟨p, [], hcp, hp, ?_⟩
            rw [hwt, work_append, hg.new _ (Nat.le_refl _), hc]
            constructor <;> simp [written, works, Work.next]
          · rw [hout u hx] at hu; simp [Lp.tx] at hu
        · intro _ hx; simp at hx
        · intro u v hx; simp at hx
        · intro u hx; simp at hx
        · intro u
          simp only [answers_append]
          simp only [answers, List.append_nil]
          rw [hg.cnt u, hl]
          by_cases hx : u = s.calls
          · subst hx; simp [hwt]
          · rw [hout u hx]
            by_cases h1 : u < s.calls
            · simp [h1, show u < s.calls + 1 by omega]
            · simp [h1, show ¬ u < s.calls + 1 by omega]
        · intro a u v b hx
          rcases split_append hx with ⟨_, h, _⟩ | ⟨b', _, h⟩
          · cases h
          · exact hg.ans a u v b' h
        · intro u hu
          simp only at hu ⊢
          rw [work_append, next_other (by simp only [Ev.who]; omega)]
          exact hg.new u (by omega)
    cases htx : s.txfd with
    | some p =>
      have hk := key s.pipes s.npipes p _ rfl (p4 p htx).1 (p4 p htx).2.1 (Nat.le_refl _) (fun u => hnp u p htx)
        (fun _ _ => rfl) p6 (by intro q hq hx; rw [htx] at hx; cases hx; exact hq rfl)
      rw [← htx] at hk
      exact .inr ⟨_, by simp only [step, hph, htx], hk.1, fun hg hpat => hk.2 hg (hg.empty (hpat rfl) (.inl hph) p htx)⟩
    | none =>
      have hk := key (upd s.pipes s.npipes (some [])) (s.npipes + 1) s.npipes _ rfl (by rw [upd_same]; simp)
        (Nat.lt_succ_self _) (Nat.le_succ _)
        (by intro u hx; have := (p1 u _ hx).2; omega) (fun q hq => upd_ne _ _ hq)
        (by intro q hq; rw [upd_ne _ _ (by omega)]; exact p6 q (by omega)) (by simp [htx])
      exact .inr ⟨_, by simp only [step, hph, htx], hk.1, fun hg _ => hk.2 hg (upd_same ..)⟩
  | wait t => exact .inl (by simp only [step, hph])
  | wait2 t => exact .inl (by simp only [step, hph])
  | got t k => exact .inl (by simp only [step, hph])
  | destroy t v => exact .inl (by simp only [step, hph])
  | reply t v => exact .inl (by simp only [step, hph])
  | gone => exact .inl (by simp only [step, hph])

theorem fine_noPipe {s : State} (hi : Inv s) : Fine s .noPipe := by
  by_cases h : s.phase = .idle ∧ s.txfd = none
  · obtain ⟨hph, htx⟩ := h
    obtain ⟨p1, p2, p3, p4, p5, p6⟩ := hi.pipes
    have hl : ∀ u, lp s.phase u = .out := by intro u; rw [hph]; rfl
    have hrt : lp (.reply s.calls efault) s.calls = .reply := by simp [lp]
    have hout : ∀ u, u ≠ s.calls → lp (.reply s.calls efault) u = .out := by
      intro u hu; simp [lp]; exact fun hx => absurd hx.symm hu
    have hpo : ∀ u, pipeOpt (upd s.call s.calls { req := some { refs := 1, tx := false } } u) = pipeOpt (s.call u) := by
      intro u
      by_cases hu : u = s.calls
      · subst hu
        rw [upd_same, (hi.fresh _ (Nat.le_refl _)).1]
      · rw [upd_ne _ _ hu]
    have hst : step s .noPipe = .ok { s with
        calls := s.calls + 1, call := upd s.call s.calls { req := some { refs := 1, tx := false } }
        phase := .reply s.calls efault, log := s.log ++ [.noPipe s.calls] } := by
      simp only [step, hph, htx]
    refine .inr ⟨_, hst, ⟨?_, ?_, ⟨?_, ?_, ?_, ?_, ?_, p6⟩, by simp⟩, fun hg _ => ?_⟩
    · intro u
      simp only
      by_cases hu : u = s.calls
      · subst hu
        rw [upd_same, hrt]
        constructor <;> simp [Lp.tx, Lp.req, reqTx, hasReq, Stage]
      · rw [upd_ne _ _ hu, hout u hu]
        have := hi.ok u; rw [hl] at this; exact this
    · intro u hu
      simp only at hu ⊢
      rw [upd_ne _ _ (by omega), hout u (by omega)]
      exact ⟨(hi.fresh u (by omega)).1, rfl⟩
    · intro u q hx
      simp only [hpo] at hx ⊢
      exact p1 u q hx
    · intro u v q hx hy
      simp only [hpo] at hx hy
      exact p2 u v q hx hy
    · intro u hu
      simp only [lp] at hu
      split at hu <;> simp [Lp.tx] at hu
    · intro q hq
      simp only [htx] at hq
      cases hq
    · intro q hq
      simp only [hpo] at hq ⊢
      exact p5 q hq
    · refine ⟨?_, ?_, ?_, ?_, ?_, ?_, ?_⟩
      · intro u hu
        simp only [lp] at hu
        split at hu <;> simp [Lp.tx] at hu
      · intro _ _ q hq
        simp only [htx] at hq
        cases hq
      · intro u v hx
        simp only [reduceCtorEq, false_or, Phase.reply.injEq] at hx
        obtain ⟨rfl, rfl⟩ := hx
        exact .inr ⟨.inr (by simp), rfl⟩
      · intro u hx; simp at hx
      · intro u
        simp only [answers_append]
        simp only [answers, List.append_nil]
        rw [hg.cnt u, hl]
        by_cases hx : u = s.calls
        · subst hx; simp [hrt]
        · rw [hout u hx]
          by_cases h1 : u < s.calls
          · simp [h1, show u < s.calls + 1 by omega]
          · simp [h1, show ¬ u < s.calls + 1 by omega]
      · intro a u v b hx
        rcases split_append hx with ⟨_, h, _⟩ | ⟨b', _, h⟩
        · cases h
        · exact hg.ans a u v b' h
      · intro u hu
        simp only at hu ⊢
        rw [work_append, next_idle (.inr (.inl ⟨_, rfl⟩))]
        exact hg.new u (by omega)
  · refine .inl ?_
    simp only [step]
    split
    · rename_i h1 h2
      exact absurd ⟨h1, h2⟩ h
    · rfl

theorem fine {s : State} (hi : Inv s) (l : Label) : Fine s l := by
  cases l
  case noPipe => exact fine_noPipe hi
  case begin => exact fine_begin hi
  case read => exact fine_read hi
  case giveUp => exact fine_giveUp hi
  case take => exact fine_take hi
  case destroy => exact fine_destroy hi
  case answer => exact fine_answer hi
  case exit => exact fine_exit hi
  all_goals exact fine_main hi _ (by simp)

end Gb.LooperTx
