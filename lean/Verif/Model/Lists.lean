import Verif.Model.Reader
/-
Lists of services: src/gbinder_servicemanager_aidl.c, src/gbinder_servicemanager_aidl3.c and
src/gbinder_servicemanager_hidl.c. A reply is represented by the reader initialized with
gbinder_remote_reply_init_reader.
-/
set_option autoImplicit false

namespace Gb.Lists

/-- What the list function has come to
(gbinder_servicemanager_aidl.c:160-190 etc., no code of its own). -/
inductive Outcome (α : Type) where
  /-- It has returned. -/
  | done (result : α)
  /-- It's still running. -/
  | running
  | ub

/-- gbinder_servicemanager_aidl.c:160-190 `gbinder_servicemanager_aidl_list`, also aidl2. `peer i` is the reply
to the request for the index `i`, if there is one. The list is NULL terminated, here it's without
the NULL. The second part of the result are the indexes which have been requested.
Simplified: `list->len` isn't converted to gint32. -/
def aidl (peer : Nat → Option Reader) : Nat → List Bytes → List Nat → Outcome (List Bytes × List Nat)
  | 0, _, _ => .running
  | n + 1, list, asked =>
    let asked := asked ++ [list.length]
    match peer list.length with
    | none => .done (list, asked)
    | some r =>
      match r.readString16 with
      | .ok (some service) _ => aidl peer n (list ++ [service]) asked
      | .ok none _ => .done (list, asked)
      | .fail _ => .done (list, asked)
      | .ub _ => .ub

/-- gbinder_servicemanager_aidl3.c:106-108: the loop, `count` times. The elements may be NULL. -/
def strings : Nat → Reader → Res (List (Option Bytes))
  | 0, r => .ok [] r
  | n + 1, r => r.readString16.bind fun s r => (strings n r).map (s :: ·)

/-- The part of the array which the user of the (NULL terminated) list sees
(what gbinder_servicemanager_aidl3.c:79-119 returns is a NULL terminated array). -/
def visible : List (Option Bytes) → List Bytes
  | some s :: l => s :: visible l
  | _ => []

/-- gbinder_servicemanager_aidl3.c:79-119 `gbinder_servicemanager_aidl3_list`, also aidl4. The status is
read, and ignored. -/
def aidl3 (reply : Option Reader) : Outcome (List (Option Bytes)) :=
  match reply with
  | none => .done []
  | some r =>
    match (match r.readUInt32 with | .ok _ r => r.readUInt32 | .fail r => r.readUInt32 | .ub k => .ub k) with
    | .ok count r =>
      if 2 ^ 31 ≤ count then .done []
      else match strings count r with
        | .ok l _ => .done l
        | .fail _ => .done []
        | .ub _ => .ub
    | .fail _ => .done []
    | .ub _ => .ub

/-- gbinder_servicemanager_hidl.c:154-182 `gbinder_servicemanager_hidl_list`; GASSERT and GVERIFY don't
check anything. -/
def hidl (m : Mem) (reply : Option Reader) : Outcome (Option (List Bytes)) :=
  match reply with
  | none => .done none
  | some r =>
    match (match r.readUInt32 with
      | .ok _ r => r.readHidlStringVec m | .fail r => r.readHidlStringVec m | .ub k => .ub k) with
    | .ok l _ => .done l
    | .fail _ => .done none
    | .ub _ => .ub

end Gb.Lists
