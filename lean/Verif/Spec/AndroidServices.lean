import Verif.Spec.AndroidObjects
import Verif.Spec.AndroidHidl
import Verif.Spec.AndroidCalls
/-
Specification: how the service managers of Android read the requests they receive (servicemanager.c up to Android 10,
the code generated from IServiceManager.aidl since then, hwservicemanager), and how Android's own clients read the
replies. Those aren't part of the repository.
-/
set_option autoImplicit false

namespace Gb.Android

/-- Releases of Android. -/
inductive Release | r8 | r9 | r10 | r11 | r12 | r13
  deriving DecidableEq, Repr

/-- The header of a request, see `enforce`. -/
def Release.protocol : Release → Protocol
  | .r8 | .r9 => .aidl
  | .r10 => .aidl2
  | _ => .aidl3

/-- The name of the interface of the service manager. -/
def managerName : List Char := ['a', 'n', 'd', 'r', 'o', 'i', 'd', '.', 'o', 's', '.',
  'I', 'S', 'e', 'r', 'v', 'i', 'c', 'e', 'M', 'a', 'n', 'a', 'g', 'e', 'r']

/-- The header; what's returned is where the arguments are. -/
def Release.start (r : Release) (b : Bytes) : Option Nat :=
  match enforce syst b r.protocol with
  | some (.units us, p) => if us = managerName.flatMap utf16 then some p else none
  | _ => none

/-- A reference to an object. There is no stability up to Android 10. In Android 11 and 13 it's an integer, in Android
12 that has the version of the format in the first byte and the stability in the last one. -/
def Release.object (r : Release) (io : Io) (b : Bytes) (offs : List Nat) (p : Nat) : Option (Ref × Nat) :=
  match r with
  | .r8 | .r9 | .r10 => (readBinder io false b offs p).map fun x => (x.1, x.2.2)
  | .r11 | .r13 => (readBinder io true b offs p).map fun x => (x.1, x.2.2)
  | .r12 =>
    match readBinder io false b offs p with
    | none => none
    | some (x, _, q) =>
      if q + 4 ≤ b.length ∧ 1 ≤ num b q 4 % 256 ∧
          (if x = .null then num b q 4 / 2 ^ 24 = 0 else num b q 4 / 2 ^ 24 ∈ [0x03, 0x0c, 0x3f]) then some (x, q + 4)
      else none

/-- The arguments of addService. -/
structure Added where
  name : List Nat
  service : Ref
  allowIsolated : Bool
  /-- Since Android 8.1 -/
  dumpPriority : Option Nat
  /-- What hasn't been looked at. -/
  rest : Nat
  deriving DecidableEq, Repr

/-- The method addService. -/
def Release.addService (r : Release) (io : Io) (b : Bytes) (offs : List Nat) : Option Added := do
  let p ← r.start b
  match readAt b p .string16 with
  | some (.units (some name), p) =>
    let (x, p) ← r.object io b offs p
    match readAt b p .bool with
    | some (.bool isolated, p) =>
      if r = .r8 then some ⟨name, x, isolated, none, b.length - p⟩
      else
        match readAt b p .int32 with
        | some (.num prio, p) => some ⟨name, x, isolated, some prio, b.length - p⟩
        | _ => none
    | _ => none
  | _ => none

/-- The methods getService and checkService: the name, and what hasn't been looked at. -/
def Release.getService (r : Release) (b : Bytes) : Option (List Nat × Nat) := do
  let p ← r.start b
  match readAt b p .string16 with
  | some (.units (some name), p) => some (name, b.length - p)
  | _ => none

/-- The arguments of listServices. -/
structure Listed where
  /-- Up to Android 10 -/
  index : Option Nat
  /-- Since Android 8.1 -/
  dumpPriority : Option Nat
  rest : Nat
  deriving DecidableEq, Repr

/-- The method listServices. -/
def Release.listServices (r : Release) (b : Bytes) : Option Listed := do
  let p ← r.start b
  match r with
  | .r8 =>
    match readAll b p [.int32] with
    | some ([.num i], p) => some ⟨some i, none, b.length - p⟩
    | _ => none
  | .r9 | .r10 =>
    match readAll b p [.int32, .int32] with
    | some ([.num i, .num d], p) => some ⟨some i, some d, b.length - p⟩
    | _ => none
  | _ =>
    match readAll b p [.int32] with
    | some ([.num d], p) => some ⟨none, some d, b.length - p⟩
    | _ => none

/-- What getService and checkService return: since Android 11 it follows the status, which is zero. -/
def Release.found (r : Release) (io : Io) (b : Bytes) (offs : List Nat) : Option Ref :=
  match r with
  | .r8 | .r9 | .r10 => (r.object io b offs 0).map (·.1)
  | _ => if num b 0 4 = 0 then (r.object io b offs 4).map (·.1) else none

/-- Up to Android 10 listServices returns a name, there's nothing in the reply after the last one (or there is no reply). -/
def nameReplied (b : Bytes) : Option (List Nat) :=
  match readAt b 0 .string16 with
  | some (.units s, _) => s
  | _ => none

/-- `n` names. -/
def namesAt (b : Bytes) (p : Nat) : Nat → Option (List (List Nat))
  | 0 => some []
  | n + 1 =>
    match readAt b p .string16 with
    | some (.units (some s), p) => (namesAt b p n).map (s :: ·)
    | _ => none

/-- Since Android 11 listServices returns all the names: their number (a signed one) follows the status. -/
def namesReplied (b : Bytes) : Option (List (List Nat)) :=
  match readAll b 0 [.int32, .int32] with
  | some ([.num status, .num n], p) => if status = 0 ∧ n < 2 ^ 31 then namesAt b p n else none
  | _ => none

/-! ### HIDL -/

/-- The name of the interface of hwservicemanager. -/
def hwManagerName : List Char := ['a', 'n', 'd', 'r', 'o', 'i', 'd', '.', 'h', 'i', 'd', 'l', '.',
  'm', 'a', 'n', 'a', 'g', 'e', 'r', '@', '1', '.', '0', ':', ':',
  'I', 'S', 'e', 'r', 'v', 'i', 'c', 'e', 'M', 'a', 'n', 'a', 'g', 'e', 'r']

/-- The header. -/
def Parcel.start (c : Parcel) : Option Nat :=
  match enforce syst c.data .hidl with
  | some (.text s, p) => if s = utf8Text hwManagerName then some p else none
  | _ => none

/-- The method add: the name of the instance, the object, and what hasn't been looked at. -/
def Parcel.add (c : Parcel) : Option (Bytes × Ref × Nat) := do
  let p ← c.start
  let (name, p) ← c.readString p
  let (x, _, p) ← readBinder c.io false c.data c.offs p
  some (name, x, c.data.length - p)

/-- The method get: the interface, the instance, and what hasn't been looked at. -/
def Parcel.get (c : Parcel) : Option (Bytes × Bytes × Nat) := do
  let p ← c.start
  let (fq, p) ← c.readString p
  let (name, p) ← c.readString p
  some (fq, name, c.data.length - p)

/-- The method list has no arguments. -/
def Parcel.list (c : Parcel) : Option Nat := c.start.map (c.data.length - ·)

/-- The method registerForNotifications: the interface, the instance, the callback, and what hasn't been looked at. -/
def Parcel.registerForNotifications (c : Parcel) : Option (Bytes × Bytes × Ref × Nat) := do
  let p ← c.start
  let (fq, p) ← c.readString p
  let (name, p) ← c.readString p
  let (x, _, p) ← readBinder c.io false c.data c.offs p
  some (fq, name, x, c.data.length - p)

/-- What get returns, after the status. -/
def Parcel.got (c : Parcel) : Option Ref :=
  if num c.data 0 4 = 0 then (readBinder c.io false c.data c.offs 4).map (·.1) else none

/-- What list returns, after the status. -/
def Parcel.listed (c : Parcel) : Option (List Bytes) :=
  if 4 ≤ c.data.length ∧ num c.data 0 4 = 0 then (c.readStringVec 4).map (·.1) else none

/-- A boolean in a HIDL parcel is a byte (`Parcel::writeBool` of libhwbinder), which is padded with zeros. -/
def hwBool (b : Bytes) (p : Nat) : Option (Bool × Nat) :=
  if p + 4 ≤ b.length ∧ num b (p + 1) 3 = 0 then some (decide (num b p 1 ≠ 0), p + 4) else none

/-- What registerForNotifications returns, after the status. -/
def Parcel.registered (c : Parcel) : Option Bool :=
  if 4 ≤ c.data.length ∧ num c.data 0 4 = 0 then (hwBool c.data 4).map (·.1) else none

/-- The name of the interface which hwservicemanager calls. -/
def hwNotificationName : List Char := ['a', 'n', 'd', 'r', 'o', 'i', 'd', '.', 'h', 'i', 'd', 'l', '.',
  'm', 'a', 'n', 'a', 'g', 'e', 'r', '@', '1', '.', '0', ':', ':',
  'I', 'S', 'e', 'r', 'v', 'i', 'c', 'e', 'N', 'o', 't', 'i', 'f', 'i', 'c', 'a', 't', 'i', 'o', 'n']

/-- The call onRegistration: the interface, the instance, whether it has been there before, and what follows. There are
no objects in the header. -/
def Parcel.onRegistration (c : Parcel) : Option (Bytes × Bytes × Bool × Nat) :=
  match enforce syst c.data .hidl with
  | some (.text s, p) =>
    if s = utf8Text hwNotificationName ∧ c.offs.head? = some p then do
      let (fq, p) ← c.readString p
      let (name, p) ← c.readString p
      let (pre, p) ← hwBool c.data p
      some (fq, name, pre, c.data.length - p)
    else none
  | _ => none

end Gb.Android
