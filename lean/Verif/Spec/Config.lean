import Verif.Model.Config
/-
What the configuration says about a device.

`Setting` is what the files say about a key: a file in the directory which sets it counts more than those
with smaller names, and all of them count more than the main file. `Last` is the same about those values
which are known.
-/
set_option autoImplicit false

namespace Gb.Config

/-- The last value of a key in the file. -/
def Says (f : KeyFile) (g k v : Bytes) : Prop :=
  ∃ before after, f = before ++ (g, k, v) :: after ∧ ∀ e ∈ after, ¬(e.1 = g ∧ e.2.1 = k)

/-- A configuration file in the directory. -/
def IsConf (fs : Fs) (f : File) (c : KeyFile) : Prop :=
  f ∈ fs.dir ∧ f.regular = true ∧ (∃ p, f.name = p ++ str ".conf") ∧ f.content = some c

/-- `v` is the last value such that `p` of the key, if files are taken in the alphabetical order after
the main one. -/
inductive Last (p : Bytes → Prop) (fs : Fs) (g k v : Bytes) : Prop
  | dir (f : File) (c : KeyFile) : IsConf fs f c → Says c g k v → p v →
      (∀ f' c' v', IsConf fs f' c' → Says c' g k v' → p v' → Poll.le f'.name f.name = true) → Last p fs g k v
  | main (c : KeyFile) : (∀ f' c' v', IsConf fs f' c' → Says c' g k v' → ¬p v') → fs.main = some (some c) →
      Says c g k v → p v → Last p fs g k v

/-- The API level: 0 if it isn't configured. -/
def Level (int : Bytes → Int) (fs : Fs) (n : Int) : Prop :=
  (∃ v, Last (fun _ => True) fs (str "General") (str "ApiLevel") v ∧ n = int v) ∨
  ((¬∃ v, Last (fun _ => True) fs (str "General") (str "ApiLevel") v) ∧ n = 0)

/-- Presets of the RPC protocol: those of level 30 are used for higher levels too. -/
def protocolPreset (dev : Bytes) (n : Int) : Option Protocol :=
  if dev = str "/dev/binder" ∨ dev = str "/dev/vndbinder" then
    if n < 29 then none else if n < 30 then some .aidl2 else some .aidl3
  else none

/-- Presets of the service manager. -/
def managerPreset (dev : Bytes) (n : Int) : Option Client.Kind :=
  if dev = str "/dev/binder" ∨ dev = str "/dev/vndbinder" then
    if n < 28 then none else if n < 30 then some .aidl2 else if n < 31 then some .aidl3 else some .aidl4
  else none

/-- What is built in. -/
def builtIn {α : Type} (aidl hidl : α) (dev : Bytes) : Option α :=
  if dev = str "/dev/binder" then some aidl else if dev = str "/dev/hwbinder" then some hidl else none

/-- The rule: what is configured explicitly (`none` if it's not), the preset, the built-in value, what is
configured as the default, `aidl`. -/
def rule {α : Type} (explicit preset built dflt : Option α) (aidl : α) : α :=
  (explicit <|> preset <|> built <|> dflt).getD aidl

/-- The value of the key which counts, as `known` understands it. -/
def Setting {α : Type} (known : Bytes → Option α) (p : Bytes → Prop) (fs : Fs) (g k : Bytes) (a : Option α) : Prop :=
  (∃ v, Last p fs g k v ∧ a = known v) ∨ ((¬∃ v, Last p fs g k v) ∧ a = none)

/-- The property: unknown values don't count. -/
def Intended {α : Type} (int : Bytes → Int) (known : Bytes → Option α) (group : Bytes)
    (preset : Bytes → Int → Option α) (aidl hidl : α) (fs : Fs) (dev : Bytes) (r : α) : Prop :=
  ∃ n a d, Level int fs n ∧ Setting known (fun v => (known v).isSome) fs group dev a ∧
    Setting known (fun v => (known v).isSome) fs group (str "Default") d ∧
    r = rule a (preset dev n) (builtIn aidl hidl dev) d aidl

/-- What's true: an unknown value isn't used, but it hides the known ones of other files and presets. -/
def Actual {α : Type} (int : Bytes → Int) (known : Bytes → Option α) (group : Bytes)
    (preset : Bytes → Int → Option α) (aidl hidl : α) (fs : Fs) (dev : Bytes) (r : α) : Prop :=
  ∃ n a d q, Level int fs n ∧ Setting known (fun _ => True) fs group dev a ∧
    Setting known (fun _ => True) fs group (str "Default") d ∧
    ((∃ v, Last (fun _ => True) fs group dev v) → q = none) ∧
    ((¬∃ v, Last (fun _ => True) fs group dev v) → q = preset dev n) ∧
    r = rule a q (builtIn aidl hidl dev) d aidl

/-- The names which are understood. -/
def isProtocol : Protocol → String
  | .aidl => "aidl"
  | .aidl2 => "aidl2"
  | .aidl3 => "aidl3"
  | .hidl => "hidl"

/-- The names which are understood. -/
def isManager : Client.Kind → String
  | .aidl => "aidl"
  | .aidl2 => "aidl2"
  | .aidl3 => "aidl3"
  | .aidl4 => "aidl4"
  | .hidl => "hidl"

/-- The same letters, but perhaps not in the same case. -/
def SameLetters (a b : Bytes) : Prop :=
  a.length = b.length ∧ ∀ x ∈ a.zip b, x.1 = x.2 ∨
    (0x41 ≤ x.1 ∧ x.1 ≤ 0x5a ∧ x.2 = x.1 + 0x20) ∨ (0x41 ≤ x.2 ∧ x.2 ≤ 0x5a ∧ x.1 = x.2 + 0x20)

end Gb.Config
