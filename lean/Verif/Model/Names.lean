import Verif.Basic.Bytes
/-
Names of services: the check_name and normalize_name callbacks of the service managers
(src/gbinder_servicemanager_hidl.c, src/gbinder_servicemanager_aidl.c) and what
src/gbinder_servicemanager.c makes of them. Names are C strings, i.e. bytes other than zero.
-/
set_option autoImplicit false

namespace Gb.Names

/-- gbinder_servicemanager_p.h:51-54 GBINDER_SERVICEMANAGER_NAME_CHECK -/
inductive Check | ok | normalize | invalid
  deriving DecidableEq, Repr

/-- The kinds of service managers, gbinder_servicemanager.c:80-86. Those for aidl2, aidl3 and aidl4 are
derived from aidl and don't override any of these. -/
inductive Kind | aidl | hidl
  deriving DecidableEq, Repr

/-- '/' (gbinder_servicemanager_hidl.c:325-354). -/
def slash : Byte := 0x2f

/-- gbinder_servicemanager_hidl.c:332-334: allowed_chars, "./0123456789:@", "A" to "Z" and "a" to "z". -/
def allowed : Bytes := "./0123456789:@ABCDEFGHIJKLMNOPQRSTUVWXYZabcdefghijklmnopqrstuvwxyz".toUTF8.data.toList

/-- strspn: the length of the initial part which consists of these characters
(called at gbinder_servicemanager_hidl.c:337). -/
def strspn (s : Bytes) (set : Bytes) : Nat := (s.takeWhile fun c => set.contains c).length

/-- gbinder_servicemanager_hidl.c:325-344, gbinder_servicemanager_aidl.c:234-241 -/
def check : Kind → Bytes → Check
  | .aidl, _ => .ok
  | .hidl, s =>
    if s.length ≠ 0 ∧ strspn s allowed = s.length then
      if s.contains slash then .normalize else .ok
    else .invalid

/-- gbinder_servicemanager_hidl.c:346-354: the part before the first slash. -/
def normalize (s : Bytes) : Bytes := s.takeWhile (· ≠ slash)

/-- gbinder_servicemanager.c:596-607, 943-952: the name to look up in (or add to) the table. -/
def norm (k : Kind) (s : Bytes) : Option Bytes :=
  match check k s with
  | .ok => some s
  | .normalize => some (normalize s)
  | .invalid => none

end Gb.Names
