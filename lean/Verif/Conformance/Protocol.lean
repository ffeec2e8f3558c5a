import Verif.Model.Rpc
import Verif.Model.Config
import Verif.Conformance.Writer
/-
What unit/unit_protocol/unit_protocol.c and unit/unit_config/unit_config.c expect of the code is what
the model does. These are tests of the model, not proofs of anything.
-/
set_option autoImplicit false

namespace Gb.Conformance
namespace Proto

/-- 'f', 'o', 'o', 0 in UTF-16. -/
def foo16 : Bytes := [0x66, 0x6f, 0x6f, 0].flatMap (leBytes 2)
/-- test_header_aidl (unit_protocol.c:71-76). -/
def aidl : Bytes := leBytes 4 0x400000 ++ leBytes 4 3 ++ foo16
/-- test_header_aidl2 (unit_protocol.c:78-84). -/
def aidl2 : Bytes := leBytes 4 0x400000 ++ leBytes 4 0xffffffff ++ leBytes 4 3 ++ foo16
/-- test_header_aidl3 (unit_protocol.c:86-93). -/
def aidl3 : Bytes :=
  leBytes 4 0x400000 ++ leBytes 4 0xffffffff ++ [0x54, 0x53, 0x59, 0x53] ++ leBytes 4 3 ++ foo16
/-- test_header_hidl (unit_protocol.c:95-97). -/
def hidl : Bytes := [0x66, 0x6f, 0x6f, 0]

/-- What is written by the header function. -/
def header (p : Protocol) : Option Bytes :=
  (writeRpcHeader env { io := .io32, protocol := .aidl } p [0x66, 0x6f, 0x6f]).toOption.map (·.bytes)

-- test_write_header (unit_protocol.c:375-400)
example : header .aidl = some aidl := by decide +kernel
example : header .aidl2 = some aidl2 := by decide +kernel
example : header .aidl3 = some aidl3 := by decide +kernel
example : header .hidl = some hidl := by decide +kernel

/-- gbinder_remote_request_interface of what was received. -/
def iface (p : Protocol) (code : Nat) (b : Bytes) : Option (Option Bytes) :=
  (RemoteReq.setData .io32 p code b []).toOption.map (·.iface)

-- test_read_header (unit_protocol.c:406-429)
example : iface .aidl 1 aidl = some (some [0x66, 0x6f, 0x6f]) := by decide +kernel
example : iface .aidl 1 (aidl.take 8) = some none := by decide +kernel
example : iface .aidl2 1 aidl2 = some (some [0x66, 0x6f, 0x6f]) := by decide +kernel
example : iface .aidl2 1 (aidl2.take 1) = some none := by decide +kernel
example : iface .aidl2 1 (aidl2.take 5) = some none := by decide +kernel
example : iface .aidl 1 (aidl2.take 9) = some none := by decide +kernel
example : iface .aidl3 1 aidl3 = some (some [0x66, 0x6f, 0x6f]) := by decide +kernel
example : iface .aidl3 1 (aidl3.take 1) = some none := by decide +kernel
example : iface .aidl3 1 (aidl3.take 5) = some none := by decide +kernel
example : iface .aidl 1 (aidl3.take 9) = some none := by decide +kernel
example : iface .hidl 1 hidl = some (some [0x66, 0x6f, 0x6f]) := by decide +kernel
example : iface .hidl 1 (hidl.take 1) = some none := by decide +kernel

-- test_no_header1, test_no_header2 (unit_protocol.c:314-332, 338-363); GBINDER_DUMP_TRANSACTION is '_DMP'
example : [Protocol.aidl, .aidl2, .aidl3].all (fun p => iface p 1 [] = some none) = true := by
  decide +kernel
example : [Protocol.aidl, .aidl2, .aidl3].all
  (fun p => iface p (packChars 0x5f 0x44 0x4d 0x50) aidl = some none) = true := by decide +kernel

end Proto

namespace Conf
open Config

/-- The numbers which are there in the tests. -/
def int (b : Bytes) : Int :=
  if b = str "27" then 27 else if b = str "28" then 28 else if b = str "29" then 29
  else if b = str "30" then 30 else if b = str "31" then 31 else 0

/-- One line of a file. -/
def line (g k v : String) : Bytes × Bytes × Bytes := (str g, str k, str v)

/-- The protocols of the devices if there's one file. -/
def protocolsOf (f : KeyFile) (devs : List String) : List Protocol :=
  let s := (initProtocols int (start { main := some (some f) })).2
  devs.map fun d => s.choose (str d)

-- test_device (unit_protocol.c:175-198)
example : protocolsOf [] ["/dev/binder", "/dev/hwbinder"] = [.aidl, .hidl] := by decide +kernel
-- test_config1, test_config2, test_config3 (unit_protocol.c:204-234, 240-276, 282-308)
example : protocolsOf [line "Protocol" "/dev/binder" "hidl", line "Protocol" "/dev/hwbinder" "foo"]
  ["/dev/hwbinder", "/dev/binder", "/dev/someotherbinder"] = [.hidl, .hidl, .aidl] := by decide +kernel
example : protocolsOf [line "Protocol" "Default" "hidl", line "Protocol" "/dev/vndbinder" "hidl",
    line "Protocol" "/dev/hwbinder" "foo"]
  ["/dev/vndbinder", "/dev/hwbinder", "/dev/binder", "/dev/someotherbinder"] =
  [.hidl, .hidl, .aidl, .hidl] := by decide +kernel
example : protocolsOf [line "Whatever" "/dev/hwbinder" "aidl"] ["/dev/hwbinder", "/dev/binder"] =
  [.hidl, .aidl] := by decide +kernel

/-- gbinder_config_get(). -/
def conf (fs : Fs) : Option KeyFile := (loadFiles int fs true).1

-- test_null, test_non_exit, test_bad_config (unit_config.c:138-153, 159-180, 186-212)
example : conf {} = none := by decide +kernel
example : conf { main := some none } = none := by decide +kernel

/-- config (unit_config.c:237-240). -/
def main : KeyFile := [line "Protocol" "/dev/binder" "aidl", line "Protocol" "/dev/hbinder" "hidl"]
/-- config1 (unit_config.c:241-245). -/
def a : KeyFile :=
  [line "Protocol" "/dev/hwbinder" "hidl", line "ServiceManager" "/dev/binder" "aidl"]
/-- config2 (unit_config.c:246-250). -/
def b : KeyFile :=
  [line "Protocol" "/dev/binder" "aidl2", line "ServiceManager" "/dev/binder" "aidl2"]
/-- config3 (unit_config.c:251-255). -/
def c : KeyFile :=
  [line "Protocol" "/dev/binder3" "aidl3", line "ServiceManager" "/dev/binder3" "aidl3"]
/-- config4 (unit_config.c:256-260). -/
def d : KeyFile :=
  [line "Protocol" "/dev/binder4" "aidl3", line "ServiceManager" "/dev/binder4" "aidl4"]

/-- The files in the directory, in the order in which they happen to be found. -/
def dir (a b c d : Option (Option KeyFile)) : List File :=
  [{ name := str "foo", content := none }] ++
  (d.map fun k => { name := str "d.conf", content := k : File }).toList ++
  (b.map fun k => { name := str "b.conf", content := k : File }).toList ++
  [{ name := str "dir.conf", regular := false, content := none }] ++
  (a.map fun k => { name := str "a.conf", content := k : File }).toList ++
  (c.map fun k => { name := str "c.conf", content := k : File }).toList

/-- test_value for everything that's checked by test_dirs. -/
def values (fs : Fs) : Option (List (Option Bytes)) :=
  (conf fs).map fun k =>
    (["/dev/binder", "/dev/binder3", "/dev/binder4", "/dev/hbinder", "/dev/hwbinder"].map fun d =>
      KeyFile.get k protocolGroup (str d)) ++
    (["/dev/binder", "/dev/binder3", "/dev/binder4"].map fun d =>
      KeyFile.get k managerGroup (str d))

/-- What is expected. -/
def expect (l : List String) : Option (List (Option Bytes)) :=
  some (l.map fun s => if s = "" then none else some (str s))

-- test_dirs (unit_config.c:218-368)
example : values { main := some (some main), dir := dir (some a) (some b) (some c) (some d) } =
  expect ["aidl2", "aidl3", "aidl3", "hidl", "hidl", "aidl2", "aidl3", "aidl4"] := by decide +kernel
example : values { dir := dir (some a) (some b) (some c) (some d) } =
  expect ["aidl2", "aidl3", "aidl3", "", "hidl", "aidl2", "aidl3", "aidl4"] := by decide +kernel
example : values { dir := dir (some none) (some b) (some c) (some d) } =
  expect ["aidl2", "aidl3", "aidl3", "", "", "aidl2", "aidl3", "aidl4"] := by decide +kernel
example : values { dir := dir none none none (some d) } =
  expect ["", "", "aidl3", "", "", "", "", "aidl4"] := by decide +kernel
example : conf { dir := dir none none none none } = none := by decide +kernel

-- test_autorelease (unit_config.c:374-410): the second call finds the file which has been loaded
example : (get int (get int (start { main := some (some []) }))).cache = some [] := by decide +kernel

/-- The files have the same keys with the same values (unit_config.c:65-132). -/
def equal (x y : KeyFile) : Bool :=
  x.all (fun e => KeyFile.get y e.1 e.2.1 == KeyFile.get x e.1 e.2.1) &&
  y.all (fun e => KeyFile.get x e.1 e.2.1 == KeyFile.get y e.1 e.2.1)

/-- test_presets_data (unit_config.c:464-540). -/
def presets : List (KeyFile × KeyFile) :=
  [([line "General" "ApiLevel" "28", line "ServiceManager" "/dev/vndbinder" "aidl"],
    [line "General" "ApiLevel" "28", line "ServiceManager" "/dev/binder" "aidl2",
     line "ServiceManager" "/dev/vndbinder" "aidl"]),
   ([line "General" "ApiLevel" "27"], [line "General" "ApiLevel" "27"]),
   ([line "General" "ApiLevel" "28"],
    [line "General" "ApiLevel" "28", line "ServiceManager" "/dev/binder" "aidl2",
     line "ServiceManager" "/dev/vndbinder" "aidl2"]),
   ([line "General" "ApiLevel" "29"],
    [line "General" "ApiLevel" "29", line "Protocol" "/dev/binder" "aidl2",
     line "Protocol" "/dev/vndbinder" "aidl2", line "ServiceManager" "/dev/binder" "aidl2",
     line "ServiceManager" "/dev/vndbinder" "aidl2"]),
   ([line "General" "ApiLevel" "30"],
    [line "General" "ApiLevel" "30", line "Protocol" "/dev/binder" "aidl3",
     line "Protocol" "/dev/vndbinder" "aidl3", line "ServiceManager" "/dev/binder" "aidl3",
     line "ServiceManager" "/dev/vndbinder" "aidl3"]),
   ([line "General" "ApiLevel" "31"],
    [line "General" "ApiLevel" "31", line "Protocol" "/dev/binder" "aidl3",
     line "Protocol" "/dev/vndbinder" "aidl3", line "ServiceManager" "/dev/binder" "aidl4",
     line "ServiceManager" "/dev/vndbinder" "aidl4"])]

-- test_presets (unit_config.c:422-462)
example : presets.all (fun t =>
    ((conf { main := some (some t.1) }).map (equal t.2)).getD false) = true := by decide +kernel

end Conf
end Gb.Conformance
