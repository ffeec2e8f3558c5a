import Verif.Model.Io
import Verif.Model.Client
import Verif.Model.Poll
/-
src/gbinder_config.c, and what src/gbinder_rpc_protocol.c and src/gbinder_servicemanager.c make of the
configuration.

Simplified: a file is what GLib's parser makes of it, i.e. a list of (group, key, value) or an error; if a key
is there more than once, the last value counts. The values of g_key_file_get_integer() are given as a function
which is a parameter. The names of files have no zeros in them and are different from each other. Exit handlers
(gbinder_config.c:401-415, gbinder_rpc_protocol.c:346-355, gbinder_servicemanager.c:502-512) aren't there.
-/
set_option autoImplicit false

namespace Gb.Config

/-- A string constant. -/
def str (s : String) : Bytes := s.toUTF8.data.toList

/-- GKeyFile, as used by gbinder_config.c:207-335: groups, keys and values. -/
abbrev KeyFile := List (Bytes × Bytes × Bytes)

/-- g_key_file_get_value(), gbinder_config.c:223, 381. -/
def KeyFile.get (f : KeyFile) (g k : Bytes) : Option Bytes :=
  (f.reverse.find? fun e => e.1 == g && e.2.1 == k).map (·.2.2)

/-- g_key_file_set_value(), gbinder_config.c:225, 250. -/
def KeyFile.set (f : KeyFile) (g k v : Bytes) : KeyFile :=
  (f.filter fun e => !(e.1 == g && e.2.1 == k)) ++ [(g, k, v)]

/-- A file in the configuration directory: its name, whether it is a regular one, and what
g_key_file_load_from_file() makes of it (gbinder_config.c:159-205, 297-309). -/
structure File where
  name : Bytes
  regular : Bool := true
  content : Option KeyFile
  deriving Repr

/-- The files: `main` is /etc/gbinder.conf, `none` if it isn't there (gbinder_config.c:265-279), and
`dir` is /etc/gbinder.d, in the order in which g_dir_read_name() finds the files
(gbinder_config.c:179-189). -/
structure Fs where
  main : Option (Option KeyFile) := none
  dir : List File := []
  deriving Repr

/-- g_str_has_suffix(name, ".conf"), gbinder_config.c:180. -/
def hasSuffix (name : Bytes) : Bool := (str ".conf").isSuffixOf name

/-- One step of sorting (gbinder_config.c:195). -/
def insertFile (a : File) : List File → List File
  | [] => [a]
  | b :: l => if Poll.le a.name b.name then a :: b :: l else b :: insertFile a l

/-- gbinder_config.c:159-205 `gbinder_config_collect_files`. The full names are sorted there; those start
with the same directory. -/
def collect (l : List File) : List File :=
  (l.filter fun f => hasSuffix f.name && f.regular).foldr insertFile []

/-- gbinder_config.c:222-227: one key. -/
def mergeKey (src d : KeyFile) (e : Bytes × Bytes × Bytes) : KeyFile :=
  match KeyFile.get src e.1 e.2.1 with
  | some v => KeyFile.set d e.1 e.2.1 v
  | none => d

/-- gbinder_config.c:207-234 `gbinder_config_merge_keyfiles`. -/
def merge (dest src : KeyFile) : KeyFile := src.foldl (mergeKey src) dest

/-- gbinder_config.c:236-254 `gbinder_config_apply_presets`. -/
def applyPresets (f : KeyFile) (p : KeyFile) : KeyFile :=
  p.foldl (fun d e => if (KeyFile.get d e.1 e.2.1).isSome then d else KeyFile.set d e.1 e.2.1 e.2.2) f

/-- gbinder_config.h:66 `GBINDER_CONFIG_GROUP_PROTOCOL`. -/
def protocolGroup : Bytes := str "Protocol"

/-- gbinder_config.h:67 `GBINDER_CONFIG_GROUP_SERVICEMANAGER`. -/
def managerGroup : Bytes := str "ServiceManager"

/-- gbinder_config.h:68 `GBINDER_CONFIG_VALUE_DEFAULT`. -/
def defaultKey : Bytes := str "Default"

/-- The same value for /dev/binder and /dev/vndbinder (gbinder_config.c:89-93, 102-106, 118-128, 138-142). -/
def both (g : Bytes) (v : String) : KeyFile :=
  [(g, str "/dev/binder", str v), (g, str "/dev/vndbinder", str v)]

/-- gbinder_config.c:87-157 `gbinder_config_presets`, in the order of the table. -/
def presets : List (Nat × KeyFile) :=
  [(31, both protocolGroup "aidl3" ++ both managerGroup "aidl4"),
   (30, both protocolGroup "aidl3" ++ both managerGroup "aidl3"),
   (29, both protocolGroup "aidl2" ++ both managerGroup "aidl2"),
   (28, both managerGroup "aidl2")]

/-- gbinder_config.c:292-311: one file of the directory. -/
def loadOne (out : Option KeyFile) (f : File) : Option KeyFile :=
  match f.content with
  | none => out
  | some k =>
    match out with
    | none => some k
    | some o => some (merge o k)

/-- gbinder_config.c:286-317: the files of the directory, one after another. -/
def loadDir (out : Option KeyFile) (l : List File) : Option KeyFile := l.foldl loadOne out

/-- gbinder_config.c:319-332. -/
def applyLevel (int : Bytes → Int) (out : KeyFile) : KeyFile :=
  let level : Int := ((KeyFile.get out (str "General") (str "ApiLevel")).map int).getD 0
  if level > 0 then
    match presets.find? fun p => level ≥ (p.1 : Int) with
    | some p => applyPresets out p.2
    | none => out
  else out

/-- gbinder_config.c:256-335 `gbinder_config_load_files`. `en` tells whether gbinder_config_file is still there;
the second component is what is left of it. -/
def loadFiles (int : Bytes → Int) (fs : Fs) (en : Bool) : Option KeyFile × Bool :=
  let files := collect fs.dir
  let (out, en) : Option KeyFile × Bool :=
    if en then
      match fs.main with
      | none => (none, true)
      | some (some k) => (some k, true)
      | some none => (none, false)
    else (none, false)
  ((loadDir out files).map (applyLevel int), en)

/-- A GHashTable of devices (gbinder_config.c:363-399). -/
abbrev Map (α : Type) := List (Bytes × α)

/-- g_hash_table_lookup(), e.g. gbinder_rpc_protocol.c:384. -/
def Map.get {α : Type} (m : Map α) (k : Bytes) : Option α := (m.find? fun e => e.1 == k).map (·.2)

/-- g_hash_table_remove(), e.g. gbinder_rpc_protocol.c:378. -/
def Map.remove {α : Type} (m : Map α) (k : Bytes) : Map α := m.filter fun e => !(e.1 == k)

/-- g_hash_table_replace(), gbinder_config.c:385. -/
def Map.replace {α : Type} (m : Map α) (k : Bytes) (v : α) : Map α := (k, v) :: m.remove k

/-- gbinder_config.c:377-391: one key. -/
def loadKey {α : Type} (f : KeyFile) (group : Bytes) (mapper : Bytes → Option α) (m : Map α)
    (e : Bytes × Bytes × Bytes) : Map α :=
  match (KeyFile.get f group e.2.1).bind mapper with
  | some v => m.replace e.2.1 v
  | none => m

/-- gbinder_config.c:363-399 `gbinder_config_load`, with the key file of `gbinder_config_get`. -/
def load {α : Type} (k : Option KeyFile) (group : Bytes) (mapper : Bytes → Option α) : Map α :=
  match k with
  | none => []
  | some f =>
    (f.filter fun e => e.1 == group).foldl (loadKey f group mapper) []

/-- gbinder_rpc_protocol.c:310-320 and gbinder_servicemanager.c:456-466, `..._map_add_default`. -/
def addDefault {α : Type} (m : Map α) (dev : Bytes) (v : α) : Map α :=
  if (m.get dev).isSome then m else m.replace dev v

/-- What's remembered: the map and the default (gbinder_rpc_protocol.c:65-66 and gbinder_servicemanager.c:92-94). -/
structure Table (α : Type) where
  map : Map α
  dflt : α

/-- gbinder_rpc_protocol.c:330-344, 366-381, and gbinder_servicemanager.c:485-499, 633-649: the map with the
built-in devices, and the default taken from it. -/
def table {α : Type} (aidl hidl : α) (m : Map α) : Table α :=
  let m := addDefault (addDefault m (str "/dev/binder") aidl) (str "/dev/hwbinder") hidl
  match m.get defaultKey with
  | some p => { map := m.remove defaultKey, dflt := p }
  | none => { map := m, dflt := aidl }

/-- gbinder_rpc_protocol.c:384-390 and gbinder_servicemanager.c:652-658. -/
def Table.choose {α : Type} (t : Table α) (dev : Bytes) : α := (t.map.get dev).getD t.dflt

/-- g_ascii_tolower(), gbinder_rpc_protocol.c:303. -/
def lower (b : Byte) : Byte := if 0x41 ≤ b ∧ b ≤ 0x5a then b + 0x20 else b

/-- gbinder_rpc_protocol.c:125, 173, 230, 276 and 288-293 `gbinder_rpc_protocol_list`. -/
def protocols : List (Bytes × Protocol) :=
  [(str "aidl", .aidl), (str "aidl2", .aidl2), (str "aidl3", .aidl3), (str "hidl", .hidl)]

/-- gbinder_rpc_protocol.c:295-308 `gbinder_rpc_protocol_find`. -/
def findProtocol (name : Bytes) : Option Protocol :=
  (protocols.find? fun p => p.1.map lower == name.map lower).map (·.2)

/-- gbinder_servicemanager.c:80-86 `gbinder_servicemanager_types`. -/
def managers : List (Bytes × Client.Kind) :=
  [(str "aidl", .aidl), (str "aidl2", .aidl2), (str "aidl3", .aidl3), (str "aidl4", .aidl4), (str "hidl", .hidl)]

/-- gbinder_servicemanager.c:468-483 `gbinder_servicemanager_value_map`. -/
def findManager (name : Bytes) : Option Client.Kind :=
  (managers.find? fun p => p.1 == name).map (·.2)

/-- What can be seen: the protocol for the device (gbinder_rpc_protocol.c:362-396), and the type of the service manager
(gbinder_servicemanager.c:626-675) or NULL. -/
inductive Ev
  | protocol (dev : Bytes) (p : Protocol)
  | manager (dev : Bytes) (name : Option Bytes) (k : Option Client.Kind)
  deriving DecidableEq, Repr

/-- gbinder_config.c:55-58, gbinder_rpc_protocol.c:65-66, gbinder_servicemanager.c:92-94: `cache` is
gbinder_config_keyfile, `en` tells whether gbinder_config_file isn't NULL. `past` (all the states the files were in,
and those when /etc/gbinder.conf was given up) and `log` are what happened. -/
structure State where
  fs : Fs
  en : Bool := true
  cache : Option KeyFile := none
  protocols : Option (Table Protocol) := none
  managers : Option (Table Client.Kind) := none
  past : List Fs
  log : List Ev := []

/-- What may happen: the files change, the main loop gets idle (gbinder_config.c:337-345),
gbinder_rpc_protocol_for_device (gbinder_rpc_protocol.c:362) and gbinder_servicemanager_new2
(gbinder_servicemanager.c:626) with a device which isn't NULL. -/
inductive Label
  | files (fs : Fs)
  | idle
  | protocol (dev : Bytes)
  | manager (dev : Bytes) (name : Option Bytes)

/-- gbinder_config.c:347-360 `gbinder_config_get`. -/
def get (int : Bytes → Int) (s : State) : State :=
  match s.cache with
  | some _ => s
  | none =>
    let r := loadFiles int s.fs s.en
    { s with cache := r.1, en := r.2 }

/-- gbinder_rpc_protocol.c:366-381: one-time initialization. -/
def initProtocols (int : Bytes → Int) (s : State) : State × Table Protocol :=
  match s.protocols with
  | some t => (s, t)
  | none =>
    let s := get int s
    let t := table .aidl .hidl (load s.cache protocolGroup findProtocol)
    ({ s with protocols := some t }, t)

/-- gbinder_servicemanager.c:633-649: one-time initialization. -/
def initManagers (int : Bytes → Int) (s : State) : State × Table Client.Kind :=
  match s.managers with
  | some t => (s, t)
  | none =>
    let s := get int s
    let t := table .aidl .hidl (load s.cache managerGroup findManager)
    ({ s with managers := some t }, t)

/-- gbinder_rpc_protocol.c:362-396 `gbinder_rpc_protocol_for_device` and gbinder_servicemanager.c:626-675
`gbinder_servicemanager_new2`, gbinder_config.c:337-345 `gbinder_config_autorelease_cb`. -/
def step (int : Bytes → Int) (s : State) : Label → Out State
  | .files fs => .ok { s with fs, past := s.past ++ [fs] }
  | .idle => .ok { s with cache := none }
  | .protocol dev =>
    let (s, t) := initProtocols int s
    .ok { s with log := s.log ++ [.protocol dev (t.choose dev)] }
  | .manager dev none =>
    let (s, t) := initManagers int s
    .ok { s with log := s.log ++ [.manager dev none (some (t.choose dev))] }
  | .manager dev (some name) => .ok { s with log := s.log ++ [.manager dev (some name) (findManager name)] }

/-- Nothing has been loaded (gbinder_config.c:55-58). -/
def start (fs : Fs) : State := { fs, past := [fs] }

end Gb.Config
