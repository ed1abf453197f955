import Verif.Model.Config
import Verif.Model.SecretFile
import Verif.Spec.Startup
/-
  The start of the server, /repo/src/Main.cxx, CommandLine.cxx, Instance.cxx:36-73 and
  118-122, Listener.cxx:106-140.
-/
namespace Lukko.Model
open Lukko.Spec

/-- `OpenReadOnly` (libcommon) and what follows. -/
inductive Opened
  /-- `errno` -/
  | failed (errno : Nat)
  /-- `S_ISREG`, and the contents; `none`: `fstat` or `read` fails -/
  | opened (regular : Bool) (content : Option Bytes)
  deriving DecidableEq

abbrev ENOENT : Nat := 2

/-- The surroundings of the process. -/
structure StartEnv where
  /-- `sodium_init() >= 0` -/
  sodium : Bool
  /-- `argv` -/
  args : List Bytes
  /-- the lines of a configuration file; `none`: it cannot be read -/
  config : Bytes → Option (List CfgLine)
  /-- how its values are understood -/
  cfg : CfgEnv SecKey
  decode : Bytes → Option Bytes
  crypto : Crypto
  /-- does `LaunchSpawnServer` succeed? -/
  spawn : Bool
  openFile : Bytes → Opened
  /-- `Ed25519Key::Generate`, `ECDSAKey::Generate`, `RSAKey::Generate`: `none` if they throw -/
  genEd : Option SecKey
  genEc : Option SecKey
  genRsa : Option SecKey
  /-- is the socket created (`SocketConfig::Create`)? -/
  control : Nat → Bool
  exporter : Nat → Bool
  /-- does the constructor of `Listener` succeed? -/
  listener : ListenerCfg SecKey → Bool
  /-- does `CapabilityState::Install` succeed? -/
  drop : Bool

/-- What is left in `Instance` when the main loop begins. -/
structure Started where
  hostKeys : List SecKey
  authorized : KeySet
  /-- `instance.listeners`: each with its settings and `Listener::host_keys` -/
  listeners : List (ListenerCfg SecKey × List SecKey)
  deriving DecidableEq

/-- `ParseCommandLine`, CommandLine.cxx:8-19, and the default of CommandLine.hxx:8. -/
def parseCommandLine : List Bytes → Option Bytes
  | [_] => some (ascii "/etc/cm4all/lukko/lukko.conf")
  | [_, opt, path] => if opt = ascii "--config" then some path else none
  | _ => none

/-- `std::filesystem::path{config_path}.parent_path() / filename`, Main.cxx:140-141; repeated
slashes are not merged here. -/
def beside (configPath filename : Bytes) : Bytes :=
  (configPath.reverse.dropWhile (· != 47)).reverse ++ filename

/-- `LoadOptionalKeyFile`, Main.cxx:52-64, with `LoadKeyFile`, key/LoadFile.cxx:18-42: `none`:
throws; `some none`: `nullptr`. -/
def loadOptionalKeyFile (env : StartEnv) (path : Bytes) : Option (Option SecKey) :=
  match env.openFile path with
  | .failed e => if e != ENOENT then none else some none
  | .opened regular content =>
    match content with
    | none => none
    | some c => (loadKeyFile env.crypto env.decode regular c).map some

/-- `host_key_filenames`, Main.cxx:71-77 (`HAVE_OPENSSL`). -/
def hostKeyFilenames : List Bytes := [ascii "host_ed25519_key", ascii "host_ecdsa_key", ascii "host_rsa_key"]

/-- The loop of `LoadHostKeys`, Main.cxx:79-81. The keys are listed in the order in which they
are added. -/
def loadKeyFiles (env : StartEnv) : List Bytes → List SecKey → Option (List SecKey)
  | [], keys => some keys
  | path :: rest, keys =>
    match loadOptionalKeyFile env path with
    | none => none
    | some none => loadKeyFiles env rest keys
    | some (some k) => loadKeyFiles env rest (keys ++ [k])

/-- Main.cxx:83-89. -/
def generateKeys (env : StartEnv) : Option (List SecKey) := do
  let a ← env.genEd
  let b ← env.genEc
  let c ← env.genRsa
  pure [a, b, c]

/-- `LoadHostKeys`, Main.cxx:66-92. -/
def loadHostKeys (env : StartEnv) (configPath : Bytes) : Option (List SecKey) :=
  match loadKeyFiles env (hostKeyFilenames.map (beside configPath)) [] with
  | none => none
  | some [] => generateKeys env
  | some (k :: ks) => some (k :: ks)

/-- `LoadGlobalAuthorizedKeys`, Main.cxx:94-104: reading throws if it fails (or if it is a
directory: `read` fails). -/
def loadGlobalAuthorizedKeys (env : StartEnv) (configPath : Bytes) : Option KeySet :=
  match env.openFile (beside configPath (ascii "authorized_keys")) with
  | .failed _ => some []
  | .opened _ content => content.map (loadFile env.decode [])

/-- A sequence of steps of the same kind: those before the first one which fails. -/
def attempt {A : Type} (ok : A → Bool) : List A → List A × Bool
  | [] => ([], true)
  | a :: rest => bif ok a then ((a :: (attempt ok rest).1), (attempt ok rest).2) else ([], false)

/-- `EXIT_FAILURE` -/
abbrev EXIT_FAILURE : Nat := 1
/-- `EX_CONFIG` -/
abbrev EX_CONFIG : Nat := 78

/-- `Listener::host_keys`, Listener.cxx:112-114. -/
def listenerKeys (hostKeys : List SecKey) (l : ListenerCfg SecKey) : List SecKey :=
  if l.hostKeys = [] then hostKeys else l.hostKeys

/-- From the first listener to the main loop, Main.cxx:148-165. -/
def startListeners (env : StartEnv) (data : CfgData SecKey) (keys : List SecKey) (authorized : KeySet) :
    List (StartDeed (ListenerCfg SecKey)) × StartEnd Started :=
  let (ls, ok) := attempt env.listener data.listeners
  bif ok then
    bif env.drop then
      (ls.map .listen ++ [.unprivileged, .ready],
        .running ⟨keys, authorized, (data.listeners.map fun l => (l, listenerKeys keys l)).reverse⟩)
    else (ls.map .listen, .exited EXIT_FAILURE)
  else (ls.map .listen, .exited EXIT_FAILURE)

/-- The constructor of `Instance`, Instance.cxx:36-73, and then the listeners. -/
def startInstance (env : StartEnv) (data : CfgData SecKey) (keys : List SecKey) (authorized : KeySet) :
    List (StartDeed (ListenerCfg SecKey)) × StartEnd Started :=
  let (cs, ok) := attempt env.control (List.range data.controls.length)
  bif ok then
    let (es, ok) := attempt env.exporter (List.range data.exporters.length)
    bif ok then
      let (ds, r) := startListeners env data keys authorized
      (cs.map .control ++ (es.map .exporter ++ ds), r)
    else (cs.map .control ++ es.map .exporter, .exited EXIT_FAILURE)
  else (cs.map .control, .exited EXIT_FAILURE)

/-- Main.cxx:133-146: the spawner, the keys, the instance. -/
def startServices (env : StartEnv) (configPath : Bytes) (data : CfgData SecKey) :
    List (StartDeed (ListenerCfg SecKey)) × StartEnd Started :=
  bif env.spawn then
    match loadHostKeys env configPath with
    | none => ([.spawner], .exited EXIT_FAILURE)
    | some keys =>
      match loadGlobalAuthorizedKeys env configPath with
      | none => ([.spawner], .exited EXIT_FAILURE)
      | some authorized =>
        let (ds, r) := startInstance env data keys authorized
        (.spawner :: ds, r)
  else ([], .exited EXIT_FAILURE)

/-- `main`, Main.cxx:106-175: what it does until `Instance::Run`, and how it ends.  `SetupProcess`
and `Populate` (libcommon) are left out, and so is `ReloadState`, which concerns Zeroconf only.
`LoadConfigFile` throws if the file cannot be read. -/
def start (env : StartEnv) : List (StartDeed (ListenerCfg SecKey)) × StartEnd Started :=
  bif env.sodium then
    match parseCommandLine env.args with
    | none => ([], .exited EXIT_FAILURE)
    | some path =>
      match env.config path with
      | none => ([], .exited EX_CONFIG)
      | some ls =>
        match loadConfig env.cfg env.decode ls with
        | .error _ => ([], .exited EX_CONFIG)
        | .ok data => startServices env path data
  else ([], .exited EXIT_FAILURE)

end Lukko.Model
