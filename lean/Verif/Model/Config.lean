import Verif.Spec.Config
import Verif.Model.KeyFile
/-
  Model of the configuration file parser: /repo/src/Config.{hxx,cxx}, and of the parts of
  /repo/src/Listener.cxx which apply the result.

  The tokenizer (`FileLineParser`), comments, variables, `@include`, `NestedConfigParser`,
  `ParseSocketAddress`, the Zeroconf settings and the "spawn" section are in libcommon; their
  behaviour is assumed here (`CfgEnv` and the functions below). All compile-time features
  (HAVE_AVAHI, ENABLE_TRANSLATION, ENABLE_CONTROL, ENABLE_POND) are enabled.
-/
namespace Lukko.Model
open Spec

/-- Why a file is refused (all are `LineParser::Error` or exceptions of the functions called). -/
inductive CfgError
  | unknownOption
  | syntax
  | value
  | duplicate
  | missing
  | notClosed
  deriving DecidableEq, Repr

def cfgNeed {α : Type} (x : CfgError) : Option α → Except CfgError α
  | some a => .ok a
  | none => .error x

/-- `ExpectValueAndEnd` (libcommon) -/
def expectValue (args : List CfgToken) : Except CfgError Bytes := cfgNeed .syntax (cfgValue args)

/-- `NextBool` and `ExpectEnd` (libcommon) -/
def expectBool (args : List CfgToken) : Except CfgError Bool := cfgNeed .syntax (cfgBool args)

variable {K : Type}

/-- `NextPositiveInteger` and `ExpectEnd` (libcommon) -/
def expectPositive (e : CfgEnv K) (args : List CfgToken) : Except CfgError Nat := do
  let v ← expectValue args
  cfgNeed .value (e.positive v)

/-- `ParseSocketAddress(line.ExpectValueAndEnd(), …)` -/
def expectAddr (e : CfgEnv K) (port : Nat) (passive : Bool) (args : List CfgToken) : Except CfgError CfgAddr := do
  let v ← expectValue args
  cfgNeed .value (e.addr v port passive)

/-- `OpenReadOnly(line.ExpectPathAndEnd().c_str())`, with the contents of the file. -/
def expectFile (e : CfgEnv K) (args : List CfgToken) : Except CfgError Bytes := do
  let v ← expectValue args
  cfgNeed .value (e.file (e.path v))

/-- The octal number of "mode", Config.cxx:264-272 and 380-388; `value & ~0777ULL` is not zero
if and only if `value` is greater than 0777. -/
def expectMode (e : CfgEnv K) (args : List CfgToken) : Except CfgError Nat := do
  let v ← expectValue args
  let n ← cfgNeed .value (e.octal v)
  if n > 0o777 then .error .value else .ok n

abbrev ListenerCfg (K : Type) := ListenerSettings K KeySet

/-- `ListenerConfig{}`, Config.hxx:56-105 (and `SocketConfig`, libcommon). -/
def ListenerCfg.init : ListenerCfg K where
  bind := none
  interface := []
  mode := 0
  mptcp := false
  ackTimeout := 0
  keepalive := false
  v6only := true
  reusePort := false
  zeroconf := []
  tag := []
  hostKeys := []
  authorized := []
  proxyTo := none
  maxPerIp := 0
  tarpit := false
  verboseErrors := false
  execRejectStderr := false
  acceptClientAddress := false
  skipOurOwn := false
  pond := none
  backlog := 256

/-- `struct Config`, Config.hxx:115-155; the `forward_list`s have the newest element first;
a `std::map` is a list here, and a pointer to its element is its name. `spawn` is not modelled. -/
structure CfgData (K : Type) where
  translationServer : Bytes := []
  populate : Bool := false
  listeners : List (ListenerCfg K) := []
  clusters : List (Bytes × ClusterSettings KeySet) := []
  targets : List (Bytes × TargetSettings KeySet) := []
  exporters : List ExporterSettings := []
  controls : List ControlSettings := []
  deriving DecidableEq, Repr

/-- `config.bind_address.IsNull() || config.bind_address.GetFamily() != AF_LOCAL` -/
def notLocal (a : Option CfgAddr) : Bool := !a.any (·.isLocal)

/-- `Avahi::ServiceConfig::ParseLine` (libcommon): `none` if it is not one of its settings. -/
def parseZeroconf (e : CfgEnv K) (names : List String) (w : Bytes) (args : List CfgToken) :
    Option (Except CfgError (String × Bytes)) :=
  match names.find? (w = ascii ·) with
  | none => none
  | some n => some do
    let v ← expectValue args
    if e.zeroconf n v then .ok (n, v) else .error .value

/-- `LukkoConfigParser::Listener::ParseLine`, Config.cxx:250-358, for a line which begins with
a word. -/
def listenerLine (e : CfgEnv K) (decode : Bytes → Option Bytes) (data : CfgData K) (c : ListenerCfg K) (w : Bytes)
    (args : List CfgToken) : Except CfgError (ListenerCfg K) :=
  if w = ascii "bind" then do
    let a ← expectAddr e 2200 true args
    pure { c with bind := some a }
  else if w = ascii "interface" then do
    let v ← expectValue args
    pure { c with interface := v }
  else if w = ascii "mode" then
    if notLocal c.bind then .error .value
    else do
      let n ← expectMode e args
      pure { c with mode := n }
  else if w = ascii "mptcp" then do
    let b ← expectBool args
    pure { c with mptcp := b }
  else if w = ascii "ack_timeout" then do
    let n ← expectPositive e args
    pure { c with ackTimeout := n * 1000 % 2 ^ 32 }
  else if w = ascii "keepalive" then do
    let b ← expectBool args
    pure { c with keepalive := b }
  else if w = ascii "v6only" then do
    let b ← expectBool args
    pure { c with v6only := b }
  else if w = ascii "reuse_port" then do
    let b ← expectBool args
    pure { c with reusePort := b }
  else match parseZeroconf e listenerZeroconf w args with
  | some r => do
    let z ← r
    pure { c with zeroconf := c.zeroconf ++ [z] }
  | none =>
  if w = ascii "tag" then do
    let v ← expectValue args
    if v.length > 256 then .error .value else pure { c with tag := v }
  else if w = ascii "host_key_file" then do
    let f ← expectFile e args
    let k ← cfgNeed .value (e.key f)
    pure { c with hostKeys := c.hostKeys ++ [k] }
  else if w = ascii "authorized_host_key_file" then do
    let f ← expectFile e args
    pure { c with authorized := loadFile decode c.authorized f }
  else if w = ascii "proxy_to" then
    if c.proxyTo.isSome then .error .duplicate
    else do
      let n ← expectValue args
      if data.targets.any (·.1 == n) then pure { c with proxyTo := some (.host n) } else .error .missing
  else if w = ascii "proxy_to_zeroconf" then
    if c.proxyTo.isSome then .error .duplicate
    else do
      let n ← expectValue args
      if data.clusters.any (·.1 == n) then pure { c with proxyTo := some (.cluster n) } else .error .missing
  else if w = ascii "max_connections_per_ip" then do
    let n ← expectPositive e args
    pure { c with maxPerIp := n }
  else if w = ascii "tarpit" then do
    let b ← expectBool args
    pure { c with tarpit := b }
  else if w = ascii "verbose_errors" then do
    let b ← expectBool args
    pure { c with verboseErrors := b }
  else if w = ascii "exec_reject_stderr" then do
    let b ← expectBool args
    pure { c with execRejectStderr := b }
  else if w = ascii "accept_client_address" then do
    let b ← expectBool args
    pure { c with acceptClientAddress := b }
  else if w = ascii "proxy_skip_our_own" then do
    let b ← expectBool args
    pure { c with skipOurOwn := b }
  else if w = ascii "pond_server" then do
    let a ← expectAddr e 5479 false args
    pure { c with pond := some a }
  else .error .unknownOption

/-- `LukkoConfigParser::Listener::Finish`, Config.cxx:360-371; `Fixup` (libcommon) is not
modelled. -/
def listenerEnd (data : CfgData K) (c : ListenerCfg K) : Except CfgError (CfgData K) :=
  if c.bind.isNone then .error .missing else .ok { data with listeners := c :: data.listeners }

/-- `LukkoConfigParser::ZeroconfCluster::ParseLine`, Config.cxx:214-231. -/
def clusterLine (e : CfgEnv K) (decode : Bytes → Option Bytes) (c : ClusterSettings KeySet) (w : Bytes)
    (args : List CfgToken) : Except CfgError (ClusterSettings KeySet) :=
  match parseZeroconf e clusterZeroconf w args with
  | some r => do
    let z ← r
    pure { c with zeroconf := c.zeroconf ++ [z] }
  | none =>
  if w = ascii "host_key_file" then do
    let f ← expectFile e args
    pure { c with hostKeys := loadFile decode c.hostKeys f }
  else if w = ascii "send_client_address" then do
    let b ← expectBool args
    pure { c with sendClientAddress := b }
  else .error .unknownOption

/-- `zeroconf.IsEnabled()` (libcommon): a service name was set. -/
def zeroconfEnabled (z : List (String × Bytes)) : Bool :=
  ((z.filter (·.1 == "zeroconf_service")).getLast?).any (!·.2.isEmpty)

/-- `LukkoConfigParser::ZeroconfCluster::Finish` and `ZeroconfClusterConfig::Check`,
Config.cxx:38-49 and 233-242. -/
def clusterEnd (e : CfgEnv K) (data : CfgData K) (name : Bytes) (c : ClusterSettings KeySet) : Except CfgError (CfgData K) :=
  if !zeroconfEnabled c.zeroconf then .error .missing
  else if !e.zeroconfOk c.zeroconf then .error .value
  else if c.hostKeys.isEmpty then .error .missing
  else if data.clusters.any (·.1 == name) then .error .duplicate
  else .ok { data with clusters := data.clusters ++ [(name, c)] }

/-- `LukkoConfigParser::TargetHost::ParseLine`, Config.cxx:177-195. -/
def targetLine (e : CfgEnv K) (decode : Bytes → Option Bytes) (c : TargetSettings KeySet) (w : Bytes)
    (args : List CfgToken) : Except CfgError (TargetSettings KeySet) :=
  if w = ascii "address" then do
    let a ← expectAddr e 22 false args
    pure { c with address := some a }
  else if w = ascii "host_key_file" then do
    let f ← expectFile e args
    pure { c with hostKeys := loadFile decode c.hostKeys f }
  else if w = ascii "send_client_address" then do
    let b ← expectBool args
    pure { c with sendClientAddress := b }
  else .error .unknownOption

/-- `LukkoConfigParser::TargetHost::Finish` and `TargetHostConfig::Check`, Config.cxx:30-35
and 197-210. -/
def targetEnd (e : CfgEnv K) (data : CfgData K) (name : Bytes) (c : TargetSettings KeySet) : Except CfgError (CfgData K) := do
  let c ← match c.address with
    | some _ => pure c
    | none => do
      let a ← cfgNeed .value (e.addr name 22 false)
      pure { c with address := some a }
  if c.hostKeys.isEmpty then .error .missing
  else if data.targets.any (·.1 == name) then .error .duplicate
  else .ok { data with targets := data.targets ++ [(name, c)] }

/-- `LukkoConfigParser::PrometheusExporter::ParseLine`, Config.cxx:373-402. -/
def exporterLine (e : CfgEnv K) (c : ExporterSettings) (w : Bytes) (args : List CfgToken) : Except CfgError ExporterSettings :=
  if w = ascii "bind" then do
    let a ← expectAddr e 9100 true args
    pure { c with bind := some a }
  else if w = ascii "interface" then do
    let v ← expectValue args
    pure { c with interface := v }
  else if w = ascii "mode" then
    if notLocal c.bind then .error .value
    else do
      let n ← expectMode e args
      pure { c with mode := n }
  else if w = ascii "v6only" then do
    let b ← expectBool args
    pure { c with v6only := b }
  else if w = ascii "reuse_port" then do
    let b ← expectBool args
    pure { c with reusePort := b }
  else .error .unknownOption

/-- `LukkoConfigParser::PrometheusExporter::Finish`, Config.cxx:404-415. -/
def exporterEnd (data : CfgData K) (c : ExporterSettings) : Except CfgError (CfgData K) :=
  if c.bind.isNone then .error .missing else .ok { data with exporters := c :: data.exporters }

/-- `LukkoConfigParser::Control::ParseLine`, Config.cxx:419-434; 5478 is
`BengControl::DEFAULT_PORT` (libcommon). -/
def controlLine (e : CfgEnv K) (c : ControlSettings) (w : Bytes) (args : List CfgToken) : Except CfgError ControlSettings :=
  if w = ascii "bind" then do
    let a ← expectAddr e 5478 true args
    pure { c with bind := some a }
  else if w = ascii "multicast_group" then do
    let a ← expectAddr e 0 false args
    pure { c with multicast := some a }
  else if w = ascii "interface" then do
    let v ← expectValue args
    pure { c with interface := v }
  else .error .unknownOption

/-- `LukkoConfigParser::Control::Finish`, Config.cxx:436-447. -/
def controlEnd (data : CfgData K) (c : ControlSettings) : Except CfgError (CfgData K) :=
  if c.bind.isNone then .error .missing else .ok { data with controls := c :: data.controls }

/-- `NestedConfigParser::child` (libcommon) -/
inductive CfgChild (K : Type)
  | listener (c : ListenerCfg K)
  | cluster (name : Bytes) (c : ClusterSettings KeySet)
  | target (name : Bytes) (c : TargetSettings KeySet)
  | exporter (c : ExporterSettings)
  | control (c : ControlSettings)
  | spawn
  deriving DecidableEq, Repr

/-- `ParseLine` of the child; the "spawn" section is in libcommon. -/
def CfgChild.line (e : CfgEnv K) (decode : Bytes → Option Bytes) (data : CfgData K) (c : CfgChild K) (l : CfgLine) :
    Except CfgError (CfgChild K) :=
  match c with
  | .spawn => if e.spawn l then .ok .spawn else .error .value
  | c =>
    match l with
    | .word w :: args =>
      match c with
      | .listener c => (listenerLine e decode data c w args).map .listener
      | .cluster n c => (clusterLine e decode c w args).map (.cluster n)
      | .target n c => (targetLine e decode c w args).map (.target n)
      | .exporter c => (exporterLine e c w args).map .exporter
      | .control c => (controlLine e c w args).map .control
      | .spawn => .ok .spawn
    | _ => .error .syntax

/-- `Finish` of the child. -/
def CfgChild.finish (e : CfgEnv K) (data : CfgData K) : CfgChild K → Except CfgError (CfgData K)
  | .listener c => listenerEnd data c
  | .cluster n c => clusterEnd e data n c
  | .target n c => targetEnd e data n c
  | .exporter c => exporterEnd data c
  | .control c => controlEnd data c
  | .spawn => .ok data

structure CfgParser (K : Type) where
  data : CfgData K := {}
  child : Option (CfgChild K) := none
  deriving DecidableEq, Repr

def ExporterSettings.init : ExporterSettings := ⟨none, [], 0, true, false⟩
def ControlSettings.init : ControlSettings := ⟨none, none, []⟩

/-- `ExpectValue` (libcommon): the next token as a value, and the rest. -/
def nextValue : List CfgToken → Except CfgError (Bytes × List CfgToken)
  | .word v :: r => .ok (v, r)
  | .quoted v :: r => .ok (v, r)
  | _ => .error .syntax

/-- `ExpectSymbolAndEol('{')` -/
def expectOpen (args : List CfgToken) : Except CfgError Unit := if args = [.openBrace] then .ok () else .error .syntax

/-- `LukkoConfigParser::ParseLine2`, Config.cxx:451-491, for a line which begins with a word. -/
def topLine (p : CfgParser K) (w : Bytes) (args : List CfgToken) : Except CfgError (CfgParser K) :=
  if w = ascii "listener" then do
    expectOpen args
    pure { p with child := some (.listener ListenerCfg.init) }
  else if w = ascii "zeroconf_cluster" then do
    let (name, args) ← nextValue args
    expectOpen args
    pure { p with child := some (.cluster name ⟨[], [], false⟩) }
  else if w = ascii "spawn" then do
    expectOpen args
    pure { p with child := some .spawn }
  else if w = ascii "prometheus_exporter" then do
    expectOpen args
    pure { p with child := some (.exporter ExporterSettings.init) }
  else if w = ascii "translation_server" then do
    let v ← expectValue args
    pure { p with data := { p.data with translationServer := v } }
  else if w = ascii "control" then do
    expectOpen args
    pure { p with child := some (.control ControlSettings.init) }
  else if w = ascii "populate_io_buffers" then do
    let b ← expectBool args
    pure { p with data := { p.data with populate := b } }
  else .error .unknownOption

/-- `NestedConfigParser::ParseLine` (libcommon) -/
def CfgParser.line (e : CfgEnv K) (decode : Bytes → Option Bytes) (p : CfgParser K) (l : CfgLine) :
    Except CfgError (CfgParser K) :=
  match p.child with
  | none =>
    match l with
    | .word w :: args => topLine p w args
    | _ => .error .syntax
  | some c =>
    match l with
    | .closeBrace :: r =>
      if r = [] then do
        let data ← c.finish e p.data
        pure { data := data, child := none }
      else .error .syntax
    | l => do
      let c ← c.line e decode p.data l
      pure { p with child := some c }

/-- `ParseConfigFile` (libcommon): all lines, one after the other. -/
def CfgParser.lines (e : CfgEnv K) (decode : Bytes → Option Bytes) (p : CfgParser K) : List CfgLine → Except CfgError (CfgParser K)
  | [] => .ok p
  | l :: ls => do
    let p ← p.line e decode l
    p.lines e decode ls

/-- `Config::Check`, Config.cxx:74-90; `debug_mode` is false. -/
def CfgData.check (e : CfgEnv K) (data : CfgData K) : CfgData K :=
  if data.listeners = [] then
    { data with
      listeners :=
        [{ (ListenerCfg.init : ListenerCfg K) with bind := some (e.anyAddr 2200), backlog := 1024, ackTimeout := 60000, keepalive := true }] }
  else data

/-- `LoadConfigFile` and `Config::Check`, Config.cxx:493-502 and 74-90, Main.cxx:122-125. -/
def loadConfig (e : CfgEnv K) (decode : Bytes → Option Bytes) (ls : List CfgLine) : Except CfgError (CfgData K) := do
  let p ← CfgParser.lines e decode {} ls
  match p.child with
  | some _ => .error .notClosed
  | none => .ok (p.data.check e)

/-- The configuration, with the listeners in the order of the file (`Instance::AddListener`
is called for each element of the `forward_list` and adds it at the front,
Instance.cxx:118-122, Main.cxx:148-149). -/
def CfgData.meaning (data : CfgData K) : CfgMeaning K KeySet where
  translationServer := data.translationServer
  populate := data.populate
  listeners := data.listeners.reverse
  clusters := data.clusters
  targets := data.targets
  exporters := data.exporters.reverse
  controls := data.controls.reverse

/-- `LoadProxyHostKeys`, Listener.cxx:80-92: `some none` is `nullptr`; `none`: there is no
such element (a dangling pointer). -/
def loadProxyHostKeys (data : CfgData K) (c : ListenerCfg K) : Option (Option KeySet) :=
  match c.proxyTo with
  | none => some none
  | some (.cluster n) => (data.clusters.lookup n).map fun x => some x.hostKeys
  | some (.host n) => (data.targets.lookup n).map fun x => some x.hostKeys

end Lukko.Model
