import Verif.Base
/-
  C77: what a configuration file means. The settings are those of the documentation
  (doc/index.rst) and the comments in Config.hxx.
-/
namespace Lukko.Spec

/-- A token of a line of the file (comments, variables and includes have been processed). -/
inductive CfgToken
  /-- without quotes -/
  | word (w : Bytes)
  /-- `"…"` -/
  | quoted (v : Bytes)
  | openBrace
  | closeBrace
  deriving DecidableEq, Repr

abbrev CfgLine := List CfgToken

/-- A file is a sequence of settings and sections. -/
inductive CfgItem
  | setting (line : CfgLine)
  /-- `head {`, the lines of the body, `}` -/
  | block (head : CfgLine) (body : List CfgLine)
  deriving DecidableEq, Repr

def CfgItem.text : CfgItem → List CfgLine
  | .setting l => [l]
  | .block head body => (head ++ [.openBrace]) :: (body ++ [[.closeBrace]])

/-- The file with these items. -/
def cfgText (items : List CfgItem) : List CfgLine := items.flatMap CfgItem.text

structure CfgAddr where
  /-- is this a local socket? -/
  isLocal : Bool
  raw : Bytes
  deriving DecidableEq, Repr

/-- How texts in the file are understood. -/
structure CfgEnv (K : Type) where
  /-- the address for a text, a default port and whether wildcards are allowed -/
  addr : Bytes → Nat → Bool → Option CfgAddr
  /-- path names are relative to the configuration file -/
  path : Bytes → Bytes
  /-- contents of existing files -/
  file : Bytes → Option Bytes
  /-- secret key files -/
  key : Bytes → Option K
  /-- decimal numbers which are not zero -/
  positive : Bytes → Option Nat
  /-- octal numbers -/
  octal : Bytes → Option Nat
  /-- does a Zeroconf setting allow this value? -/
  zeroconf : String → Bytes → Bool
  /-- do these Zeroconf settings of a cluster fit together? -/
  zeroconfOk : List (String × Bytes) → Bool
  /-- the settings of a "spawn" section -/
  spawn : CfgLine → Bool
  /-- all addresses, with this port -/
  anyAddr : Nat → CfgAddr

/-- The value in a line with just one. -/
def cfgValue : List CfgToken → Option Bytes
  | [.word v] => some v
  | [.quoted v] => some v
  | _ => none

/-- `yes` or `no` -/
def cfgBool (args : List CfgToken) : Option Bool :=
  if args = [.word (ascii "yes")] then some true
  else if args = [.word (ascii "no")] then some false
  else none

/-- What follows the name of a setting, for each time it is given. -/
def cfgArgs (name : String) (body : List CfgLine) : List (List CfgToken) :=
  body.filterMap fun
    | .word w :: args => if w = ascii name then some args else none
    | _ => none

/-- All values given for a setting. -/
def cfgValues (name : String) (body : List CfgLine) : List Bytes := (cfgArgs name body).filterMap cfgValue

/-- The last value given for a setting. -/
def cfgLast (name : String) (body : List CfgLine) : Option Bytes := (cfgArgs name body).getLast?.bind cfgValue

/-- The last value of a switch, or else its default. -/
def cfgFlag (name : String) (default : Bool) (body : List CfgLine) : Bool :=
  ((cfgArgs name body).getLast?.bind cfgBool).getD default

/-- The kinds of values. -/
inductive CfgKind
  | text
  | flag
  | addr (port : Nat) (wildcard : Bool)
  | positive
  | octal
  | secretFile
  | publicFile
  | zeroconf (name : String)
  deriving DecidableEq, Repr

variable {K : Type}

/-- Is the value of this kind? -/
def CfgKind.fits (e : CfgEnv K) : CfgKind → List CfgToken → Bool
  | .text, a => (cfgValue a).isSome
  | .flag, a => (cfgBool a).isSome
  | .addr port w, a => ((cfgValue a).bind (e.addr · port w)).isSome
  | .positive, a => ((cfgValue a).bind e.positive).isSome
  | .octal, a => ((cfgValue a).bind e.octal).any (· < 0o1000)
  | .secretFile, a => (((cfgValue a).bind (e.file <| e.path ·)).bind e.key).isSome
  | .publicFile, a => ((cfgValue a).bind (e.file <| e.path ·)).isSome
  | .zeroconf name, a => (cfgValue a).any (e.zeroconf name)

/-- The settings of a "listener" section. -/
def listenerTable : List (String × CfgKind) :=
  [("bind", .addr 2200 true), ("interface", .text), ("mode", .octal), ("mptcp", .flag),
   ("ack_timeout", .positive), ("keepalive", .flag), ("v6only", .flag), ("reuse_port", .flag),
   ("zeroconf_service", .zeroconf "zeroconf_service"), ("zeroconf_domain", .zeroconf "zeroconf_domain"),
   ("zeroconf_interface", .zeroconf "zeroconf_interface"), ("zeroconf_protocol", .zeroconf "zeroconf_protocol"),
   ("zeroconf_weight", .zeroconf "zeroconf_weight"),
   ("tag", .text), ("max_connections_per_ip", .positive), ("tarpit", .flag), ("verbose_errors", .flag),
   ("host_key_file", .secretFile), ("authorized_host_key_file", .publicFile), ("exec_reject_stderr", .flag),
   ("pond_server", .addr 5479 false), ("proxy_to", .text), ("proxy_to_zeroconf", .text),
   ("proxy_skip_our_own", .flag), ("accept_client_address", .flag)]

/-- … of a "zeroconf_cluster" section. -/
def clusterTable : List (String × CfgKind) :=
  [("zeroconf_service", .zeroconf "zeroconf_service"), ("zeroconf_domain", .zeroconf "zeroconf_domain"),
   ("zeroconf_interface", .zeroconf "zeroconf_interface"), ("zeroconf_protocol", .zeroconf "zeroconf_protocol"),
   ("host_key_file", .publicFile), ("send_client_address", .flag)]

/-- … of a "target_host" section. -/
def targetTable : List (String × CfgKind) :=
  [("address", .addr 22 false), ("host_key_file", .publicFile), ("send_client_address", .flag)]

/-- … of a "control" section. -/
def controlTable : List (String × CfgKind) :=
  [("bind", .addr 5478 true), ("multicast_group", .addr 0 false), ("interface", .text)]

/-- … of a "prometheus_exporter" section. -/
def exporterTable : List (String × CfgKind) :=
  [("bind", .addr 9100 true), ("interface", .text), ("mode", .octal), ("v6only", .flag), ("reuse_port", .flag)]

/-- … at the top level. -/
def topTable : List (String × CfgKind) := [("translation_server", .text), ("populate_io_buffers", .flag)]

/-- The line is one of the settings in the table, with a value of the right kind. -/
def CfgListed (e : CfgEnv K) (table : List (String × CfgKind)) (line : CfgLine) : Prop :=
  ∃ name kind args, (name, kind) ∈ table ∧ line = .word (ascii name) :: args ∧ kind.fits e args = true

/-- Where a listener forwards its connections to. -/
inductive CfgTarget
  | cluster (name : Bytes)
  | host (name : Bytes)
  deriving DecidableEq, Repr

/-- The settings of a listener; `S`: sets of public keys. -/
structure ListenerSettings (K S : Type) where
  bind : Option CfgAddr
  interface : Bytes
  mode : Nat
  mptcp : Bool
  /-- in milliseconds; 0: not set -/
  ackTimeout : Nat
  keepalive : Bool
  v6only : Bool
  reusePort : Bool
  zeroconf : List (String × Bytes)
  tag : Bytes
  hostKeys : List K
  authorized : S
  proxyTo : Option CfgTarget
  maxPerIp : Nat
  tarpit : Bool
  verboseErrors : Bool
  execRejectStderr : Bool
  acceptClientAddress : Bool
  skipOurOwn : Bool
  pond : Option CfgAddr
  backlog : Nat
  deriving DecidableEq, Repr

structure ClusterSettings (S : Type) where
  zeroconf : List (String × Bytes)
  hostKeys : S
  sendClientAddress : Bool
  deriving DecidableEq, Repr

structure TargetSettings (S : Type) where
  address : Option CfgAddr
  hostKeys : S
  sendClientAddress : Bool
  deriving DecidableEq, Repr

structure ExporterSettings where
  bind : Option CfgAddr
  interface : Bytes
  mode : Nat
  v6only : Bool
  reusePort : Bool
  deriving DecidableEq, Repr

structure ControlSettings where
  bind : Option CfgAddr
  multicast : Option CfgAddr
  interface : Bytes
  deriving DecidableEq, Repr

/-- The Zeroconf settings in the order in which they are given. -/
def zeroconfOf (names : List String) (body : List CfgLine) : List (String × Bytes) :=
  body.filterMap fun
    | .word w :: args => (names.find? (w = ascii ·)).bind fun n => (cfgValue args).map (n, ·)
    | _ => none

def listenerZeroconf : List String :=
  ["zeroconf_service", "zeroconf_domain", "zeroconf_interface", "zeroconf_protocol", "zeroconf_weight"]

def clusterZeroconf : List String :=
  ["zeroconf_service", "zeroconf_domain", "zeroconf_interface", "zeroconf_protocol"]

/-- Contents of the key files. -/
def keyFiles (e : CfgEnv K) (name : String) (body : List CfgLine) : List Bytes :=
  (cfgValues name body).filterMap fun v => e.file (e.path v)

/-- The last target which is given. -/
def targetOf (body : List CfgLine) : Option CfgTarget :=
  (body.filterMap fun
    | .word w :: args =>
      if w = ascii "proxy_to" then (cfgValue args).map .host
      else if w = ascii "proxy_to_zeroconf" then (cfgValue args).map .cluster
      else none
    | _ => none).getLast?

variable {S : Type} (e : CfgEnv K) (load : S → Bytes → S) (empty : S)

/-- **What a "listener" section means.** -/
def listenerOf (body : List CfgLine) : ListenerSettings K S where
  bind := (cfgLast "bind" body).bind (e.addr · 2200 true)
  interface := (cfgLast "interface" body).getD []
  mode := ((cfgLast "mode" body).bind e.octal).getD 0
  mptcp := cfgFlag "mptcp" false body
  ackTimeout := ((cfgLast "ack_timeout" body).bind e.positive).getD 0 * 1000
  keepalive := cfgFlag "keepalive" false body
  v6only := cfgFlag "v6only" true body
  reusePort := cfgFlag "reuse_port" false body
  zeroconf := zeroconfOf listenerZeroconf body
  tag := (cfgLast "tag" body).getD []
  hostKeys := (keyFiles e "host_key_file" body).filterMap e.key
  authorized := (keyFiles e "authorized_host_key_file" body).foldl load empty
  proxyTo := targetOf body
  maxPerIp := ((cfgLast "max_connections_per_ip" body).bind e.positive).getD 0
  tarpit := cfgFlag "tarpit" false body
  verboseErrors := cfgFlag "verbose_errors" false body
  execRejectStderr := cfgFlag "exec_reject_stderr" false body
  acceptClientAddress := cfgFlag "accept_client_address" false body
  skipOurOwn := cfgFlag "proxy_skip_our_own" false body
  pond := (cfgLast "pond_server" body).bind (e.addr · 5479 false)
  backlog := 256

/-- The listener if none is configured: port 2200 of all addresses, with keepalive and a
timeout of one minute. -/
def defaultListener : ListenerSettings K S :=
  { listenerOf e load empty [] with bind := some (e.anyAddr 2200), backlog := 1024, ackTimeout := 60000, keepalive := true }

/-- What a "zeroconf_cluster" section means. -/
def clusterOf (body : List CfgLine) : ClusterSettings S where
  zeroconf := zeroconfOf clusterZeroconf body
  hostKeys := (keyFiles e "host_key_file" body).foldl load empty
  sendClientAddress := cfgFlag "send_client_address" false body

/-- What a "target_host" section means. -/
def hostOf (name : Bytes) (body : List CfgLine) : TargetSettings S where
  address := e.addr ((cfgLast "address" body).getD name) 22 false
  hostKeys := (keyFiles e "host_key_file" body).foldl load empty
  sendClientAddress := cfgFlag "send_client_address" false body

def exporterOf (body : List CfgLine) : ExporterSettings where
  bind := (cfgLast "bind" body).bind (e.addr · 9100 true)
  interface := (cfgLast "interface" body).getD []
  mode := ((cfgLast "mode" body).bind e.octal).getD 0
  v6only := cfgFlag "v6only" true body
  reusePort := cfgFlag "reuse_port" false body

def controlOf (body : List CfgLine) : ControlSettings where
  bind := (cfgLast "bind" body).bind (e.addr · 5478 true)
  multicast := (cfgLast "multicast_group" body).bind (e.addr · 0 false)
  interface := (cfgLast "interface" body).getD []

/-- The bodies of all sections without a name. -/
def blocksOf (kind : String) (items : List CfgItem) : List (List CfgLine) :=
  items.filterMap fun
    | .block [.word w] body => if w = ascii kind then some body else none
    | _ => none

/-- The sections of a kind with a name. -/
def namedBlocks (kind : String) (items : List CfgItem) : List (Bytes × List CfgLine) :=
  items.filterMap fun
    | .block (.word w :: args) body => if w = ascii kind then (cfgValue args).map (·, body) else none
    | _ => none

def settingsOf (items : List CfgItem) : List CfgLine :=
  items.filterMap fun
    | .setting l => some l
    | _ => none

/-- The meaning of a file. -/
structure CfgMeaning (K S : Type) where
  translationServer : Bytes
  populate : Bool
  listeners : List (ListenerSettings K S)
  clusters : List (Bytes × ClusterSettings S)
  targets : List (Bytes × TargetSettings S)
  exporters : List ExporterSettings
  controls : List ControlSettings
  deriving DecidableEq, Repr

/-- **What a file means.** -/
def meaningOf (items : List CfgItem) : CfgMeaning K S where
  translationServer := (cfgLast "translation_server" (settingsOf items)).getD []
  populate := cfgFlag "populate_io_buffers" false (settingsOf items)
  listeners :=
    match (blocksOf "listener" items).map (listenerOf e load empty) with
    | [] => [defaultListener e load empty]
    | ls => ls
  clusters := (namedBlocks "zeroconf_cluster" items).map fun (n, b) => (n, clusterOf e load empty b)
  targets := (namedBlocks "target_host" items).map fun (n, b) => (n, hostOf e load empty n b)
  exporters := (blocksOf "prometheus_exporter" items).map (exporterOf e)
  controls := (blocksOf "control" items).map (controlOf e)

/-- A file mode is only for a local socket (given before). -/
def ModeOk (e : CfgEnv K) (port : Nat) (body : List CfgLine) : Prop :=
  ∀ a args b, body = a ++ (.word (ascii "mode") :: args) :: b →
    ∃ v adr, cfgLast "bind" a = some v ∧ e.addr v port true = some adr ∧ adr.isLocal = true

/-- Is this section good after these items? -/
structure ListenerGood (before : List CfgItem) (body : List CfgLine) : Prop where
  lines : ∀ l ∈ body, CfgListed e listenerTable l
  bind : cfgLast "bind" body ≠ none
  mode : ModeOk e 2200 body
  tag : ∀ t ∈ cfgValues "tag" body, t.length ≤ 256
  /-- at most one target -/
  one : (cfgArgs "proxy_to" body).length + (cfgArgs "proxy_to_zeroconf" body).length ≤ 1
  /-- which was defined before -/
  cluster : ∀ n ∈ cfgValues "proxy_to_zeroconf" body, n ∈ (namedBlocks "zeroconf_cluster" before).map (·.1)
  host : ∀ n ∈ cfgValues "proxy_to" body, n ∈ (namedBlocks "target_host" before).map (·.1)

/-- `isEmpty`: of a set of keys -/
structure ClusterGood (isEmpty : S → Bool) (before : List CfgItem) (name : Bytes) (body : List CfgLine) : Prop where
  lines : ∀ l ∈ body, CfgListed e clusterTable l
  /-- the service is given -/
  service : ∃ v, cfgLast "zeroconf_service" body = some v ∧ v ≠ []
  ok : e.zeroconfOk (zeroconfOf clusterZeroconf body) = true
  keys : isEmpty (clusterOf e load empty body).hostKeys = false
  unique : name ∉ (namedBlocks "zeroconf_cluster" before).map (·.1)

structure TargetGood (isEmpty : S → Bool) (before : List CfgItem) (name : Bytes) (body : List CfgLine) : Prop where
  lines : ∀ l ∈ body, CfgListed e targetTable l
  address : (hostOf e load empty name body).address ≠ none
  keys : isEmpty (hostOf e load empty name body).hostKeys = false
  unique : name ∉ (namedBlocks "target_host" before).map (·.1)

/-- The body of a section may not contain its end. -/
def NoClose (body : List CfgLine) : Prop := ∀ l ∈ body, ∀ r, l ≠ .closeBrace :: r

/-- **Is this item good after these items?** -/
inductive ItemGood (isEmpty : S → Bool) (before : List CfgItem) : CfgItem → Prop
  | setting (l) (h : CfgListed e topTable l) : ItemGood isEmpty before (.setting l)
  | listener (body) (h : ListenerGood e before body) : ItemGood isEmpty before (.block [.word (ascii "listener")] body)
  | cluster (arg name body) (hn : cfgValue [arg] = some name) (h : ClusterGood e load empty isEmpty before name body) :
      ItemGood isEmpty before (.block [.word (ascii "zeroconf_cluster"), arg] body)
  | target (arg name body) (hn : cfgValue [arg] = some name) (h : TargetGood e load empty isEmpty before name body) :
      ItemGood isEmpty before (.block [.word (ascii "target_host"), arg] body)
  | exporter (body) (h : ∀ l ∈ body, CfgListed e exporterTable l) (hb : cfgLast "bind" body ≠ none)
      (hm : ModeOk e 9100 body) : ItemGood isEmpty before (.block [.word (ascii "prometheus_exporter")] body)
  | control (body) (h : ∀ l ∈ body, CfgListed e controlTable l) (hb : cfgLast "bind" body ≠ none) :
      ItemGood isEmpty before (.block [.word (ascii "control")] body)
  | spawn (body) (h : ∀ l ∈ body, e.spawn l = true) (hc : NoClose body) :
      ItemGood isEmpty before (.block [.word (ascii "spawn")] body)

/-- **A file which follows the documentation.** -/
def FileGood (isEmpty : S → Bool) (items : List CfgItem) : Prop :=
  ∀ a x b, items = a ++ x :: b → ItemGood e load empty isEmpty a x

/-- There is no "target_host" section. -/
def NoTargets (items : List CfgItem) : Prop := ∀ args body, .block (.word (ascii "target_host") :: args) body ∉ items

/-- The timeouts of all listeners, in milliseconds, are 32 bit numbers. -/
def AckSmall (e : CfgEnv K) (items : List CfgItem) : Prop :=
  ∀ body ∈ blocksOf "listener" items, ((cfgLast "ack_timeout" body).bind e.positive).getD 0 * 1000 < 2 ^ 32

end Lukko.Spec
