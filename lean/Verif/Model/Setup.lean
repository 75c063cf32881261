import Verif.Model.Announcer
import Verif.Model.PeerUrl
import Verif.Model.Agents
/-! The configuration of a daemon: `dtnconfig.rs`, the command line in `bin/dtnd.rs`, and `dtnd/daemon.rs`. -/

namespace Dtn.Setup
open Discovery (Outcome)
open Announcer (Net)
open PeerUrl (isCla)

abbrev Text := List Char

/-- Functions of other crates. -/
structure Env (A : Type) where
  /-- `char::is_alphabetic` -/
  alphabetic : Char → Bool
  /-- `EndpointID::try_from` -/
  eid : String → Option EID
  /-- `EndpointID::new_endpoint` -/
  newEndpoint : EID → String → Option EID
  /-- `humantime::parse_duration`, in microseconds (simplification: shorter times are not distinguished) -/
  duration : String → Option Nat
  /-- socket addresses -/
  net : Net A
  /-- the time `DtnPeer::new` notes -/
  now : Nat := 0
  /-- the name `rnd_node_name` yields, `dtnconfig.rs:47-62` -/
  rnd : Text
  /-- `std::env::current_dir` -/
  cwd : String

/-- `DtnConfig`, `dtnconfig.rs:17-45`, with the part for discovery in `Announcer.Config`. Durations are in microseconds, but
`interval` in milliseconds (simplification). Left out: `debug`, `custom_timeout` (never set) and `nodeid` (the printed
`host_eid`). -/
structure Config extends Announcer.Config where
  unsafeHttpd : Bool := false
  webport : Nat := 3000
  announce : Nat := 2000000
  noDiscovery : Bool := false
  janitor : Nat := 10000000
  endpoints : List String := []
  clas : List (Text × AList Text Text) := []
  claGlobal : AList Text (AList Text Text) := []
  routing : String := "epidemic"
  routingSettings : AList Text (AList Text Text) := []
  peerTimeout : Nat := 20000000
  statics : List Peer := []
  workdir : String
  db : String := "mem"
  statusReports : Bool := false
  eclaPort : Nat := 0
  ecla : Bool := false
  parallel : Bool := false
deriving DecidableEq, Repr

/-- A parsed configuration file: what the getters called in `dtnconfig.rs:79-253` return; `none` stands for a missing entry and for
one of another type. Tables become lists, in any order. -/
structure File where
  statusReports : Option Bool := none
  parallel : Option Bool := none
  unsafeHttpd : Option Bool := none
  ipv4 : Option Bool := none
  ipv6 : Option Bool := none
  period : Option Bool := none
  nodeid : Option Text := none
  routing : Option String := none
  routingSettings : List (Text × AList Text Text) := []
  workdir : Option String := none
  db : Option String := none
  webport : Option Int := none
  janitor : Option String := none
  interval : Option String := none
  peerTimeout : Option String := none
  statics : List Text := []
  endpoints : List String := []
  clas : List (Text × AList Text Text) := []
  claGlobal : List (Text × AList Text Text) := []
  ecla : Option (Option Bool) := none
  eclaPort : Option (Option Int) := none
  services : List (Text × String) := []
  dests : List String := []

/-- What `clap` found on the command line, `bin/dtnd.rs:53-287`. -/
structure Args where
  config : Option File := none
  nodeid : Option Text := none
  workdir : Option String := none
  endpoints : List String := []
  interval : Option String := none
  disableNd : Bool := false
  janitor : Option String := none
  dests : List String := []
  webport : Option Nat := none
  eclaPort : Option Nat := none
  ecla : Bool := false
  peerTimeout : Option String := none
  routing : Option String := none
  routingOptions : List Text := []
  db : Option String := none
  clas : List Text := []
  globals : List Text := []
  services : List Text := []
  statics : List Text := []
  period : Bool := false
  statusReports : Bool := false
  parallel : Bool := false
  unsafeHttpd : Bool := false
  ipv4 : Bool := false
  ipv6 : Bool := false

variable {A : Type} [DecidableEq A]

/-- Go on if it went well: `?`, `unwrap` and `expect`, as the case may be. -/
def andThen {α β : Type} (x : Outcome α) (f : α → Outcome β) : Outcome β :=
  match x with
  | .ok a => f a
  | .err => .err
  | .panic => .panic

/-- `unwrap` and `expect`. -/
def unwrap {α : Type} : Option α → Outcome α
  | some a => .ok a
  | none => .panic

/-- A loop that may end early. -/
def each {α β : Type} (f : β → α → Outcome β) : β → List α → Outcome β
  | b, [] => .ok b
  | b, a :: l => andThen (f b a) fun b => each f b l

/-- `str::split`. -/
def split (d : Char) : Text → List Text
  | [] => [[]]
  | c :: s =>
    if c = d then [] :: split d s
    else match split d s with
      | [] => [[c]]
      | p :: ps => (c :: p) :: ps

def isAlnum (c : Char) : Bool := PeerUrl.isAlpha c || PeerUrl.isDigit c

/-- `is_valid_node_name`, `core/helpers.rs:161-169`; `none` is the panic for the empty text. -/
def isValidNodeName (env : Env A) : Text → Option Bool
  | [] => none
  | c :: s =>
    some ((env.alphabetic c && s.all (fun c => isAlnum c || c = '_' || c = '-' || c = '.') &&
        ((c :: s).getLast?.map isAlnum).getD false) ||
      (c :: s).all PeerUrl.isDigit)

/-- `parse::<u64>` for a text of digits. -/
def parseU64 (s : Text) : Option Nat :=
  match Routing.StaticRouting.digits 0 s with
  | some n => if n < 18446744073709551616 then some n else none
  | none => none

/-- `EndpointID::is_node_id` (bp7; called in `dtnconfig.rs:103`, `bin/dtnd.rs:332`): no service part. -/
def isNodeId : EID → Bool
  | .none => false
  | .dtn _ s => s = ""
  | .ipn _ s => s = 0

/-- The node id of a configuration, `dtnconfig.rs:94-106` with an empty `slash` and `bin/dtnd.rs:323-336` with `slash` being `/`. For
texts that are valid node names `parse::<u64>` sees either only digits or a text that does not start with a digit. -/
def hostOf (env : Env A) (slash : Text) (nodeid : Text) : Outcome EID :=
  andThen (unwrap (isValidNodeName env nodeid)) fun valid =>
  if valid then
    match parseU64 nodeid with
    | some n => unwrap (env.eid (String.ofList ("ipn:".toList ++ (toString n).toList ++ ".0".toList)))
    | none => unwrap (env.eid (String.ofList ("dtn://".toList ++ nodeid ++ slash)))
  else andThen (unwrap (env.eid (String.ofList nodeid))) fun e => if isNodeId e then .ok e else .panic

/-- `DtnConfig::new`, `dtnconfig.rs:262-294`. -/
def Config.new (env : Env A) : Outcome Config :=
  andThen (unwrap (env.eid (String.ofList ("dtn://".toList ++ env.rnd)))) fun e =>
  .ok { host := e, workdir := env.cwd }

/-- `as u16`. -/
def toU16 (i : Int) : Nat := (i % 65536).toNat

/-- An interval of the configuration file, `dtnconfig.rs:141-160`. -/
def fileDuration (env : Env A) (old : Nat) : Option String → Nat
  | none => old
  | some s => (env.duration s).getD 0

/-- Set a table entry for an agent, `dtnconfig.rs:115-121`. -/
def setTable (m : AList Text (AList Text Text)) : List (Text × AList Text Text) → AList Text (AList Text Text)
  | [] => m
  | (k, t) :: l => setTable (AList.insert m k t) l

/-- `parse::<u8>` -/
def parseU8 (s : Text) : Option Nat :=
  if Routing.StaticRouting.stripPlus s = [] then none
  else match Routing.StaticRouting.digits 0 (Routing.StaticRouting.stripPlus s) with
    | some n => if n < 256 then some n else none
    | none => none

/-- A service of the configuration file, `dtnconfig.rs:225-241`. A tag that is used twice is a panic. -/
def fileService (cfg : Config) (e : Text × String) : Outcome Config :=
  andThen (unwrap (parseU8 e.1)) fun tag =>
  if AList.contains cfg.services tag then .panic
  else .ok { cfg with services := AList.insert cfg.services tag e.2 }

/-- A static peer, `dtnconfig.rs:163-169` and `bin/dtnd.rs:467-470`. -/
def addStatic (env : Env A) (cfg : Config) (url : Text) : Outcome Config :=
  match PeerUrl.parsePeerUrl env.eid env.now url with
  | .ok p => .ok { cfg with statics := cfg.statics ++ [p] }
  | _ => .panic

/-- A discovery destination, `dtnconfig.rs:248-250` and `bin/dtnd.rs:460-461`. -/
def addDest (env : Env A) (cfg : Config) (s : String) : Outcome Config :=
  match cfg.toConfig.addDestination env.net s with
  | .ok c => .ok { cfg with toConfig := c }
  | _ => .panic

/-- The check for destinations, `dtnconfig.rs:254-256` and `bin/dtnd.rs:464-465`. -/
def checkDests (cfg : Config) : Outcome Config :=
  match cfg.toConfig.checkDestinations with
  | .ok c => .ok { cfg with toConfig := c }
  | _ => .panic

/-- The agents with their settings, `dtnconfig.rs:178-196`: those with unknown names are skipped. -/
def fileClas (l : List (Text × AList Text Text)) : List (Text × AList Text Text) := l.filter fun c => isCla c.1

/-- The single settings of the file, `dtnconfig.rs:79-160`. The fields are set at once. -/
def fileFields (env : Env A) (f : File) (cfg : Config) (host : EID) : Config :=
  { cfg with
    statusReports := f.statusReports.getD false
    parallel := f.parallel.getD false
    unsafeHttpd := f.unsafeHttpd.getD false
    v4 := f.ipv4.getD true
    v6 := f.ipv6.getD false
    enablePeriod := f.period.getD false
    host
    routing := f.routing.getD cfg.routing
    routingSettings := setTable cfg.routingSettings f.routingSettings
    workdir := f.workdir.getD env.cwd
    db := f.db.getD "mem"
    webport := toU16 (f.webport.getD cfg.webport)
    janitor := fileDuration env cfg.janitor f.janitor
    announce := fileDuration env cfg.announce f.interval
    interval := fileDuration env cfg.announce f.interval / 1000
    peerTimeout := fileDuration env cfg.peerTimeout f.peerTimeout }

/-- The tables of endpoints and agents, `dtnconfig.rs:171-221`. -/
def fileTables (f : File) (cfg : Config) : Config :=
  { cfg with
    endpoints := cfg.endpoints ++ f.endpoints
    clas := cfg.clas ++ fileClas f.clas
    claGlobal := setTable cfg.claGlobal (fileClas f.claGlobal)
    ecla := match f.ecla with
      | some e => e.getD false
      | none => cfg.ecla
    eclaPort := match f.eclaPort with
      | some p => toU16 (p.getD 0)
      | none => cfg.eclaPort }

/-- `DtnConfig::from`, `dtnconfig.rs:64-259`. -/
def fromFile (env : Env A) (f : File) : Outcome Config :=
  andThen (Config.new env) fun cfg =>
  andThen (hostOf env [] (f.nodeid.getD env.rnd)) fun host =>
  andThen (each (addStatic env) (fileFields env f cfg host) f.statics) fun cfg =>
  andThen (each fileService (fileTables f cfg) f.services) fun cfg =>
  andThen (each (addDest env) cfg f.dests) fun cfg =>
  checkDests cfg

/-- A duration on the command line, `bin/dtnd.rs:339-346,351-366`. -/
def argDuration (env : Env A) (old : Nat) : Option String → Outcome Nat
  | none => .ok old
  | some s => if s = "0" then .ok 0 else unwrap (env.duration s)

/-- `routing_algorithms`, `routing/mod.rs:73-82`. -/
def routingAlgorithms : List String := ["epidemic", "flooding", "sink", "external", "sprayandwait", "static"]

/-- `bundle_stores`, `core/store/mod.rs:79-87`, with both optional stores compiled in. -/
def bundleStores : List String := ["mem", "sled", "sneakers"]

/-- A routing option, `bin/dtnd.rs:375-393`. -/
def routingOption (cfg : Config) (opt : Text) : Outcome Config :=
  match split '=' opt with
  | [key, value] =>
    match split '.' key with
    | [algo, name] =>
      let m := if AList.contains cfg.routingSettings algo then cfg.routingSettings else AList.insert cfg.routingSettings algo []
      .ok { cfg with routingSettings := AList.insert m algo (AList.insert ((AList.get? m algo).getD []) name value) }
    | _ => .panic
  | _ => .panic

/-- `split('=')` and the first two parts, `bin/dtnd.rs:411-412,424,434`. -/
def setting (t : Text) : Outcome (Text × Text) :=
  match split '=' t with
  | key :: value :: _ => .ok (key, value)
  | _ => .panic

/-- The settings behind the name of an agent, `bin/dtnd.rs:409-413`. -/
def settings (m : AList Text Text) (t : Text) : Outcome (AList Text Text) :=
  andThen (setting t) fun kv => .ok (AList.insert m kv.1 kv.2)

/-- A convergence layer agent, `bin/dtnd.rs:406-415`. -/
def claOption (cfg : Config) (cla : Text) : Outcome Config :=
  match split ':' cla with
  | [] => .panic
  | name :: rest =>
    if isCla name then
      andThen (each settings [] rest) fun m => .ok { cfg with clas := cfg.clas ++ [(name, m)] }
    else .ok cfg

/-- A global option of an agent, `bin/dtnd.rs:421-435`. -/
def globalOption (cfg : Config) (ext : Text) : Outcome Config :=
  match split ':' ext with
  | [] => .panic
  | name :: rest =>
    if isCla name then
      match rest with
      | [] => .panic
      | first :: _ =>
        andThen (setting first) fun kv =>
        let old := (AList.get? cfg.claGlobal name).getD []
        .ok { cfg with claGlobal := AList.insert cfg.claGlobal name (AList.insert old kv.1 kv.2) }
    else .ok cfg

/-- A service, `bin/dtnd.rs:441-455`. -/
def serviceOption (cfg : Config) (service : Text) : Outcome Config :=
  match split ':' service with
  | [] => .panic
  | tag :: rest =>
    andThen (unwrap (parseU8 tag)) fun tag =>
    if AList.contains cfg.services tag then .err
    else match rest with
      | [] => .panic
      | payload :: _ => .ok { cfg with services := AList.insert cfg.services tag (String.ofList payload) }

/-- The flags that are read before the configuration file, `bin/dtnd.rs:298-314`. -/
def earlyFlags (a : Args) (cfg : Config) : Config :=
  let v4 := if a.ipv6 then false else cfg.v4
  let v6 := if a.ipv6 then true else cfg.v6
  { cfg with
    v6
    v4 := a.ipv4 || v4
    statusReports := a.statusReports || cfg.statusReports
    ecla := a.ecla
    eclaPort := a.eclaPort.getD cfg.eclaPort
    parallel := a.parallel || cfg.parallel
    unsafeHttpd := a.unsafeHttpd || cfg.unsafeHttpd
    enablePeriod := a.period }

/-- The configuration file, `bin/dtnd.rs:315-317`. -/
def load (env : Env A) (a : Args) (cfg : Config) : Outcome Config :=
  match a.config with
  | some f => fromFile env f
  | none => .ok cfg

/-- The options that are read after the configuration file, `bin/dtnd.rs:319-477`. -/
def lateOptions (env : Env A) (a : Args) (cfg : Config) : Outcome Config :=
  andThen (match a.nodeid with
    | some n => hostOf env ['/'] n
    | none => .ok cfg.host) fun host =>
  andThen (argDuration env cfg.announce a.interval) fun announce =>
  andThen (argDuration env cfg.janitor a.janitor) fun janitor =>
  andThen (argDuration env cfg.peerTimeout a.peerTimeout) fun peerTimeout =>
  let cfg := { cfg with
    workdir := a.workdir.getD cfg.workdir
    host
    noDiscovery := a.disableNd
    announce
    interval := if a.interval.isSome then announce / 1000 else cfg.interval
    webport := a.webport.getD cfg.webport
    janitor
    peerTimeout
    routing := match a.routing with
      | some r => if r ∈ routingAlgorithms then r else cfg.routing
      | none => cfg.routing }
  andThen (each routingOption cfg a.routingOptions) fun cfg =>
  let cfg := { cfg with
    db := match a.db with
      | some d => if d ∈ bundleStores then d else cfg.db
      | none => cfg.db }
  andThen (each claOption cfg a.clas) fun cfg =>
  andThen (each globalOption cfg a.globals) fun cfg =>
  andThen (each serviceOption cfg a.services) fun cfg =>
  andThen (each (addDest env) cfg a.dests) fun cfg =>
  andThen (checkDests cfg) fun cfg =>
  andThen (each (addStatic env) cfg a.statics) fun cfg =>
  .ok { cfg with endpoints := cfg.endpoints ++ a.endpoints }

/-- The configuration made by `main`, `bin/dtnd.rs:44-477`. -/
def configure (env : Env A) (a : Args) : Outcome Config :=
  andThen (Config.new env) fun cfg =>
  andThen (load env a (earlyFlags a cfg)) fun cfg =>
  lateOptions env a cfg

/-- What `start_dtnd` puts into the statics of `lib.rs:33-42`, and the tasks it starts. -/
structure Daemon where
  cfg : Config
  /-- `STORE` -/
  store : String
  /-- `DTNCORE.routing_agent` -/
  routing : String
  /-- `CLAS` -/
  clas : List Cla := []
  /-- does the TCP layer refuse bundles it has, for each of `clas` -/
  refuse : List Bool := []
  peers : Peers := []
  agents : Registry := []
  janitor : Bool := false
  discovery : Bool := false
  /-- the port of the TCP connector, 0 if there is only the web socket connector -/
  ecla : Option Nat := none
deriving DecidableEq, Repr

/-- The setting `port`; texts that are no port numbers count as missing, `cla/mtcp.rs:278-281`, `cla/udp.rs:96-99`,
`cla/tcp/mod.rs:714-717`. -/
def portSetting (m : AList Text Text) (default : Nat) : Nat :=
  ((AList.get? m "port".toList).bind Routing.StaticRouting.parseU16).getD default

/-- `parse::<bool>`. -/
def parseBool (t : Text) : Option Bool :=
  if t = "true".toList then some true else if t = "false".toList then some false else none

/-- A setting that has to be readable if it is there, `cla/external.rs:23-36`. -/
def readable {α : Type} (read : Text → Option α) (default : α) : Option Text → Outcome α
  | some t => unwrap (read t)
  | none => .ok default

/-- `ExternalConvergenceLayer::new`, `cla/external.rs:21-63`. -/
def newExternal (m : AList Text Text) : Outcome Cla :=
  andThen (readable Routing.StaticRouting.parseU16 0 (AList.get? m "port".toList)) fun port =>
  andThen (readable parseBool false (AList.get? m "discovery_only".toList)) fun discoveryOnly =>
  andThen (unwrap (AList.get? m "name".toList)) fun name =>
  .ok { name := String.ofList name, port, accepting := !discoveryOnly }

/-- `cla::new` (`codegen/src/cla.rs:83-90`): the constructors in `cla/*.rs`. -/
def newCla (cfg : Config) (c : Text × AList Text Text) : Outcome Cla :=
  if c.1 = "external".toList then newExternal c.2
  else if c.1 = "mtcp".toList then .ok { name := "mtcp", port := portSetting c.2 16162 }
  else if c.1 = "udp".toList then .ok { name := "udp", port := portSetting c.2 4556 }
  else if c.1 = "tcp".toList then .ok { name := "tcp", port := portSetting c.2 4556 }
  else if c.1 = "http".toList then .ok { name := "http", port := cfg.webport }
  else if c.1 = "httppull".toList then .ok { name := "httppull", port := 0, accepting := false }
  else if c.1 = "dummy".toList then .ok { name := "dummy", port := 0 }
  else .panic

/-- `refuse_existing_bundles`, `cla/tcp/mod.rs:718-730`. -/
def refuseSetting (cfg : Config) (c : Text × AList Text Text) : Bool :=
  let key := "refuse-existing-bundles".toList
  let globally := ((AList.get? cfg.claGlobal "tcp".toList).bind fun m => (AList.get? m key).bind parseBool).getD false
  ((AList.get? c.2 key).bind parseBool).getD globally

/-- One agent, `dtnd/daemon.rs:112-115`. -/
def startCla (d : Daemon) (c : Text × AList Text Text) : Outcome Daemon :=
  andThen (newCla d.cfg c) fun cla => .ok { d with clas := d.clas ++ [cla], refuse := d.refuse ++ [refuseSetting d.cfg c] }

/-- One static peer, `dtnd/daemon.rs:120-128`. -/
def startPeer (d : Daemon) (p : Peer) : Outcome Daemon :=
  andThen (unwrap (d.peers.add p)) fun r => .ok { d with peers := r.1 }

/-- One endpoint, `dtnd/daemon.rs:133-144`. -/
def startEndpoint (env : Env A) (d : Daemon) (e : String) : Outcome Daemon :=
  andThen (match env.eid e with
    | some eid => .ok eid
    | none => unwrap (env.newEndpoint d.cfg.host e)) fun eid =>
  .ok { d with agents := Registry.register d.agents (AppAgent.with eid) }

/-- `start_dtnd`, `dtnd/daemon.rs:66-165`, up to the web server. `DtnConfig::set` (`dtnconfig.rs:295-323`) copies all fields. Binding
sockets is not modelled. -/
def startDtnd (env : Env A) (cfg : Config) : Outcome Daemon :=
  if cfg.db ∉ bundleStores then .panic
  else if cfg.routing ∉ routingAlgorithms then .panic
  else
    andThen (each startCla { cfg, store := cfg.db, routing := cfg.routing } cfg.clas) fun d =>
    andThen (each startPeer d cfg.statics) fun d =>
    andThen (each (startEndpoint env) { d with agents := Registry.register d.agents (AppAgent.with cfg.host) } cfg.endpoints) fun d =>
    .ok { d with
      janitor := cfg.janitor != 0
      discovery := !cfg.noDiscovery && cfg.announce != 0
      ecla := if cfg.ecla then some cfg.eclaPort else none }

end Dtn.Setup
