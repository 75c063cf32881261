import Verif.Model.Setup
import Verif.Spec.PeerUrl
/-! Specification of the configuration: how options are written down, what they mean, and what a daemon has to run. -/

namespace Dtn.Spec.SetupSpec
open Setup
open Spec.PeerUrlSpec (Plain layers ReadsNodes)

/-- The first of the values that is given, or else the default. -/
def first {α : Type} : List (Option α) → α → α
  | [], d => d
  | some a :: _, _ => a
  | none :: l, d => first l d

/-- Two lists of the same length whose entries belong together. -/
inductive Both {α β : Type} (R : α → β → Prop) : List α → List β → Prop where
  | nil : Both R [] []
  | cons {a b as bs} : R a b → Both R as bs → Both R (a :: as) (b :: bs)

/-- The last value given for a key. -/
def given {α : Type} (kvs : List (List Char × α)) (key : List Char) : Option α :=
  (kvs.reverse.find? fun kv => kv.1 = key).map (·.2)

/-- The last value given for a setting of an agent. -/
def asked (l : List (Text × Text × Text)) (name key : Text) : Option Text :=
  (l.reverse.find? fun x => x.1 = name ∧ x.2.1 = key).map fun x => x.2.2

/-- A setting in a table of tables. -/
def inTable (m : AList Text (AList Text Text)) (name key : Text) : Option Text := (AList.get? m name).bind fun t => AList.get? t key

/-- The text of a time span and the span: `0` is none at all, the others are read by the library. -/
def Span {A : Type} (env : Env A) (t : String) (d : Nat) : Prop := if t = "0" then d = 0 else env.duration t = some d

/-- The routing algorithms of this version. -/
def algorithms : List String := ["epidemic", "flooding", "sink", "external", "sprayandwait", "static"]

/-- The bundle stores of this version. -/
def stores : List String := ["mem", "sled", "sneakers"]

/-- A configuration file whose numbers are port numbers and whose time spans are time spans. -/
structure Proper {A : Type} (env : Env A) (f : File) : Prop where
  webport : ∀ p, f.webport = some p → 0 ≤ p ∧ p ≤ 65535
  eclaPort : ∀ p, f.eclaPort = some p → ∃ n, p = some n ∧ 0 ≤ n ∧ n ≤ 65535
  interval : ∀ t, f.interval = some t → ∃ d, Span env t d ∧ env.duration t = some d
  janitor : ∀ t, f.janitor = some t → ∃ d, Span env t d ∧ env.duration t = some d
  peerTimeout : ∀ t, f.peerTimeout = some t → ∃ d, Span env t d ∧ env.duration t = some d

/-- The settings of a daemon follow the command line `a`, then the file `f`, then the documented defaults. -/
structure Follows {A : Type} (env : Env A) (a : Args) (f : File) (cfg : Config) : Prop where
  workdir : cfg.workdir = first [a.workdir, f.workdir] env.cwd
  webport : (cfg.webport : Int) = first [a.webport.map Int.ofNat, f.webport] 3000
  interval : ∀ t, first [a.interval.map some, f.interval.map some] none = some t → Span env t cfg.announce
  interval_default : a.interval = none → f.interval = none → cfg.announce = 2000000
  /-- beacons announce the interval at which they are sent -/
  announced : cfg.interval = cfg.announce / 1000
  janitor : ∀ t, first [a.janitor.map some, f.janitor.map some] none = some t → Span env t cfg.janitor
  janitor_default : a.janitor = none → f.janitor = none → cfg.janitor = 10000000
  peerTimeout : ∀ t, first [a.peerTimeout.map some, f.peerTimeout.map some] none = some t → Span env t cfg.peerTimeout
  peerTimeout_default : a.peerTimeout = none → f.peerTimeout = none → cfg.peerTimeout = 20000000
  routing : (∀ r, a.routing = some r → r ∈ algorithms) → cfg.routing = first [a.routing, f.routing] "epidemic"
  db : (∀ d, a.db = some d → d ∈ stores) → cfg.db = first [a.db, f.db] "mem"
  noDiscovery : cfg.noDiscovery = a.disableNd
  endpoints : cfg.endpoints = f.endpoints ++ a.endpoints
  statics : (f.statics ++ a.statics).map (PeerUrl.parsePeerUrl env.eid env.now) = cfg.statics.map .ok

/-- The flags of the command line are those of the daemon. IPv6 switches IPv4 off, unless both are asked for. -/
structure FlagsOfArgs (a : Args) (cfg : Config) : Prop where
  ipv4 : cfg.v4 = (a.ipv4 || !a.ipv6)
  ipv6 : cfg.v6 = a.ipv6
  statusReports : cfg.statusReports = a.statusReports
  ecla : cfg.ecla = a.ecla
  eclaPort : cfg.eclaPort = a.eclaPort.getD 0
  parallel : cfg.parallel = a.parallel
  unsafeHttpd : cfg.unsafeHttpd = a.unsafeHttpd
  period : cfg.enablePeriod = a.period

/-- The flags of the file are those of the daemon. -/
structure FlagsOfFile (f : File) (cfg : Config) : Prop where
  ipv4 : cfg.v4 = f.ipv4.getD true
  ipv6 : cfg.v6 = f.ipv6.getD false
  statusReports : cfg.statusReports = f.statusReports.getD false
  ecla : cfg.ecla = (f.ecla.getD none).getD false
  eclaPort : (cfg.eclaPort : Int) = (f.eclaPort.getD none).getD 0
  parallel : cfg.parallel = f.parallel.getD false
  unsafeHttpd : cfg.unsafeHttpd = f.unsafeHttpd.getD false
  period : cfg.enablePeriod = f.period.getD false

/-- ASCII letters and digits. -/
def Letter (c : Char) : Prop := ('a' ≤ c ∧ c ≤ 'z') ∨ ('A' ≤ c ∧ c ≤ 'Z')
def Digit (c : Char) : Prop := '0' ≤ c ∧ c ≤ '9'

/-- A node number. -/
def Number (s : Text) : Prop := s ≠ [] ∧ ∀ c ∈ s, Digit c

/-- The number written down in decimal. -/
def value (s : Text) : Nat := s.foldl (fun v c => v * 10 + (c.toNat - '0'.toNat)) 0

/-- A node name, in the words of `core/helpers.rs:156-160`. -/
structure NodeName (s : Text) : Prop where
  start : ∃ c, s.head? = some c ∧ Letter c
  chars : ∀ c ∈ s, Letter c ∨ Digit c ∨ c = '.' ∨ c = '-' ∨ c = '_'
  finish : ∃ c, s.getLast? = some c ∧ (Letter c ∨ Digit c)

/-- A node id: the endpoint without a service part. -/
def IsNode (e : EID) : Prop := (∃ n, e = .dtn n "") ∨ ∃ n, e = .ipn n 0

/-- The node meant by a text: numbers and names stand for themselves, everything else has to be a complete node id. Numbers that do
not fit into 64 bits are no node numbers. -/
structure Means (parseEid : String → Option EID) (t : Text) (e : EID) : Prop where
  number : Number t → value t < 2 ^ 64 → e = .ipn (value t) 0
  name : NodeName t → e = .dtn (String.ofList t) ""
  other : (∀ c ∈ t, c.toNat < 128) → ¬ Number t → ¬ NodeName t → parseEid (String.ofList t) = some e ∧ IsNode e

/-- What is assumed of the libraries: the parser of endpoint ids reads nodes (with and without the last slash), ASCII characters are
alphabetic if they are letters, and the random name is a name. -/
structure Sound {A : Type} (env : Env A) : Prop where
  reads : ReadsNodes env.eid
  short : ∀ n : List Char, n ≠ [] → Plain n → env.eid (String.ofList ("dtn://".toList ++ n)) = some (.dtn (String.ofList n) "")
  ascii : ∀ c : Char, c.toNat < 128 → (env.alphabetic c = true ↔ Letter c)
  rnd : NodeName env.rnd

/-- `-C name:key=value:key=value…` -/
def claText (name : Text) (kvs : List (Text × Text)) : Text :=
  name ++ (kvs.map fun kv => ':' :: kv.1 ++ '=' :: kv.2).flatten

/-- `-O name:key=value` -/
def globalText (name key value : Text) : Text := name ++ ':' :: key ++ '=' :: value

/-- `-S tag:payload` -/
def serviceText (tag : Nat) (payload : Text) : Text := (toString tag).toList ++ ':' :: payload

/-- `-R algorithm.key=value` -/
def routingText (algo key value : Text) : Text := algo ++ '.' :: key ++ '=' :: value

/-- Texts without the characters that separate the parts of an option. -/
def Free (cs : List Char) (t : Text) : Prop := ∀ c ∈ cs, c ∉ t

/-- The endpoint a text of the configuration stands for: a complete endpoint id, or else a service of the node. -/
def Endpoint {A : Type} (env : Env A) (host : EID) (t : String) (e : EID) : Prop :=
  env.eid t = some e ∨ env.eid t = none ∧ env.newEndpoint host t = some e

/-- The text of a port number. -/
def IsPort (t : Text) (p : Nat) : Prop := p ≤ 65535 ∧ t = (toString p).toList

/-- The convergence layer a configuration asks for. Ports that are given have to be port numbers. -/
inductive Runs (webport : Nat) : Text → (Text → Option Text) → Cla → Prop where
  | mtcp (m p) : (∀ t, m "port".toList = some t → IsPort t p) → (m "port".toList = none → p = 16162) →
      Runs webport "mtcp".toList m { name := "mtcp", port := p, accepting := true }
  | tcp (m p) : (∀ t, m "port".toList = some t → IsPort t p) → (m "port".toList = none → p = 4556) →
      Runs webport "tcp".toList m { name := "tcp", port := p, accepting := true }
  | udp (m p) : (∀ t, m "port".toList = some t → IsPort t p) → (m "port".toList = none → p = 4556) →
      Runs webport "udp".toList m { name := "udp", port := p, accepting := true }
  | http (m) : Runs webport "http".toList m { name := "http", port := webport, accepting := true }
  | httppull (m) : Runs webport "httppull".toList m { name := "httppull", port := 0, accepting := false }
  | dummy (m) : Runs webport "dummy".toList m { name := "dummy", port := 0, accepting := true }
  | external (m n p d) : m "name".toList = some n → (∀ t, m "port".toList = some t → IsPort t p) →
      (m "port".toList = none → p = 0) → (∀ t, m "discovery_only".toList = some t → t = (toString d).toList) →
      (m "discovery_only".toList = none → d = false) →
      Runs webport "external".toList m { name := String.ofList n, port := p, accepting := !d }

/-- A daemon runs what its configuration asks for, and nothing else. -/
structure Running {A : Type} (env : Env A) (cfg : Config) (d : Daemon) : Prop where
  store : d.store = cfg.db ∧ cfg.db ∈ stores
  routing : d.routing = cfg.routing ∧ cfg.routing ∈ algorithms
  agents : ∀ e, (∃ g ∈ d.agents, g.eid = e) ↔ e = cfg.host ∨ ∃ t ∈ cfg.endpoints, Endpoint env cfg.host t e
  agents_once : (d.agents.map (·.eid)).Nodup
  agents_empty : ∀ g ∈ d.agents, g.queue = [] ∧ g.delivery = none
  peers : ∀ n, AList.get? d.peers n = cfg.statics.reverse.find? fun p => p.eid.node = some n
  clas : (∀ c ∈ cfg.clas, ∀ t, AList.get? c.2 "port".toList = some t → ∃ p, IsPort t p) →
    Both (fun c r => Runs cfg.webport c.1 (AList.get? c.2) r) cfg.clas d.clas
  janitor : d.janitor = true ↔ cfg.janitor ≠ 0
  discovery : d.discovery = true ↔ cfg.noDiscovery = false ∧ cfg.announce ≠ 0
  ecla : d.ecla = if cfg.ecla then some cfg.eclaPort else none

end Dtn.Spec.SetupSpec
