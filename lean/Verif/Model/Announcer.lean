import Verif.Model.Discovery
/-! Discovery destinations of the configuration (`dtnconfig.rs`) and the announcing tasks
(`ipnd/neighbour_discovery.rs`). -/

namespace Dtn.Announcer
open Discovery

/-- Socket addresses (`std::net::SocketAddr`, external): parsing, printing and the address family. -/
structure Net (A : Type) where
  parse : String → Option A
  print : A → String
  isV4 : A → Bool

/-- The part of `DtnConfig` (`dtnconfig.rs:17-45`) that concerns discovery; `interval` in milliseconds. -/
structure Config where
  v4 : Bool := true
  v6 : Bool := false
  dests : AList String Nat := []
  host : EID
  enablePeriod : Bool := false
  interval : Nat := 2000
  services : AList Nat String := []
deriving DecidableEq, Repr

variable {A : Type} [DecidableEq A]

/-- The `match` of `add_destination`, `dtnconfig.rs:340-351`. -/
def Config.store (net : Net A) (cfg : Config) (a : A) : Config :=
  if net.isV4 a then
    if cfg.v4 then { cfg with dests := AList.insert cfg.dests (net.print a) 0 } else cfg
  else
    if cfg.v6 then { cfg with dests := AList.insert cfg.dests (net.print a) 0 } else cfg

/-- `add_destination`, `dtnconfig.rs:328-353`. -/
def Config.addDestination (net : Net A) (cfg : Config) (s : String) : Outcome Config :=
  match net.parse s with
  | some a => .ok (cfg.store net a)
  | none =>
    match net.parse (s ++ ":3003") with
    | some a => .ok (cfg.store net a)
    | none => .panic

/-- Several destinations in a row, `dtnconfig.rs:244-253` and `bin/dtnd.rs:458-463`. -/
def Config.addAll (net : Net A) (cfg : Config) : List String → Outcome Config
  | [] => .ok cfg
  | s :: l =>
    match cfg.addDestination net s with
    | .ok cfg => addAll net cfg l
    | .err => .err
    | .panic => .panic

/-- `check_destinations`, `dtnconfig.rs:357-383`. -/
def Config.checkDestinations (cfg : Config) : Outcome Config :=
  if cfg.dests.isEmpty then
    match cfg.v4, cfg.v6 with
    | true, true =>
      .ok { cfg with dests := AList.insert (AList.insert cfg.dests "224.0.0.26:3003" 0) "[FF02::1]:3003" 0 }
    | true, false => .ok { cfg with dests := AList.insert cfg.dests "224.0.0.26:3003" 0 }
    | false, true => .ok { cfg with dests := AList.insert cfg.dests "[FF02::1]:3003" 0 }
    | false, false => .err
  else .ok cfg

/-- `update_beacon_sequence_number`, `dtnconfig.rs:386-394`. -/
def updateBsn (dests : AList String Nat) (destination : String) : AList String Nat :=
  match AList.get? dests destination with
  | some n => AList.insert dests destination (if n = 4294967295 then 0 else n + 1)
  | none => dests

/-- Which of the two announcing tasks: the one with the IPv4 socket or the one with the IPv6 socket,
`ipnd/neighbour_discovery.rs:184,226`. -/
inductive Fam where
  | v4
  | v6
deriving DecidableEq, Repr

/-- State of an announcing task: the beacon of the current round and the destinations (a `HashMap`) still to be served;
`alive` is false after a panic. -/
structure Ann (A : Type) where
  pkt : Beacon
  pending : AList A Nat := []
  alive : Bool := true

/-- One call of `send_to`. -/
structure Sent (A : Type) where
  fam : Fam
  dest : A
  pkt : Beacon

/-- Configuration, convergence layers (name and port), services (`DTNCORE.service_list`), announcing tasks and the
datagrams sent. -/
structure St (A : Type) where
  cfg : Config
  clas : List (String × Nat) := []
  services : AList Nat String := []
  a4 : Option (Ann A) := none
  a6 : Option (Ann A) := none
  sent : List (Sent A) := []

/-- The task of a family. -/
def St.ann (s : St A) : Fam → Option (Ann A)
  | .v4 => s.a4
  | .v6 => s.a6

/-- Change the task of a family. -/
def St.setAnn (s : St A) (f : Fam) (n : Ann A) : St A :=
  match f with
  | .v4 => { s with a4 := some n }
  | .v6 => { s with a6 := some n }

/-- `spawn_neighbour_discovery`, `ipnd/neighbour_discovery.rs:138-230`: one announcing task per enabled family.
`service_list` is empty at the start (`core/mod.rs:70`). The sockets are not modelled. -/
def start (cfg : Config) (clas : List (String × Nat)) : St A :=
  { cfg, clas,
    a4 := if cfg.v4 then some { pkt := .new cfg.host } else none
    a6 := if cfg.v6 then some { pkt := .new cfg.host } else none }

/-- The beacon of a round, `ipnd/neighbour_discovery.rs:80-96`; `none` is the panic of `add_custom_service`. -/
def build (parseF32 : List Char → Option F32) (s : St A) : Option Beacon :=
  let period := if !s.cfg.enablePeriod then none else some s.cfg.interval
  let pkt := Beacon.withConfig s.cfg.host {} period
  let pkt := s.clas.foldl (fun b c => b.addCla c.1 (some c.2)) pkt
  s.services.foldlM (fun b kv => b.addService parseF32 kv.1 kv.2) pkt

/-- The destinations of a round, `ipnd/neighbour_discovery.rs:101-108`; `none` is the panic of `unwrap`. -/
def snapshot (net : Net A) (dests : AList String Nat) : Option (AList A Nat) :=
  dests.foldlM (fun acc kv => (net.parse kv.1).map fun a => AList.insert acc a kv.2) []

/-- What can happen: a task begins a round; a task serves a destination of its round (in any order, it is a `HashMap`);
the convergence layers change; `service_add` (`lib.rs:93-95`). -/
inductive Ev (A : Type) where
  | round (f : Fam)
  | serve (f : Fam) (a : A)
  | clas (l : List (String × Nat))
  | service (tag : Nat) (payload : String)

/-- One event. `round` is `ipnd/neighbour_discovery.rs:77-108`, `serve` one turn of the loop in lines 109-135. -/
def step (net : Net A) (parseF32 : List Char → Option F32) (s : St A) : Ev A → St A
  | .round f =>
    match s.ann f with
    | none => s
    | some n =>
      if !n.alive || !n.pending.isEmpty then s
      else
        match build parseF32 s, snapshot net s.cfg.dests with
        | some pkt, some pending => s.setAnn f { n with pkt, pending }
        | _, _ => s.setAnn f { n with alive := false }
  | .serve f a =>
    match s.ann f with
    | none => s
    | some n =>
      match AList.get? n.pending a with
      | none => s
      | some bsn =>
        let s := { s with cfg := { s.cfg with dests := updateBsn s.cfg.dests (net.print a) } }
        let pkt := n.pkt.setBsn bsn
        let s := s.setAnn f { n with pkt, pending := AList.erase n.pending a }
        { s with sent := s.sent ++ [⟨f, a, pkt⟩] }
  | .clas l => { s with clas := l }
  | .service tag payload => { s with services := AList.insert s.services tag payload }

/-- All events of a history. -/
def run (net : Net A) (parseF32 : List Char → Option F32) (s : St A) (evs : List (Ev A)) : St A :=
  evs.foldl (step net parseF32) s

end Dtn.Announcer
