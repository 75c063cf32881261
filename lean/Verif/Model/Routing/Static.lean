import Verif.Model.Routing.Agent
import Verif.Model.White
/-! Model of `routing/static_routing.rs`. -/

namespace Dtn

/-- `Display for EndpointID` (bp7; used in `routing/static_routing.rs:131-139`). -/
def EID.print : EID → String
  | .none => "dtn:none"
  | .dtn n s => "dtn://" ++ n ++ "/" ++ s
  | .ipn n s => "ipn:" ++ toString n ++ "." ++ toString s

end Dtn

namespace Dtn.Routing

/-- `StaticRouteEntry`, `routing/static_routing.rs:13-22`. -/
structure Route where
  idx : Nat
  src : String
  dst : String
  via : String
deriving DecidableEq, Repr

namespace StaticRouting

/-- Characters `trim` and `split_whitespace` treat as blanks, `routing/static_routing.rs:74,78`. -/
def isBlank (c : Char) : Bool := isWhite c

/-- `str::split_whitespace`; `cur` is the word being read, reversed. -/
def words (cur : List Char) : List Char → List (List Char)
  | [] => if cur = [] then [] else [cur.reverse]
  | c :: s =>
    if isBlank c then (if cur = [] then words [] s else cur.reverse :: words [] s)
    else words (c :: cur) s

/-- Digits of `parse::<u16>`, most significant first; `acc` is the value so far. -/
def digits : Nat → List Char → Option Nat
  | acc, [] => some acc
  | acc, c :: s => if '0' ≤ c ∧ c ≤ '9' then digits (acc * 10 + (c.toNat - 48)) s else none

/-- The optional plus sign `parse::<u16>` accepts. -/
def stripPlus (s : List Char) : List Char := if s.head? = some '+' then s.tail else s

/-- `str::parse::<u16>()`: decimal digits with an optional plus sign, at most 65535. -/
def parseU16 (s : List Char) : Option Nat :=
  if stripPlus s = [] then none
  else match digits 0 (stripPlus s) with
    | some n => if n < 65536 then some n else none
    | none => none

/-- `parse_route_from_str`, `routing/static_routing.rs:73-89`. The outer `none` is a panic. -/
def parseRoute (line : List Char) : Option (Option Route) :=
  match words [] line with
  | [] => some none
  | w :: rest =>
    if w.head? = some '#' then some none
    else match parseU16 w, rest with
      | some idx, src :: dst :: via :: _ =>
        some (some { idx, src := String.ofList src, dst := String.ofList dst, via := String.ofList via })
      | _, _ => none

/-- The loop over the lines of the routes file, `routing/static_routing.rs:112-117` and `166-172`. -/
def load : List (List Char) → Option (List Route)
  | [] => some []
  | line :: rest =>
    match parseRoute line with
    | none => none
    | some none => load rest
    | some (some r) =>
      match load rest with
      | some rs => some (r :: rs)
      | none => none

/-- The first peer with this endpoint and a usable layer, `routing/static_routing.rs:138-146`. -/
def viaPeer (via : String) (running : List Cla) : List Peer → Option Sender
  | [] => none
  | p :: ps =>
    if p.eid.print = via then
      match p.firstCla running with
      | some cla => some cla
      | none => viaPeer via running ps
    else viaPeer via running ps

/-- The answer to a request, `routing/static_routing.rs:127-154`. -/
def answer (glob : String → String → Bool) (peers : List Peer) (running : List Cla) (bp : Pack) : List Route → Answer
  | [] => { clas := [], delete := false }
  | r :: rs =>
    if glob r.src bp.source.print && glob r.dst bp.destination.print then
      match viaPeer r.via running peers with
      | some cla => { clas := [cla], delete := !bp.destination.isNonSingleton }
      | none => answer glob peers running bp rs
    else answer glob peers running bp rs

/-- What the agent is asked to do, with the relevant part of the environment: the peers and layers, and the lines of the
routes file (`none`: no routes file is configured). A file that cannot be read panics like a malformed one. -/
inductive Op where
  | request (peers : List Peer) (running : List Cla) (bp : Pack)
  | command (cmd : String) (file : Option (List (List Char)))
  | notify (n : Notification)
  | shutdown
deriving DecidableEq, Repr

/-- The agent's task: the routes (`none` once the task has ended) and the answers given. -/
structure State where
  routes : Option (List Route)
  log : List (Pack × Option Answer) := []
deriving DecidableEq, Repr

/-- Start of the task, `routing/static_routing.rs:104-123`. -/
def start (file : Option (List (List Char))) : State :=
  match file with
  | none => { routes := some [] }
  | some lines => { routes := load lines }

/-- One round of the command loop, `routing/static_routing.rs:125-191`. -/
def step (glob : String → String → Bool) (s : State) (op : Op) : State :=
  match s.routes, op with
  | none, .request _ _ bp => { s with log := s.log ++ [(bp, none)] }
  | none, _ => s
  | some rs, .request peers running bp => { s with log := s.log ++ [(bp, some (answer glob peers running bp rs))] }
  | some _, .command cmd file =>
    if cmd = "reload" then
      match file with
      | some lines => { s with routes := load lines }
      | none => s
    else s
  | some _, .notify _ => s
  | some _, .shutdown => { s with routes := none }

/-- A history. -/
def run (glob : String → String → Bool) (s : State) (ops : List Op) : State := ops.foldl (step glob) s

end StaticRouting
end Dtn.Routing
