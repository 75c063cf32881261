import Verif.Model.Routing.External
/-! Model of the external routing program `examples/dtnerouting.rs` and of what a node tells it about its neighbours. -/

namespace Dtn.Erouter
open Routing External

/-- The strategies, `examples/dtnerouting.rs:301`. -/
inductive Strategy where
  | flooding
  | epidemic
deriving DecidableEq, Repr

/-- The packets that the program gets, `routing/erouting/mod.rs:20-51`, with the contents it reads. `other` stands for
those that it ignores or only prints: errors, the states of services, and responses. -/
inductive News where
  | peerState (peers : Peers)
  | encountered (eid : EID) (peer : Peer)
  | dropped (eid : EID)
  | failed (bid node : String)
  | succeeded (bid node : String)
  | timeout (bp : Pack)
  | incoming (b : Bundle)
  | incomingWithout (bid node : String)
  | request (clas : List String) (bp : Pack)
  | other
deriving DecidableEq, Repr

/-- `ResponseSenderForBundle`, `routing/erouting/mod.rs:105-110`, as the program fills it. -/
structure Reply where
  bp : Pack
  clas : List Hop
  delete : Bool
deriving DecidableEq, Repr

/-- What `sender_for_bundle` works on, `examples/dtnerouting.rs:74-76`: the history (the functions on it at lines 29-61 are
those of `routing/epidemic.rs` in `Model/Routing/Epidemic.lean`), `selected_clas` and `delete_afterwards`. -/
structure Choice where
  core : Epidemic
  clas : List Hop := []
  delete : Bool := false
deriving DecidableEq, Repr

/-- The `Sender` for a layer of a peer, `examples/dtnerouting.rs:92-97`, 106-111 and 127-132. -/
def hop (p : Peer) (c : String × Option Nat) : Hop := { remote := p.addr, port := c.2, agent := c.1, nextHop := p.eid }

/-- The loop over the layers of one peer, `examples/dtnerouting.rs:79-114`. The `break` of line 98 ends this loop only.
`none` is the panic of `bp.destination.node().unwrap()` in line 82. -/
def visit (clas : List String) (bp : Pack) (p : Peer) : List (String × Option Nat) → Choice → Option Choice
  | [], s => some s
  | c :: cs, s =>
    if decide (c.1 ∈ clas) && !s.core.contains bp.id p.nodeName then
      let core := s.core.add bp.id p.nodeName
      match bp.destination.node with
      | none => none
      | some d =>
        if d = p.nodeName then some { core, clas := [hop p c], delete := true }
        else visit clas bp p cs { core, clas := s.clas ++ [hop p c], delete := s.delete }
    else visit clas bp p cs s

/-- The loop over the peers, `examples/dtnerouting.rs:78-115`. Simplification: the order is that of the list, not that of the
keys. -/
def visitAll (clas : List String) (bp : Pack) : List Peer → Choice → Option Choice
  | [], s => some s
  | p :: ps, s =>
    match visit clas bp p p.claList s with
    | none => none
    | some s => visitAll clas bp ps s

/-- `flooding_strategy`, `examples/dtnerouting.rs:122-138`. -/
def flood (clas : List String) (ps : List Peer) : List Hop :=
  ps.flatMap fun p => (p.claList.filter fun c => decide (c.1 ∈ clas)).map (hop p)

/-- The state of the program: `PEERS` (line 13) and `epidemic_router` (line 170). -/
structure Router where
  strategy : Strategy
  peers : Peers := []
  core : Epidemic := {}
deriving DecidableEq, Repr

/-- Does the strategy keep a history? The tests `strategy == "epidemic"`. -/
def Router.keeps (r : Router) (f : Epidemic → Epidemic) : Router :=
  if r.strategy = .epidemic then { r with core := f r.core } else r

/-- `sending_timeout`, `examples/dtnerouting.rs:63-72`. -/
def sendingTimeout (c : Epidemic) (bid : String) : Epidemic :=
  match AList.get? c.history bid with
  | some _ => { history := AList.insert c.history bid [] }
  | none => c

/-- The answer to a request, `examples/dtnerouting.rs:230-236`. -/
def Router.choose (r : Router) (clas : List String) (bp : Pack) : Option (Router × Reply) :=
  match r.strategy with
  | .flooding => some (r, { bp, clas := flood clas (AList.values r.peers), delete := false })
  | .epidemic =>
    match visitAll clas bp (AList.values r.peers) { core := r.core } with
    | none => none
    | some s => some ({ r with core := s.core }, { bp, clas := s.clas, delete := s.delete })

/-- One round of the loop, `examples/dtnerouting.rs:175-259`. `none`: a panic, which ends the program (lines 262-266).
Simplification: what the program answers reaches the node. -/
def Router.step (r : Router) : News → Option (Router × Option Reply)
  | .peerState ps => some ({ r with peers := ps }, none)
  | .encountered eid p =>
    match eid.node with
    | none => none
    | some n => some ({ r with peers := AList.insert r.peers n p }, none)
  | .dropped eid =>
    match eid.node with
    | none => none
    | some n => some ({ r with peers := AList.erase r.peers n }, none)
  | .failed bid node => some (r.keeps (·.sendingFailed bid node), none)
  | .timeout bp => some (r.keeps (sendingTimeout · bp.id), none)
  | .incoming b =>
    match (previousNode b).bind EID.node with
    | some n => some (r.keeps (·.incomingBundle b.id n), none)
    | none => some (r, none)
  | .incomingWithout bid node => some (r.keeps (·.incomingBundle bid node), none)
  | .request clas bp => (r.choose clas bp).map fun x => (x.1, some x.2)
  | .succeeded _ _ => some (r, none)
  | .other => some (r, none)

/-- The program after some packets; `none` once it has ended. -/
def after (r : Option Router) (news : List News) : Option Router := news.foldl (fun r x => r.bind fun r => (r.step x).map Prod.fst) r

/-- What the program answers to each packet. -/
def replies (r : Option Router) : List News → List (News × Option Reply)
  | [] => []
  | x :: xs => (x, (r.bind fun r => r.step x).bind Prod.snd) :: replies (r.bind fun r => (r.step x).map Prod.fst) xs

/-! The neighbours that the node tells the program about. -/

/-- What happens to the peer table of the node: a beacon by discovery or from an external convergence layer
(`ipnd/neighbour_discovery.rs:42-68`, `cla/ecla/processing.rs:212-227`), the periodic check (`core/mod.rs:120-141`), a failed
transfer (`core/processing.rs:370-399`), a session of the TCP layer (`cla/tcp/mod.rs:561-575`), and the two requests at the web
interface (`dtnd/httpd.rs:371-420`). -/
inductive Change where
  | beacon (p : Peer)
  | check (cfg : PeerCfg) (now : Nat)
  | fail (node : String)
  | session (p : Peer)
  | httpAdd (p : Peer)
  | httpDel (node : String)
deriving DecidableEq, Repr

/-- The new table and the packets for the program: `From<RoutingNotifcation>`, `routing/erouting/mod.rs:70-79`, for the
notifications sent at the places named above. Simplifications: the notification is turned into a packet at once; a peer
without node name changes nothing (the code panics). -/
def tell (ps : Peers) : Change → Peers × List News
  | .beacon p =>
    match ps.add p with
    | none => (ps, [])
    | some (ps, _) => (ps, ((ps.getForNode p.eid).map fun q => News.encountered p.eid q).toList)
  | .check cfg now => ((ps.process cfg now).1, (ps.process cfg now).2.map .dropped)
  | .fail node => (ps.reportFail node, [])
  | .session p => (if ps.known p.nodeName then ps else ps.step (.add p), [])
  | .httpAdd p => (ps.step (.add p), [])
  | .httpDel node => (ps.remove node, [])

/-- The table and all packets about peers, for a program that has connected when the table was `ps`
(`routing/erouting/processing.rs:71-75`). -/
def tellAll (ps : Peers) (changes : List Change) : Peers × List News :=
  changes.foldl (fun x c => ((tell x.1 c).1, x.2 ++ (tell x.1 c).2)) (ps, [.peerState ps])

end Dtn.Erouter
