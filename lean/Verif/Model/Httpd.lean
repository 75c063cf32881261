import Verif.Model.Agents
import Verif.Model.Digest
import Verif.Model.Peer
/-! Model of the HTTP interface, `dtnd/httpd.rs`. -/

namespace Dtn.Httpd

/-- `std::net::IpAddr`. An IPv6 address is its eight 16 bit segments. -/
inductive IpAddr where
  | v4 (a b c d : UInt8)
  | v6 (a b c d e f g h : UInt16)
deriving DecidableEq, Repr

/-- `Ipv4Addr::is_loopback`: 127.0.0.0/8 (standard library, used in `dtnd/httpd.rs:78,83`). -/
def v4Loopback (a : UInt8) : Bool := a = 127

/-- `IpAddr::is_loopback` (standard library, used in `dtnd/httpd.rs:78`). -/
def IpAddr.isLoopback : IpAddr → Bool
  | .v4 a _ _ _ => v4Loopback a
  | .v6 a b c d e f g h => a = 0 && b = 0 && c = 0 && d = 0 && e = 0 && f = 0 && g = 0 && h = 1

/-- First octet of `Ipv6Addr::to_ipv4` (standard library, used in `dtnd/httpd.rs:82`): defined for `::a.b.c.d` and
`::ffff:a.b.c.d`. Only the first octet matters here. -/
def IpAddr.toIpv4Octet : IpAddr → Option UInt8
  | .v4 .. => none
  | .v6 a b c d e f g _ =>
    if a = 0 && b = 0 && c = 0 && d = 0 && e = 0 && (f = 0 || f = 0xffff) then some (g >>> 8).toUInt8 else none

/-- The configuration read by the handlers: `unsafe_httpd`, `routing`, `ecla_enable` and `host_eid`. -/
structure Cfg where
  unsafe_ : Bool := false
  routing : String := "epidemic"
  eclaEnable : Bool := false
  hostEid : EID
deriving DecidableEq, Repr

/-- `RequireLocalhost::from_request`, `dtnd/httpd.rs:73-91`; the address is always known because the server is started with
`into_make_service_with_connect_info` (line 819). -/
def requireLocalhost (cfg : Cfg) (addr : IpAddr) : Bool :=
  if cfg.unsafe_ then true
  else if addr.isLoopback then true
  else match addr.toIpv4Octet with
    | some a => v4Loopback a
    | none => false

/-- HTTP methods with a handler somewhere. -/
inductive Method where
  | get | post | delete | other
deriving DecidableEq, Repr

/-- The handler functions of `dtnd/httpd.rs`; the pages and listings that only read state are collected in `page`. -/
inductive Handler where
  | peersAdd | peersDel | routingCmd | routingGetData | send | delete | register | unregister | endpoint | endpointHex
  | insertGet | insertPost | cts | ws | rndBundle | rndPeer | wsErouting | wsEcla | download | downloadHex | push | page
deriving DecidableEq, Repr

/-- An entry of the router: path, handlers by method, and whether `RequireLocalhost` is in front of it. -/
structure Entry where
  path : String
  handlers : List (Method × Handler)
  guarded : Bool := false
deriving DecidableEq, Repr

/-- `axum::Router`. -/
abbrev Router := List Entry

/-- `Router::route` (external). -/
def Router.route (path : String) (hs : List (Method × Handler)) (r : Router) : Router := r ++ [{ path, handlers := hs }]

/-- `Router::layer(from_extractor::<RequireLocalhost>())` (external): a layer wraps the routes added before it only. -/
def Router.guardAll (r : Router) : Router := r.map fun e => { e with guarded := true }

/-- The routes before the layer, `dtnd/httpd.rs:745-764`. -/
def localRoutes : Router :=
  ([] : Router)
    |> Router.route "/peers/add" [(.get, .peersAdd)]
    |> Router.route "/peers/del" [(.get, .peersDel)]
    |> Router.route "/routing/cmd" [(.get, .routingCmd), (.post, .routingCmd)]
    |> Router.route "/routing/getdata" [(.get, .routingGetData)]
    |> Router.route "/send" [(.post, .send)]
    |> Router.route "/delete" [(.get, .delete), (.delete, .delete)]
    |> Router.route "/register" [(.get, .register)]
    |> Router.route "/unregister" [(.get, .unregister)]
    |> Router.route "/endpoint" [(.get, .endpoint)]
    |> Router.route "/insert" [(.get, .insertGet), (.post, .insertPost)]
    |> Router.route "/endpoint.hex" [(.get, .endpointHex)]
    |> Router.route "/cts" [(.get, .cts)]
    |> Router.route "/ws" [(.get, .ws)]
    |> Router.route "/debug/rnd_bundle" [(.get, .rndBundle)]
    |> Router.route "/debug/rnd_peer" [(.get, .rndPeer)]

/-- The routes after the layer that are always there, `dtnd/httpd.rs:786-806`. -/
def openRoutes (r : Router) : Router :=
  r |> Router.route "/" [(.get, .page)]
    |> Router.route "/peers" [(.get, .page)]
    |> Router.route "/bundles" [(.get, .page)]
    |> Router.route "/download.hex" [(.get, .downloadHex)]
    |> Router.route "/download" [(.get, .download)]
    |> Router.route "/push" [(.post, .push)]
    |> Router.route "/status/nodeid" [(.get, .page)]
    |> Router.route "/status/eids" [(.get, .page)]
    |> Router.route "/status/bundles" [(.get, .page)]
    |> Router.route "/status/bundles/filtered" [(.get, .page)]
    |> Router.route "/status/bundles/filtered/digest" [(.get, .page)]
    |> Router.route "/status/bundles/verbose" [(.get, .page)]
    |> Router.route "/status/bundles/digest" [(.get, .page)]
    |> Router.route "/status/store" [(.get, .page)]
    |> Router.route "/status/peers" [(.get, .page)]
    |> Router.route "/status/info" [(.get, .page)]

/-- The router built by `spawn_httpd`, `dtnd/httpd.rs:738-806`. The CORS layer only adds headers. -/
def router (cfg : Cfg) : Router :=
  let r := Router.guardAll localRoutes
  let r := if cfg.routing = "external" then Router.route "/ws/erouting" [(.get, .wsErouting)] r else r
  let r := if cfg.eclaEnable then Router.route "/ws/ecla" [(.get, .wsEcla)] r else r
  openRoutes r

/-- Functions of other crates and modules used by the handlers: `EndpointID::try_from`, `EndpointID::new_endpoint`,
`Bundle::try_from`, `Bundle::to_cbor`, `hexify`, `unhexify`, `parse_peer_url`, `humantime::parse_duration` and the bundle
`send_post` builds (source, destination, lifetime in milliseconds, payload); `rndBundle` and `rndPeer` are the random objects
of the debug routes. -/
structure Ext where
  parseEid : String → Option EID
  newEndpoint : EID → String → Option EID
  parseBundle : Bytes → Option Bundle
  toCbor : Bundle → Bytes
  hexify : Bytes → String
  unhexify : String → Option Bytes
  parsePeer : String → Option Peer
  parseDuration : String → Option Nat
  buildBundle : EID → EID → Nat → Bytes → Bundle
  rndBundle : Bundle
  rndPeer : Peer

/-- A request, with the outcomes of outside events it meets: `raw` is `RawQuery`, `params` the same query as key-value
pairs, `upgrade` tells whether it asks for a web socket, `routerUp` whether the routing agent takes commands, `data` its
answer to `GetData`. -/
structure Req where
  addr : IpAddr
  method : Method
  path : String
  raw : Option String := none
  params : AList String String := []
  body : Bytes := []
  upgrade : Bool := false
  routerUp : Bool := true
  data : Option String := none
deriving DecidableEq, Repr

/-- The state of the node as far as requests change it. `submitted` are calls of `send_bundle`, `received` calls of
`receive`, `cmds` the commands given to the routing agent, and the last three count web sockets opened so far. -/
structure World where
  apps : Apps
  peers : Peers := []
  submitted : List Bundle := []
  received : List Bundle := []
  cmds : List String := []
  broken : Nat := 0
  clients : Nat := 0
  routers : Nat := 0
  modules : Nat := 0
deriving DecidableEq, Repr

/-- What the client sees. `dropped` is a connection closed without answer because the handler panicked. -/
inductive Reply where
  | ok (body : String)
  | data (bytes : Bytes)
  | upgraded
  | error (code : Nat)
  | dropped
deriving DecidableEq, Repr

/-- `is_valid_service_name`, `core/helpers.rs:171-176`. -/
def isValidServiceName (s : String) : Bool :=
  s.toList.all fun c => c.isAlphanum || c = '/' || c = '-' || c = '_' || c = '.' || c = '~'

/-- How `register`, `unregister`, `endpoint` and `endpoint_hex` read their argument, e.g. `dtnd/httpd.rs:556-572`. The outer
`none` is the panic of `expect`, the inner one the malformed case. -/
def target (x : Ext) (cfg : Cfg) (path : String) : Option (Option EID) :=
  if isValidServiceName path then (x.newEndpoint cfg.hostEid path).map some
  else match x.parseEid path with
    | some eid => some (some eid)
    | none => some none

/-- `PeerType::try_from`, `core/peer.rs:16-25`. Simplification: lower case of ASCII letters. -/
def peerType (s : String) : Option PeerType :=
  let l := s.toList.map Char.toLower
  if l = "static".toList then some .static
  else if l = "dynamic".toList then some .dynamic
  else none

/-- `http_peers_add`, `dtnd/httpd.rs:371-394`. -/
def peersAdd (x : Ext) (w : World) (r : Req) : World × Reply :=
  match AList.get? r.params "p" with
  | none => (w, .error 400)
  | some p =>
    match peerType ((AList.get? r.params "p_t").getD "DYNAMIC") with
    | none => (w, .dropped)
    | some t =>
      match x.parsePeer p with
      | none => (w, .error 400)
      | some peer =>
        match w.peers.add { peer with conType := t } with
        | none => (w, .dropped)
        | some (ps, new) =>
          ({ w with peers := ps }, .ok (if new then "Added new peer" else "Updated existing peer"))

/-- `http_peers_delete`, `dtnd/httpd.rs:395-414`. -/
def peersDel (x : Ext) (w : World) (r : Req) : World × Reply :=
  match AList.get? r.params "p" with
  | none => (w, .error 400)
  | some p =>
    match x.parsePeer p with
    | none => (w, .error 400)
    | some peer =>
      match peer.eid.node with
      | none => (w, .dropped)
      | some n => ({ w with peers := w.peers.remove n }, .ok "Removed peer")

/-- `http_routing_cmd`, `dtnd/httpd.rs:335-354`. -/
def routingCmd (w : World) (r : Req) : World × Reply :=
  match AList.get? r.params "c" with
  | none => (w, .error 400)
  | some c =>
    if r.routerUp then ({ w with cmds := w.cmds ++ [c] }, .ok "Sent command to routing agent.") else (w, .error 500)

/-- `http_routing_getdata`, `dtnd/httpd.rs:356-369`. -/
def routingGetData (w : World) (r : Req) : World × Reply :=
  match r.data with
  | some d => (w, .ok d)
  | none => (w, .error 500)

/-- `insert_get`, `dtnd/httpd.rs:417-447`. Simplification: `char::is_alphanumeric` on ASCII. -/
def insertGet (x : Ext) (w : World) (r : Req) : World × Reply :=
  match r.raw with
  | none => (w, .error 400)
  | some q =>
    if q.toList.all Char.isAlphanum then
      match x.unhexify q with
      | none => (w, .error 400)
      | some bytes =>
        match x.parseBundle bytes with
        | none => (w, .error 400)
        | some b => ({ w with submitted := w.submitted ++ [b] }, .ok ("Sent " ++ toString bytes.length ++ " bytes"))
    else (w, .error 400)

/-- `insert_post`, `dtnd/httpd.rs:450-466`. -/
def insertPost (x : Ext) (w : World) (r : Req) : World × Reply :=
  match x.parseBundle r.body with
  | none => (w, .error 400)
  | some b => ({ w with submitted := w.submitted ++ [b] }, .ok ("Sent " ++ toString r.body.length ++ " bytes"))

/-- The lifetime in `send_post`, `dtnd/httpd.rs:475,479-483`: one hour unless a readable one is given. -/
def lifetime (x : Ext) (r : Req) : Nat :=
  match AList.get? r.params "lifetime" with
  | none => 3600000
  | some v => (x.parseDuration v).getD 3600000

/-- `send_post`, `dtnd/httpd.rs:469-519`. -/
def sendPost (x : Ext) (cfg : Cfg) (w : World) (r : Req) : World × Reply :=
  match AList.get? r.params "dst" with
  | none => (w, .error 400)
  | some v =>
    match x.parseEid v with
    | none => (w, .dropped)
    | some dst =>
      if dst = .none then (w, .error 400)
      else
        ({ w with submitted := w.submitted ++ [x.buildBundle cfg.hostEid dst (lifetime x r) r.body] },
         .ok ("Sent payload with " ++ toString r.body.length ++ " bytes"))

/-- `push_post`, `dtnd/httpd.rs:522-547`. The bundle is processed before the answer is sent; what processing does is the
subject of `Model/Processing.lean`. -/
def pushPost (x : Ext) (w : World) (r : Req) : World × Reply :=
  match x.parseBundle r.body with
  | none => ({ w with broken := w.broken + 1 }, .error 400)
  | some b => ({ w with received := w.received ++ [b] }, .ok ("Received " ++ toString r.body.length ++ " bytes"))

/-- `register`, `dtnd/httpd.rs:550-579`. -/
def register (x : Ext) (cfg : Cfg) (w : World) (r : Req) : World × Reply :=
  match r.raw with
  | none => (w, .error 400)
  | some path =>
    match target x cfg path with
    | none => (w, .dropped)
    | some none => (w, .error 400)
    | some (some eid) => ({ w with apps := w.apps.step (.register eid) }, .ok ("Registered " ++ eid.print))

/-- `unregister`, `dtnd/httpd.rs:582-611`. -/
def unregister (x : Ext) (cfg : Cfg) (w : World) (r : Req) : World × Reply :=
  match r.raw with
  | none => (w, .error 400)
  | some path =>
    match target x cfg path with
    | none => (w, .dropped)
    | some none => (w, .error 400)
    | some (some eid) => ({ w with apps := w.apps.step (.unregister eid) }, .ok ("Unregistered " ++ eid.print))

/-- `endpoint`, `dtnd/httpd.rs:614-654`, and with `show_ := hexify` `endpoint_hex`, lines 657-694. -/
def endpoint (x : Ext) (show_ : Bytes → Reply) (cfg : Cfg) (w : World) (r : Req) : World × Reply :=
  match r.raw with
  | none => (w, .error 400)
  | some path =>
    match target x cfg path with
    | none => (w, .dropped)
    | some none => (w, .error 400)
    | some (some eid) =>
      match Registry.find w.apps.agents eid with
      | none => (w, .error 404)
      | some a =>
        ({ w with apps := w.apps.step (.pop eid) },
         match a.pop.2 with
         | some b => show_ (x.toCbor b)
         | none => .ok "Nothing to receive")

/-- `delete`, `dtnd/httpd.rs:697-711`, with `store_remove`, `lib.rs:184-191`. -/
def delete (w : World) (r : Req) : World × Reply :=
  match r.raw with
  | none => (w, .error 400)
  | some bid =>
    let res := w.apps.store.remove bid
    ({ w with apps := { w.apps with store := res.1 } }, if res.2 then .ok ("Deleted " ++ bid) else .error 404)

/-- `download`, `dtnd/httpd.rs:714-727`. -/
def download (x : Ext) (w : World) (r : Req) : World × Reply :=
  match r.raw with
  | none => (w, .error 400)
  | some bid =>
    match w.apps.store.getBundle bid with
    | some b => (w, .data (x.toCbor b))
    | none => (w, .error 404)

/-- `download_hex`, `dtnd/httpd.rs:729-741`. -/
def downloadHex (x : Ext) (w : World) (r : Req) : World × Reply :=
  match r.raw with
  | none => (w, .error 400)
  | some bid =>
    match w.apps.store.getBundle bid with
    | some b => (w, .ok (x.hexify (x.toCbor b)))
    | none => (w, .error 400)

/-- `debug_rnd_bundle`, `dtnd/httpd.rs:319-325`. -/
def rndBundle (x : Ext) (w : World) : World × Reply := ({ w with submitted := w.submitted ++ [x.rndBundle] }, .ok x.rndBundle.id)

/-- `debug_rnd_peer`, `dtnd/httpd.rs:328-333`. -/
def rndPeer (x : Ext) (w : World) : World × Reply :=
  ({ w with peers := AList.insert w.peers (x.rndPeer.eid.node.getD "") x.rndPeer }, .ok "peer")

/-- The routes that open a web socket, `dtnd/httpd.rs:758-762,767-773,776-782`: other requests are turned down by the
`WebSocketUpgrade` extractor. -/
def upgrade (w w' : World) (r : Req) : World × Reply := if r.upgrade then (w', .upgraded) else (w, .error 400)

/-- A handler called with a request. Simplification: pages and listings answer with some text. -/
def handle (x : Ext) (cfg : Cfg) (w : World) (r : Req) : Handler → World × Reply
  | .peersAdd => peersAdd x w r
  | .peersDel => peersDel x w r
  | .routingCmd => routingCmd w r
  | .routingGetData => routingGetData w r
  | .send => sendPost x cfg w r
  | .delete => delete w r
  | .register => register x cfg w r
  | .unregister => unregister x cfg w r
  | .endpoint => endpoint x .data cfg w r
  | .endpointHex => endpoint x (fun b => .ok (x.hexify b)) cfg w r
  | .insertGet => insertGet x w r
  | .insertPost => insertPost x w r
  | .cts => (w, .ok "cts")
  | .ws => upgrade w { w with clients := w.clients + 1 } r
  | .rndBundle => rndBundle x w
  | .rndPeer => rndPeer x w
  | .wsErouting => upgrade w { w with routers := w.routers + 1 } r
  | .wsEcla => upgrade w { w with modules := w.modules + 1 } r
  | .download => download x w r
  | .downloadHex => downloadHex x w r
  | .push => pushPost x w r
  | .page => (w, .ok "page")

/-- A request served by the router: find the path, pass the guard, find the method. -/
def serve (x : Ext) (cfg : Cfg) (w : World) (r : Req) : World × Reply :=
  match (router cfg).find? fun e => e.path = r.path with
  | none => (w, .error 404)
  | some e =>
    if e.guarded && !requireLocalhost cfg r.addr then (w, .error 403)
    else match e.handlers.lookup r.method with
      | none => (w, .error 405)
      | some h => handle x cfg w r h

/-- A history of requests. -/
def run (x : Ext) (cfg : Cfg) (w : World) (rs : List Req) : World := rs.foldl (fun w r => (serve x cfg w r).1) w

end Dtn.Httpd
