import Verif.Model.Agents
import Verif.Model.Routing.Static
/-! Model of the web socket interface of application agents, `dtnd/ws.rs`. -/

namespace Dtn.Ws

/-- `DataReceiveFormat`, `dtnd/ws.rs:37-41`. -/
inductive Format where
  | cbor
  | json
deriving DecidableEq, Repr

/-- `WsReceiveMode`, `dtnd/ws.rs:31-35`. -/
inductive Mode where
  | bundle
  | data (f : Format)
deriving DecidableEq, Repr

/-- Messages sent to the client (`axum::extract::ws::Message`). -/
inductive Msg where
  | text (s : String)
  | binary (b : Bytes)
  | ping (b : Bytes)
deriving DecidableEq, Repr

/-- `WsAASession`, `dtnd/ws.rs:43-54`, with the other end of its delivery channel (`rx_bd`, line 57) and the messages
given to the send task. `endpoints` is the optional set of line 50; `alive` turns false when `handle_socket` leaves its
`select!` (lines 129-134). `handled` is only for reasoning: the bundles taken from the channel, with the mode in force. -/
structure Session where
  endpoints : Option (List EID) := none
  mode : Mode := .data .json
  chan : List Bundle := []
  out : List Msg := []
  alive : Bool := true
  handled : List (Mode × Bundle) := []
deriving DecidableEq, Repr

/-- `WsSendData` of the `dtn7-plus` crate, as used in `dtnd/ws.rs:354-391`. -/
structure SendData where
  src : String
  dst : String
  lifetime : Nat
  notify : Bool
  data : Bytes
deriving DecidableEq, Repr

/-- Functions of other crates: `EndpointID::try_from`, `new_endpoint`, the bundle codec, the encoding of `WsRecvData` for a
bundle and decoding of `WsSendData` in both formats, and the bundle built in `dtnd/ws.rs:362-399` (source, destination,
lifetime, delivery notification, payload). -/
structure Ext where
  parseEid : String → Option EID
  newEndpoint : EID → String → Option EID
  toCbor : Bundle → Bytes
  parseBundle : Bytes → Option Bundle
  encode : Format → Bundle → Bytes
  decode : Format → Bytes → Option SendData
  hasPayload : Bundle → Bool
  build : EID → EID → Nat → Bool → Bytes → Bundle

/-- The web socket side of a node. Sessions are numbered in the order they are opened. `submitted` are the calls of
`send_bundle`. -/
structure Hub where
  apps : Apps
  sessions : List Session := []
  submitted : List Bundle := []
deriving DecidableEq, Repr

/-- Capacity of the delivery channel, `dtnd/ws.rs:156`. -/
def capacity : Nat := 32

/-- `str::trim`, used in `dtnd/ws.rs:213`. -/
def trim (s : List Char) : List Char :=
  ((s.dropWhile Routing.StaticRouting.isBlank).reverse.dropWhile Routing.StaticRouting.isBlank).reverse

/-- `splitn(2, ' ')`: the text before the first space and, if there is one, the text behind it. -/
def split2 : List Char → List Char × Option (List Char)
  | [] => ([], none)
  | c :: s => if c = ' ' then ([], some s) else ((c :: (split2 s).1), (split2 s).2)

/-- The commands of `handle_message`, `dtnd/ws.rs:212-325`. `ignored` is text that does not start with a slash. -/
inductive Cmd where
  | node
  | bundle
  | data
  | json
  | unsubscribe (arg : Option String)
  | subscribe (arg : Option String)
  | unknown (text : String)
  | ignored
deriving DecidableEq, Repr

/-- Reading a text message, `dtnd/ws.rs:212-216` and the patterns of the match. -/
def parseCmd (msg : String) : Cmd :=
  let m := trim msg.toList
  if m.head? = some '/' then
    let v := split2 m
    if v.1 = "/node".toList then .node
    else if v.1 = "/bundle".toList then .bundle
    else if v.1 = "/data".toList then .data
    else if v.1 = "/json".toList then .json
    else if v.1 = "/unsubscribe".toList then .unsubscribe (v.2.map String.ofList)
    else if v.1 = "/subscribe".toList then .subscribe (v.2.map String.ofList)
    else .unknown (String.ofList m)
  else .ignored

/-- What the client is sent for a bundle in a mode, `dtnd/ws.rs:173-199` and `dtnd/ws.rs:453-478`; nothing in data mode if
there is no payload. -/
def present (x : Ext) (mode : Mode) (b : Bundle) : List Msg :=
  match mode with
  | .bundle => [.binary (x.toCbor b)]
  | .data f => if !x.hasPayload b then [] else [.binary (x.encode f b)]

/-- Change one session. -/
def Hub.upd (h : Hub) (i : Nat) (f : Session → Session) : Hub := { h with sessions := h.sessions.modify i f }

/-- Send a message to the client of a session. -/
def Session.say (s : Session) (m : Msg) : Session := { s with out := s.out ++ [m] }

/-- `HashSet::insert` on the optional set, creating it, `dtnd/ws.rs:261-269,298-303`. -/
def Session.addEndpoint (s : Session) (e : EID) : Session :=
  let l := s.endpoints.getD []
  { s with endpoints := some (if e ∈ l then l else l ++ [e]) }

/-- `HashSet::remove`, `dtnd/ws.rs:241`. -/
def Session.removeEndpoint (s : Session) (e : EID) : Session :=
  { s with endpoints := s.endpoints.map fun l => l.filter fun e' => e' ≠ e }

/-- One turn of the loop of `fetch_new_bundles`, `dtnd/ws.rs:451-481`: one waiting bundle of the endpoint, if any, is taken
out and sent. -/
def fetchOne (x : Ext) (i : Nat) (mode : Mode) (h : Hub) (e : EID) : Hub :=
  match Registry.find h.apps.agents e with
  | none => h
  | some a =>
    let h' := { h with apps := h.apps.step (.pop e) }
    match a.pop.2 with
    | none => h'
    | some b => h'.upd i fun s => { s with out := s.out ++ present x mode b }

/-- `fetch_new_bundles`, `dtnd/ws.rs:446-487`. The set is visited in the order of insertion; the code's order is arbitrary. -/
def fetchNew (x : Ext) (i : Nat) (h : Hub) : Hub :=
  match h.sessions[i]? with
  | none => h
  | some s => (s.endpoints.getD []).foldl (fetchOne x i s.mode) h

/-- Subscribing session `i` to a registered endpoint, `dtnd/ws.rs:259-271` and `dtnd/ws.rs:292-305`. Simplification: the lock
on the endpoints is held from the check to here. -/
def subscribeTo (i : Nat) (e : EID) (h : Hub) : Hub :=
  ({ h with apps := h.apps.step (.subscribe e i) } : Hub).upd i fun s => (s.addEndpoint e).say (.text "200 subscribed")

/-- `/subscribe`, `dtnd/ws.rs:256-319`. -/
def subscribe (x : Ext) (host : EID) (h : Hub) (i : Nat) (arg : Option String) : Hub :=
  match arg with
  | none => h.upd i fun s => s.say (.text "400 endpoint is missing")
  | some a =>
    match x.parseEid a with
    | some e =>
      if Registry.has h.apps.agents e then fetchNew x i (subscribeTo i e h)
      else h.upd i fun s => s.say (.text "404 unknown endpoint")
    | none =>
      match x.newEndpoint host a with
      | some e =>
        if (Registry.find h.apps.agents e).isNone then h.upd i fun s => s.say (.text "404 unknown endpoint")
        else subscribeTo i e h
      | none => h.upd i fun s => s.say (.text "400 invalid endpoint combination")

/-- `/unsubscribe`, `dtnd/ws.rs:237-255`. -/
def unsubscribe (x : Ext) (h : Hub) (i : Nat) (s : Session) (arg : Option String) : Hub :=
  match arg with
  | none => h
  | some a =>
    match x.parseEid a with
    | none => h.upd i fun s => s.say (.text "400 invalid endpoint")
    | some e =>
      if s.endpoints.isSome then
        ({ h with apps := h.apps.step (.unsubscribe e) } : Hub).upd i fun s =>
          (s.removeEndpoint e).say (.text "200 unsubscribed")
      else h.upd i fun s => s.say (.text "404 endpoint not found")

/-- Text messages, `dtnd/ws.rs:212-325`. Simplification: the text of the 501 reply is not quoted. -/
def handleText (x : Ext) (host : EID) (h : Hub) (i : Nat) (s : Session) (msg : String) : Hub :=
  match parseCmd msg with
  | .node => h.upd i fun s => s.say (.text ("200 node: " ++ host.print))
  | .bundle => h.upd i fun s => ({ s with mode := .bundle } : Session).say (.text "200 tx mode: bundle")
  | .data => h.upd i fun s => ({ s with mode := .data .cbor } : Session).say (.text "200 tx mode: data")
  | .json => h.upd i fun s => ({ s with mode := .data .json } : Session).say (.text "200 tx mode: JSON")
  | .unsubscribe arg => unsubscribe x h i s arg
  | .subscribe arg => subscribe x host h i arg
  | .unknown m => h.upd i fun s => s.say (.text ("501 unknown command: " ++ m))
  | .ignored => h

/-- Binary messages, `dtnd/ws.rs:327-425`. Simplification: the 400 reply of line 420 without the error. -/
def handleBinary (x : Ext) (h : Hub) (i : Nat) (s : Session) (bin : Bytes) : Hub :=
  match s.mode with
  | .bundle =>
    match x.parseBundle bin with
    | some b => ({ h with submitted := h.submitted ++ [b] } : Hub).upd i fun s =>
        s.say (.text ("200 Sent payload with " ++ toString bin.length ++ " bytes"))
    | none => h.upd i fun s => s.say (.text "400 Invalid binary bundle")
  | .data f =>
    match x.decode f bin with
    | some d =>
      match x.parseEid d.dst, x.parseEid d.src with
      | some dst, some src =>
        let b := x.build src dst d.lifetime d.notify d.data
        ({ h with submitted := h.submitted ++ [b] } : Hub).upd i fun s =>
          s.say (.text ("200 Sent bundle " ++ b.id ++ " with " ++ toString d.data.length ++ " bytes"))
      | _, _ => h
    | none => h.upd i fun s => s.say (.text "400 Unexpected binary")

/-- The end of a connection, `dtnd/ws.rs:129-143`: every endpoint in the set loses its delivery channel, and what the channel
still holds is dropped with it. -/
def endSession (h : Hub) (i : Nat) (s : Session) : Hub :=
  let h' := (s.endpoints.getD []).foldl (fun h e => { h with apps := h.apps.step (.unsubscribe e) }) h
  h'.upd i fun s => { s with alive := false, chan := [] }

/-- `handle_bundle_delivery`, `dtnd/ws.rs:167-203`, called for the next bundle in the channel (lines 114-127). -/
def pump (x : Ext) (h : Hub) (i : Nat) (s : Session) : Hub :=
  match s.chan with
  | [] => h
  | b :: rest => h.upd i fun s =>
      { s with chan := rest, out := s.out ++ present x s.mode b, handled := s.handled ++ [(s.mode, b)] }

/-- Is there room in the channel of a session (`try_send` in `core/application_agent.rs:44`)? A channel whose receiver is gone
takes nothing. -/
def roomIn (h : Hub) (ch : Nat) : Bool :=
  match h.sessions[ch]? with
  | some s => s.alive && decide (s.chan.length < capacity)
  | none => false

/-- The outcome of `try_send` on the channel of an agent. -/
def roomFor (h : Hub) (a : AppAgent) : Bool :=
  match a.delivery with
  | some ch => roomIn h ch
  | none => false

/-- The core hands a bundle to the agent of an endpoint, `core/application_agent.rs:39-56`. -/
def deliver (h : Hub) (e : EID) (b : Bundle) : Hub :=
  match Registry.find h.apps.agents e with
  | none => h
  | some a =>
    let room := roomFor h a
    let h' := { h with apps := h.apps.step (.deliver e b room) }
    match (a.push b room).2 with
    | some ch => h'.upd ch fun s => { s with chan := s.chan ++ [b] }
    | none => h'

/-- What can happen. -/
inductive Ev where
  /-- a client connects, `handle_socket`, `dtnd/ws.rs:56-61` -/
  | connect
  /-- a text message of the client -/
  | text (i : Nat) (msg : String)
  /-- a binary message of the client -/
  | binary (i : Nat) (bin : Bytes)
  /-- a ping of the client, `dtnd/ws.rs:427-433` -/
  | ping (i : Nat) (msg : Bytes)
  /-- the delivery task takes a bundle from the channel -/
  | pump (i : Nat)
  /-- the connection ends: closed by the client, timed out, or broken -/
  | ended (i : Nat)
  /-- `/register` -/
  | register (e : EID)
  /-- `/unregister` -/
  | unregister (e : EID)
  /-- a bundle arrives for an endpoint -/
  | deliver (e : EID) (b : Bundle)
  /-- `/endpoint`: a client fetches a bundle over HTTP -/
  | pop (e : EID)
deriving DecidableEq, Repr

/-- Run `f` on a session that is connected. -/
def Hub.live (h : Hub) (i : Nat) (f : Session → Hub) : Hub :=
  match h.sessions[i]? with
  | some s => if s.alive then f s else h
  | none => h

/-- Effect of one event. -/
def step (x : Ext) (host : EID) (h : Hub) : Ev → Hub
  | .connect => { h with sessions := h.sessions ++ [{}] }
  | .text i msg => h.live i fun s => handleText x host h i s msg
  | .binary i bin => h.live i fun s => handleBinary x h i s bin
  | .ping i msg => h.live i fun _ => h.upd i fun s => s.say (.ping msg)
  | .pump i => h.live i fun s => pump x h i s
  | .ended i => h.live i fun s => endSession h i s
  | .register e => { h with apps := h.apps.step (.register e) }
  | .unregister e => { h with apps := h.apps.step (.unregister e) }
  | .deliver e b => deliver h e b
  | .pop e => { h with apps := h.apps.step (.pop e) }

/-- Effect of a history. -/
def run (x : Ext) (host : EID) (h : Hub) (evs : List Ev) : Hub := evs.foldl (step x host) h

/-- A node without endpoints and sessions. -/
def init (store : MemStore) : Hub := { apps := { store } }

end Dtn.Ws
