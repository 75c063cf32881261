import Verif.Model.Ws
/-! Specification of web socket sessions, in terms of the history of events. Histories list the latest event first. -/

namespace Dtn.Spec.WsSpec
open Dtn.Ws

/-- Number of connections made. The next client to connect gets this number. -/
def opened : List Ev → Nat
  | [] => 0
  | .connect :: older => opened older + 1
  | _ :: older => opened older

/-- Is client `i` connected? -/
def connected (i : Nat) : List Ev → Bool
  | [] => false
  | .connect :: older => if opened older = i then true else connected i older
  | .ended j :: older => if j = i then false else connected i older
  | _ :: older => connected i older

/-- Is the endpoint registered? -/
def registered (e : EID) : List Ev → Bool
  | [] => false
  | .register e' :: older => if e' = e then true else registered e older
  | .unregister e' :: older => if e' = e then false else registered e older
  | _ :: older => registered e older

/-- The endpoint a client means by the argument of `/subscribe`: a full endpoint id, or a service of this node. -/
def meant (x : Ext) (host : EID) : Option String → Option EID
  | none => none
  | some a => (x.parseEid a).or (x.newEndpoint host a)

/-- Is client `i` subscribed to endpoint `e`: was the last of its successful commands about `e` a `/subscribe`? -/
def subscribed (x : Ext) (host : EID) (i : Nat) (e : EID) : List Ev → Bool
  | [] => false
  | .text j msg :: older =>
    if j = i ∧ connected i older = true then
      match parseCmd msg with
      | .subscribe arg => if meant x host arg = some e ∧ registered e older = true then true else subscribed x host i e older
      | .unsubscribe (some a) => if x.parseEid a = some e then false else subscribed x host i e older
      | _ => subscribed x host i e older
    else subscribed x host i e older
  | .ended j :: older => if j = i then false else subscribed x host i e older
  | _ :: older => subscribed x host i e older

/-- Has client `i` ever been subscribed to anything? -/
def hasSubscribed (x : Ext) (host : EID) (i : Nat) (evs : List Ev) : Prop :=
  ∃ n e, subscribed x host i e (evs.take n).reverse = true

/-- The receive mode client `i` chose last; JSON data at first. -/
def chosen (i : Nat) : List Ev → Mode
  | [] => .data .json
  | .text j msg :: older =>
    if j = i ∧ connected i older = true then
      match parseCmd msg with
      | .bundle => .bundle
      | .data => .data .cbor
      | .json => .data .json
      | _ => chosen i older
    else chosen i older
  | _ :: older => chosen i older

/-- Does the event name endpoint `e` in a (un)subscription of a client other than `i`, or unregister it? -/
def meddles (x : Ext) (host : EID) (i : Nat) (e : EID) : Ev → Prop
  | .text j msg => j ≠ i ∧
    match parseCmd msg with
    | .subscribe arg => meant x host arg = some e
    | .unsubscribe (some a) => x.parseEid a = some e
    | _ => False
  | .unregister e' => e' = e
  | _ => False

/-- The message a client gets for a bundle in a mode: the bundle itself, or its data in the chosen format; nothing in the data
modes if there is no payload. -/
def shown (x : Ext) : Mode → Bundle → List Msg
  | .bundle, b => [.binary (x.toCbor b)]
  | .data f, b => if x.hasPayload b = true then [.binary (x.encode f b)] else []

/-- The channel bundles for an endpoint are handed to. -/
def deliveredTo (h : Hub) (e : EID) : Option Nat :=
  (h.apps.agents.find? fun a => a.eid = e).bind (·.delivery)

/-- The bundles waiting at an endpoint. -/
def waitingAt (h : Hub) (e : EID) : List Bundle :=
  match h.apps.agents.find? fun a => a.eid = e with
  | some a => a.queue
  | none => []

/-- Everything client `i` has been sent. -/
def outbox (h : Hub) (i : Nat) : List Msg := (h.sessions[i]?.map (·.out)).getD []

/-- The bundles handed to client `i`'s session and not sent yet. -/
def pending (h : Hub) (i : Nat) : List Bundle := (h.sessions[i]?.map (·.chan)).getD []

/-- The bundles handed to client `i`'s session so far. -/
def handedTo (h : Hub) (i : Nat) : List Bundle := (h.apps.pushed.filter fun p => p.2.1 = i).map fun p => p.2.2

end Dtn.Spec.WsSpec
