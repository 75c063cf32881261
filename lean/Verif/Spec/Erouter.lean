import Verif.Model.Erouter
import Verif.Spec.Bundle
/-! Specification of the external routing program `examples/dtnerouting.rs`. -/

namespace Dtn.Spec.ErouterSpec
open Routing Routing.External Erouter

/-- The program with this strategy as it starts. -/
def start (strategy : Strategy) : Option Router := some { strategy }

/-- After these packets the program answers this request with `r`. -/
def Replied (strategy : Strategy) (news : List News) (clas : List String) (bp : Pack) (r : Reply) : Prop :=
  (replies (start strategy) (news ++ [.request clas bp])).getLast? = some (.request clas bp, some r)

/-- The program has not ended. -/
def Runs (strategy : Strategy) (news : List News) : Prop := after (start strategy) news ≠ none

/-- What the node has last told about the neighbour with this name. -/
def told (n : String) (news : List News) : Option Peer :=
  news.foldl (fun s x => match x with
    | .peerState ps => AList.get? ps n
    | .encountered e p => if e.node = some n then some p else s
    | .dropped e => if e.node = some n then none else s
    | _ => s) none

/-- The node tells about peers under their own names. -/
def WellTold (news : List News) : Prop :=
  (∀ ps, .peerState ps ∈ news → AList.WF ps ∧ ∀ k p, (k, p) ∈ ps → p.nodeName = k) ∧
  ∀ e p, .encountered e p ∈ news → p.nodeName = e.node.getD ""

/-- The peer has one of these convergence layers. -/
def Offers (clas : List String) (p : Peer) : Prop := ∃ c ∈ p.claList, c.1 ∈ clas

/-- The hop goes to the peer, over a layer of the peer that is among these. -/
def HopTo (clas : List String) (p : Peer) (h : Hop) : Prop :=
  h.nextHop = p.eid ∧ h.remote = p.addr ∧ (h.agent, h.port) ∈ p.claList ∧ h.agent ∈ clas

/-- The names of the peers in a reply. -/
def names (r : Reply) : List String := r.clas.map fun h => h.nextHop.node.getD ""

/-- Has the neighbour got the bundle, as far as the packets and replies say? It has if it was named for the bundle or has sent it,
and no failure or timeout was reported since. -/
def got (bid n : String) (history : List (News × Option Reply)) : Bool :=
  history.foldl (fun s x => match x with
    | (.request _ bp, some r) => if bp.id = bid ∧ n ∈ names r then true else s
    | (.failed b m, _) => if b = bid ∧ m = n then false else s
    | (.timeout bp, _) => if bp.id = bid then false else s
    | (.incoming b, _) => if b.id = bid ∧ (previousNode b).bind EID.node = some n ∧ n ≠ "" then true else s
    | (.incomingWithout b m, _) => if b = bid ∧ m = n ∧ n ≠ "" then true else s
    | _ => s) false

/-- The packet with which a node tells about what it would tell a built-in router. -/
inductive Means : News → Notification → Prop where
  | failed (b n : String) : Means (.failed b n) (.sendingFailed b n)
  | succeeded (b n : String) : Means (.succeeded b n) (.sendingSucceeded b n)
  | incoming (b : Bundle) : Means (.incoming b) (.incomingBundle b)
  | incomingWithout (b n : String) : Means (.incomingWithout b n) (.incomingBundleWithoutPreviousNode b n)

/-- The packet is about peers or not for the router at all. -/
def OnPeers : News → Prop
  | .peerState _ | .encountered _ _ | .dropped _ | .other => True
  | _ => False

/-- A built-in router that gets these commands is told and asked the same: the peers at the time of a question are those that the
program was told of, all running layers accept bundles, and no destination is among the peers. -/
inductive Alike : List News → List Cmd → Prop where
  | start : Alike [] []
  | peers {xs cs x} : Alike xs cs → OnPeers x → Alike (xs ++ [x]) cs
  | note {xs cs x n} : Alike xs cs → Means x n → Alike (xs ++ [x]) (cs ++ [.notify n])
  | ask {xs cs ps r bp} : Alike xs cs → ps.Nodup → (∀ p, p ∈ ps ↔ ∃ n, told n xs = some p) → (∀ c ∈ r, c.accepting = true) →
      (∃ d, bp.destination.node = some d ∧ ∀ p ∈ ps, p.nodeName ≠ d) →
      Alike (xs ++ [.request (r.map Cla.name) bp]) (cs ++ [.senderForBundle ps r bp])

/-- What a router needs to know about a peer. -/
def Same (p q : Peer) : Prop := p.eid = q.eid ∧ p.addr = q.addr ∧ p.claList = q.claList

/-- The change is one that the node tells routers about: a beacon, the periodic check, or a failure that does not remove a peer. -/
def Announced (ps : Peers) : Change → Prop
  | .beacon _ | .check _ _ => True
  | .fail n => ∀ k, Peers.known (tell ps (.fail n)).1 k = Peers.known ps k
  | _ => False

/-- All changes are of this kind. -/
def AllAnnounced : Peers → List Change → Prop
  | _, [] => True
  | ps, c :: cs => Announced ps c ∧ AllAnnounced (tell ps c).1 cs

/-- Both say that there is no such neighbour, or both say the same about it. -/
def Agree : Option Peer → Option Peer → Prop
  | none, none => True
  | some p, some q => Same p q
  | _, _ => False

/-- The table as a node has it: peers under their names. -/
def Table (ps : Peers) : Prop := AList.WF ps ∧ ∀ k p, (k, p) ∈ ps → p.eid.node = some k

end Dtn.Spec.ErouterSpec
