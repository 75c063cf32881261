import Verif.Model.Httpd
/-! Specification vocabulary for the HTTP interface. -/

namespace Dtn.Spec
open Dtn.Httpd

/-- An address of the host itself: 127.x.x.x, ::1, or 127.x.x.x written as an IPv6 address (::127.x.x.x or
::ffff:127.x.x.x). -/
def HostItself : IpAddr → Prop
  | .v4 a _ _ _ => a.toNat = 127
  | .v6 a b c d e f g h =>
    a.toNat = 0 ∧ b.toNat = 0 ∧ c.toNat = 0 ∧ d.toNat = 0 ∧ e.toNat = 0 ∧
      ((f.toNat = 0 ∧ g.toNat = 0 ∧ h.toNat = 1) ∨ ((f.toNat = 0 ∨ f.toNat = 65535) ∧ g.toNat / 256 = 127))

/-- The routes through which clients control the node. -/
def controlPaths : List String :=
  ["/peers/add", "/peers/del", "/routing/cmd", "/routing/getdata", "/send", "/delete", "/register", "/unregister", "/endpoint",
   "/endpoint.hex", "/insert", "/cts", "/ws", "/debug/rnd_bundle", "/debug/rnd_peer", "/ws/erouting", "/ws/ecla"]

/-- Nothing that clients control differs: registrations, waiting and fetched bundles, the store, peers, submitted bundles,
routing commands and client connections. -/
def SameControl (w w' : World) : Prop :=
  w'.apps = w.apps ∧ w'.peers = w.peers ∧ w'.submitted = w.submitted ∧ w'.cmds = w.cmds ∧ w'.clients = w.clients

/-- The endpoint a query names: a service of this node if it consists of letters, digits and `/ - _ . ~` only, otherwise
a complete endpoint id. -/
def NamesEndpoint (x : Ext) (host : EID) (q : String) (e : EID) : Prop :=
  if ∀ c ∈ q.toList, c.isAlphanum ∨ c ∈ ['/', '-', '_', '.', '~'] then x.newEndpoint host q = some e
  else x.parseEid q = some e

/-- The endpoints registered with the node. -/
def endpoints (w : World) : List EID := w.apps.agents.map AppAgent.eid

/-- Nothing a client can observe through later requests differs: endpoints, waiting and fetched bundles, stored bundles,
peers, submitted and received bundles and routing commands. -/
def SameToClients (w w' : World) : Prop :=
  w'.apps.agents = w.apps.agents ∧ w'.apps.popped = w.apps.popped ∧ w'.apps.pushed = w.apps.pushed ∧
  (∀ bid, w'.apps.store.getBundle bid = w.apps.store.getBundle bid) ∧ w'.peers = w.peers ∧
  w'.submitted = w.submitted ∧ w'.received = w.received ∧ w'.cmds = w.cmds

/-- The name of a peer type, in small or capital letters. -/
def PeerTypeName (t : String) : PeerType → Prop
  | .static => t.toList.map Char.toLower = "static".toList
  | .dynamic => t.toList.map Char.toLower = "dynamic".toList

end Dtn.Spec
