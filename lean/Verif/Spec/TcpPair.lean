import Verif.Spec.TcpPool
/-! Specification of a connection between two nodes with the layer `tcp`. The nodes are two histories of the model of the layer, of
which nothing is assumed but that the connection carries what is written to it: each end has read a beginning of what the other has
written, and they have read each other's parameters. The kinds of addresses of the nodes, `A` and `B`, may differ. -/

namespace Dtn.Spec.TcpPairSpec
open Dtn.TcpPool Dtn.Tcpcl Dtn.Spec.TcpPoolSpec
open Dtn.Clas (Answer)

variable {A B : Type}

/-- What was written to a connection after the session had begun. -/
def written (k : Chan A) : List Packet := (k.sess.map (·.out)).getD []

/-- The bundles that were read from a connection and handed to bundle processing. -/
def received (k : Chan A) : List Bytes := (k.sess.map (·.processed)).getD []

/-- The bytes of the transfers put on a connection. -/
def contents (s : State A) (k : Chan A) : List Bytes := k.entered.map (content s)

/-- `k` and `l` are the ends of a connection between two nodes. -/
structure Wire (p : Cfg A) (q : Cfg B) (k : Chan A) (l : Chan B) : Prop where
  forth : heard l <+: written k
  back : heard k <+: written l
  paramsK : ∀ r, k.remote = some r → r = q.loc
  paramsL : ∀ r, l.remote = some r → r = p.loc

/-- Everything written to the connection has arrived. -/
def Delivered (k : Chan A) (l : Chan B) : Prop := heard l = written k ∧ heard k = written l

/-- Two nodes read bundles alike, for both no bytes are no bundle, and they announce that they take segments (`cla/tcp/mod.rs:494-499`:
of 64000 bytes). -/
structure Alike (p : Cfg A) (q : Cfg B) : Prop where
  parses : ∀ d, q.env.parses d = p.env.parses d
  ids : ∀ d, q.env.bundleId d = p.env.bundleId d
  nothing : p.env.parses [] = false
  mru : 0 < p.loc.segmentMru ∧ 0 < q.loc.segmentMru

/-- The transfers put on a connection are bundles. -/
def Bundles (p : Cfg A) (s : State A) (k : Chan A) : Prop := ∀ d ∈ contents s k, p.env.parses d = true

/-- When a message came from the connection, the store of the node had the bundle with these bytes. -/
def Had (q : Cfg B) (l : Chan B) (data : Bytes) : Prop := ∃ has p, (has, Sess.Ev.recv p) ∈ l.history ∧ has (q.env.bundleId data) = true

end Dtn.Spec.TcpPairSpec
