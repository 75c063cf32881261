import Verif.Model.ConnectN
import Verif.Spec.Ecla
/-! Specification for the program that connects N nodes. -/

namespace Dtn.Spec.ConnectNSpec
open ConnectN

/-- The text is a decimal number below 2^64, optionally with a plus sign. -/
def Decimal (text : List Char) (n : Nat) : Prop :=
  ∃ ds, (text = ds ∨ text = '+' :: ds) ∧ ds ≠ [] ∧ (∀ c ∈ ds, '0' ≤ c ∧ c ≤ '9') ∧ n = Nat.ofDigitChars 10 ds 0 ∧ n < 2 ^ 64

/-- The address leads to node `j`: it is the number, or the number, a colon and anything. -/
def Leads (dst : String) (j : Nat) : Prop :=
  ∃ text rest, dst.toList = text ++ rest ∧ (rest = [] ∨ rest.head? = some ':') ∧ ':' ∉ text ∧ Decimal text j

/-- The bundles for node `j` among these packets. -/
def bundlesFor (j : Nat) (l : List Ecla.Out) : List Bundle :=
  l.filterMap fun o => match o with | .data dest b => if target dest = some j then some b else none | _ => none

/-- What node `i` has written on its connection with the program. -/
def outgoing (n : Net) (i : Nat) : List Ecla.Out := ((n.sites[i]?).bind fun s => s.link.map fun c => Spec.Ecla.written s.node c).getD []

/-- The address of the program's connection at node `j`. -/
def linkAddr (n : Net) (j : Nat) : Option Ecla.Addr :=
  (n.sites[j]?).bind fun s => s.link.bind fun c => (s.node.conns[c]?).map fun k => k.addr

/-- The bundles that node `j` has received from the program. -/
def receivedAt (n : Net) (j : Nat) : List Bundle :=
  ((n.sites[j]?).map fun s => (s.node.received.filter fun r => some r.1 = linkAddr n j).map fun r => r.2).getD []

/-- The part of a labelled list that has the label. -/
def part (L : List (Nat × Bundle)) (i : Nat) : List Bundle := (L.filter fun l => l.1 = i).map fun l => l.2

/-- The state of a node with external convergence layers after some history. -/
def Reached (s : Ecla.State) : Prop := ∃ clas tcp evs, Spec.Ecla.After clas tcp evs s

/-- The channel to no client is full. -/
def Roomy (n : Net) : Prop := ∀ s ∈ n.sites, s.inbox.length < capacity

/-- In this run, whenever the program looks at a packet, the channel to no client is full. -/
def Uncrowded (x : Ext) (n : Net) : List Ev → Prop
  | [] => True
  | e :: es => (e = .route → Roomy n) ∧ ∀ m, n.step x e = some m → Uncrowded x m es

/-- How many announcements are among these packets. -/
def beacons (l : List Ecla.Out) : Nat := l.countP fun o => decide (o = .beacon)

/-- How many announcements of node `i` the client of node `j` has put on its connection. -/
def announced (n : Net) (i j : Nat) : Nat :=
  ((n.sites[j]?).map fun s => s.put.countP fun p => match p with | .beacon _ addr _ => decide (addr = toString i) | _ => false).getD 0

/-- The client is connected, and the node has registered it as an active module. -/
def Registered (s : Site) : Prop :=
  ∃ c a, s.link = some c ∧ Spec.Ecla.Connected s.node c a ∧ Spec.Ecla.ActiveAs s.node a (bytesOf "ConnectN")

/-- The client could not connect: `serve` has returned, and the commands are still with the client. -/
def Failed (s : Site) : Prop := s.client.results ≠ [] ∧ s.client.holder = .client

/-- Nothing is on the way to the node. -/
def Quiet (s : Site) : Prop := s.inbox = [] ∧ s.client.queue = [] ∧ s.up = s.put.length

/-- The program has read everything that the node wrote. -/
def Read (n : Net) (i : Nat) : Prop := ∀ s, n.sites[i]? = some s → s.down = (outgoing n i).length

end Dtn.Spec.ConnectNSpec
