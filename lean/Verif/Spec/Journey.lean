import Verif.Spec.Spreads
/-! Specification of the journey of a bundle through nodes with epidemic routing that carry it from contact to contact. -/

namespace Dtn.Spec
open Proc Routing

/-- A node with epidemic routing meets a neighbour. At `n` the bundle is in the store and no one was asked about it yet; it stays there,
alive and undisturbed, for any time in which the node does anything else; then the janitor runs, while the bundle waits for being
forwarded, and the neighbour with this name can be reached whenever the router is asked about the bundle; at `m` the node has done its
work. -/
def Meets (cfg : Config) (b : Bundle) (node : String) (n m : Node) : Prop :=
  ∃ (clock : Nat) (n' : Node) (tasks tasks' : List Prog) (cmds : List Cmd),
    Reaches .any ⟨Node.start cfg clock, []⟩ ⟨n, tasks⟩ ∧ n.store.getBundle b.id = some b ∧
    (∀ bp a, .asked bp a ∈ n.events → bp.id ≠ b.id) ∧
    Throughout .any (Undisturbed n b) ⟨n, tasks⟩ ⟨n', tasks'⟩ ∧
    Throughout .any (fun w => Undisturbed n b w ∧ w.claActive = true ∧
        (∃ p, w.store.getMetadata b.id = some p ∧ p.has .forwardPending = true ∧ p.has .deleted = false) ∧
        (cfg.parallel = true ∨ ∀ bid b', w.store.getBundle bid = some b' → ReadablePrevious b'))
      ⟨n'.log (.called .janitor), tasks' ++ [Call.janitor.prog]⟩ ⟨m, []⟩ ∧
    RunsEpidemic cmds m.events ∧
    ∀ ps r bp a, (.senderForBundle ps r bp, a) ∈ answered {} cmds → bp.id = b.id → .asked bp a ∈ newEvents n' m →
      (ps.map Peer.nodeName).Nodup ∧ ∃ p ∈ ps, p.nodeName = node ∧ Usable r p

/-- The copy made in transfer `t` is handed over between `n` and `m` for the neighbour with this name. -/
def CopyFor (n m : Node) (b : Bundle) (node : String) (t : Transfer) : Prop :=
  .sending t ∈ newEvents n m ∧ t.stored = b ∧ t.to.nextHop.node.getD "" = node

/-- A node that carries the bundle and the name of the neighbour it meets. -/
structure Hop where
  cfg : Config
  next : String

/-- The bundle goes along the hops: a node that has it and meets the next one hands over a copy for it, which goes along the
remaining hops; except that the next one has itself sent the bundle to this node, or that the destination was met, and a copy with
the property `P` was handed over for it. The copy behind the last hop has the property `P`. -/
def Journey (P : Bundle → Prop) : List Hop → Bundle → Prop
  | [], b => P b
  | h :: hops, b => ∀ n m, Meets h.cfg b h.next n m →
      (∃ t, CopyFor n m b h.next t ∧ Journey P hops t.out) ∨
      CameFrom b.id h.next m.events ∨
      ∃ bp a d t, .asked bp a ∈ newEvents n m ∧ bp.id = b.id ∧ bp.destination.node = some d ∧ CopyFor n m b d t ∧ P t.out

end Dtn.Spec
