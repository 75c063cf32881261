import Verif.Model.Routing.External
/-! Specification of routing by an external program. -/

namespace Dtn.Spec
open Routing Routing.External

/-- The response is about this bundle: the same id and the same constraints. -/
def Names (r : Response) (bp : Pack) : Prop := r.bp.pack.id = bp.id ∧ ∀ c, r.bp.pack.has c = bp.has c

/-- The sender tasks a list of hops stands for: one for each hop whose convergence layer runs here, addressed to the
hop's port or the layer's own. -/
inductive HopsMean (running : List Cla) : List Hop → List Sender → Prop
  | nil : HopsMean running [] []
  | unknown {h hs ss} : (∀ c ∈ running, c.name ≠ h.agent) → HopsMean running hs ss → HopsMean running (h :: hs) ss
  | known {h hs ss} (c : Cla) : c ∈ running → c.name = h.agent → HopsMean running hs ss →
      HopsMean running (h :: hs)
        ({ tx := c, dest := h.remote.print ++ ":" ++ toString (h.port.getD c.port), claName := h.agent,
           nextHop := h.nextHop } :: ss)

/-- The answer states what the response says. -/
def Says (running : List Cla) (r : Response) (a : Answer) : Prop :=
  HopsMean running r.clas a.clas ∧ a.delete = r.delete

/-- No peers and no deletion. -/
def NoPeers (a : Answer) : Prop := a.clas = [] ∧ a.delete = false

/-- The responses read from routers, in order. -/
def received : List Ev → List Response
  | [] => []
  | .response _ r :: es => r :: received es
  | _ :: es => received es

/-- `s` is the state after the events `evs`, starting with no router and no requests. -/
def After (evs : List Ev) (s : State) : Prop := External.run {} evs = some s

/-- Request `i` asked for this pack. -/
def Asked (s : State) (i : Nat) (bp : Held) : Prop := (s.reqs[i]?).map Req.bp = some bp

/-- Request `i` has sent its question and waits. -/
def Waits (s : State) (i : Nat) : Prop := (s.reqs[i]?).map Req.pc = some .waiting

/-- Request `i` was answered with `a`. -/
def Answered (s : State) (i : Nat) (a : Answer) : Prop := (i, a) ∈ s.answers

/-- The two packs are of the same bundle and have the same constraints. -/
def Alike (g h : Held) : Prop := g.pack.id = h.pack.id ∧ ∀ c, g.pack.has c = h.pack.has c

/-- The pack has at most one constraint. -/
def OneConstraint (h : Held) : Prop := ∀ c d, h.pack.has c = true → h.pack.has d = true → c = d

/-- Connection `c` is served as the router. -/
def Router (s : State) (c : Nat) : Prop :=
  (s.conns[c]?).map Conn.phase ∈ [some .installed, some .greeted, some .reading]

/-- No router connects at the very moment another one has been accepted but not yet recorded. -/
def OneAtATime (evs : List Ev) : Prop :=
  ∀ pre post s, evs = pre ++ .connect :: post → After pre s → ∀ k ∈ s.conns, k.phase ≠ .accepted

end Dtn.Spec
