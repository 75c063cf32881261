import Verif.Model.TcpclSession
/-! Specification of the undisturbed exchange of bundles over a connection between two nodes. -/

namespace Dtn.Spec.TcpCalmSpec
open Dtn.Tcpcl

/-- A connection on which both ends have just begun their session. -/
def fresh (refuseA refuseB : Bool) (initA initB : SessInit) : Pair :=
  { a := newSess refuseA initA initB, b := newSess refuseB initB initA }

/-- Neither end has ended its session. -/
def BothRun (p : Pair) : Prop := p.a.isTerminated = false ∧ p.b.isTerminated = false

/-- An end is told to stop, its connection is lost, or its timer fires. -/
def Disturbance : Pair.Ev → Prop
  | .atA (.request _) => False
  | .atB (.request _) => False
  | .atA _ => True
  | .atB _ => True
  | .toA _ => False
  | .toB _ => False

/-- Only bundles are handed to the layer. -/
def Bundles (e : Env) (evs : List Pair.Ev) : Prop := ∀ d, .atA (.request d) ∈ evs ∨ .atB (.request d) ∈ evs → e.parses d = true

/-- The events are arrivals of messages that are under way. -/
def Arrivals (e : Env) : Pair → List Pair.Ev → Prop
  | _, [] => True
  | p, ev :: evs =>
    (match ev with
      | .toA _ => p.readA < p.b.out.length
      | .toB _ => p.readB < p.a.out.length
      | _ => False) ∧ Arrivals e (p.step e ev) evs

/-- Nothing is under way. -/
def Quiet (p : Pair) : Prop := p.readA = p.b.out.length ∧ p.readB = p.a.out.length

/-- The first `n` transfers of an end have been answered, in order and with success, and no others. -/
def AnsweredUpTo (s : Sess) (n : Nat) : Prop := s.results = (List.range n).map fun k => (k, .successful)

end Dtn.Spec.TcpCalmSpec
