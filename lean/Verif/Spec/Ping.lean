import Verif.Model.EchoPing
/-! Specification of the ping program, in terms of what is seen of it. -/

namespace Dtn.Spec.PingSpec
open EchoPing

/-- How many pings were written. -/
def pingsSeen (l : List Seen) : Nat := l.countP fun s => match s with | .ping _ => true | _ => false

/-- How many bundles were received. -/
def bundlesSeen (l : List Seen) : Nat := l.countP fun s => match s with | .heard (.bundle (some _)) => true | _ => false

/-- How often a read timed out. -/
def timeoutsSeen (l : List Seen) : Nat := l.countP fun s => match s with | .heard .timeout => true | _ => false

/-- Neither did the connection break nor came a message that is no bundle. -/
def Sound (hs : List Heard) : Prop := Heard.broken ∉ hs ∧ Heard.bundle none ∉ hs

/-- The bundles received. -/
def bundlesOf (l : List Seen) : List RecvData := l.filterMap fun s => match s with | .heard (.bundle (some d)) => some d | _ => none

/-- The numbers of the pings that the program says were answered. -/
def printedFor (l : List Seen) : List Nat := l.filterMap fun s => match s with | .reply n => some n | _ => none

/-- `which d` is the number of the ping that `d` answers: a ping written before, and no two bundles answer the same. -/
structure Answers (which : RecvData → Nat) (l : List Seen) : Prop where
  before : ∀ pre d post, l = pre ++ .heard (.bundle (some d)) :: post → 1 ≤ which d ∧ which d ≤ pingsSeen pre
  once : ((bundlesOf l).map which).Nodup

/-- The node's signs of life: one message every `period`. -/
def heartbeats (period : Nat) (n : Nat) : List (Nat × Heard) := (List.range n).map fun j => ((j + 1) * period, .other)

end Dtn.Spec.PingSpec
