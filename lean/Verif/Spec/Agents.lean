import Verif.Model.Agents
/-! Specification of application endpoints, in terms of the calls made and of what clients were given. -/

namespace Dtn.Spec

/-- `l` is a merge of `xs` and `ys` that keeps the order of both: every element of `l` comes from exactly one of them. -/
inductive Merge {α : Type} : List α → List α → List α → Prop
  | nil : Merge [] [] []
  | left {xs ys l : List α} (a : α) : Merge xs ys l → Merge (a :: xs) ys (a :: l)
  | right {xs ys l : List α} (a : α) : Merge xs ys l → Merge xs (a :: ys) (a :: l)

/-- The bundles that arrived for an endpoint. -/
def arrivals (e : EID) : List Apps.Op → List Bundle
  | [] => []
  | .deliver e' b _ :: ops => if e' = e then b :: arrivals e ops else arrivals e ops
  | _ :: ops => arrivals e ops

/-- Was the last registration call for this endpoint a `register`? The history lists the latest call first. -/
def registered (e : EID) : List Apps.Op → Bool
  | [] => false
  | .register e' :: older => if e' = e then true else registered e older
  | .unregister e' :: older => if e' = e then false else registered e older
  | _ :: older => registered e older

/-- What the client of an endpoint has popped so far. -/
def poppedFrom (e : EID) (s : Apps) : List Bundle := (s.popped.filter fun x => x.1 = e).map fun x => x.2

/-- What was handed to delivery channels of an endpoint so far. -/
def pushedTo (e : EID) (s : Apps) : List Bundle := (s.pushed.filter fun x => x.1 = e).map fun x => x.2.2

/-- What is still waiting for the client of an endpoint. -/
def waiting (e : EID) (s : Apps) : List Bundle :=
  match s.agents.find? fun a => a.eid = e with
  | some a => a.queue
  | none => []

/-- The bundle a client was given by the step from `s` to `s'`, if any. -/
inductive Given (s s' : Apps) (b : Bundle) : Prop
  | popped (e : EID) (h : s'.popped = s.popped ++ [(e, b)])
  | pushed (e : EID) (ch : Nat) (h : s'.pushed = s.pushed ++ [(e, ch, b)])

end Dtn.Spec
