import Verif.Lemmas.ProcCount
import Mathlib.Tactic.SplitIfs
/-! The weights used to count the events of bundle processing. -/

namespace Dtn.Proc
open Routing Spec

/-- One if the event is of this kind. -/
abbrev one (p : Event → Bool) (e : Event) : Int := if p e then 1 else 0

theorem sum_one (p : Event → Bool) (l : List Event) : (l.map (one p)).sum = l.countP p := sum_ite p l

theorem sum_mul (c : Int) (f : Event → Int) (l : List Event) : (l.map fun e => c * f e).sum = c * (l.map f).sum := by
  induction l with
  | nil => simp
  | cons e l ih => simp only [List.map_cons, List.sum_cons, ih]; ring

theorem W_incoming (c : Int) : ({ ev := fun e => c * one isAccepted e, incoming := -c } : Weights).OK := by
  constructor <;> intros <;> simp_all [one, isAccepted]

theorem W_dups (c : Int) : ({ ev := fun e => c * one isDuplicate e, dups := -c } : Weights).OK := by
  constructor <;> intros <;> simp_all [one, isDuplicate]

theorem W_receive (c : Int) :
    ({ ev := fun e => c * (one isAccepted e + one isDuplicate e - one isReceive e) } : Weights).OK := by
  constructor <;> intros <;> simp_all [one, isDuplicate, isAccepted, isReceive]

theorem W_outgoing (c : Int) : ({ ev := fun e => c * one (isOutcome true) e, outgoing := -c } : Weights).OK := by
  constructor <;> intros <;> simp_all [one, isOutcome]

theorem W_failed (c : Int) : ({ ev := fun e => c * one (isOutcome false) e, failed := -c } : Weights).OK := by
  constructor <;> intros <;> simp_all [one, isOutcome]

theorem W_sending (c : Int) :
    ({ ev := fun e => c * (one isSending e - one (isOutcome true) e - one (isOutcome false) e) } : Weights).OK := by
  constructor <;> intros <;> simp_all [one, isOutcome, isSending]

theorem W_delivered (c : Int) : ({ ev := fun e => c * one isDelivery e, delivered := -c } : Weights).OK := by
  constructor <;> intros <;> simp_all [one, isDelivery]

/-- Solves the conditions of `Weights.OK` case by case. -/
macro "wsolve" "[" ls:Lean.Parser.Tactic.simpLemma,* "]" : tactic =>
  `(tactic| first
    | (simp [one, Weights.asking, reporting, $ls,*]; done)
    | (simp only [one, Weights.asking, reporting, $ls,*]; split_ifs <;> simp_all <;> omega)
    | (simp only [one, Weights.asking, reporting, $ls,*]; grind))

theorem W_told (c : Int) (ok : Bool) (bid node : String) :
    ({ ev := fun e => c * (one (isOutcomeFor ok bid node) e - one (isTold ok bid node) e)
       answers := fun a => ∀ s ∈ a.clas, s.nextHop.node ≠ none } : Weights).OK := by
  cases ok
  all_goals constructor <;> intros <;> simp_all [one, isOutcomeFor, isTold]

theorem W_reception (bid : String) :
    ({ ev := fun e => one (isReception false bid) e - one (isAcceptedId bid) e
       rep := fun p r i => if p = .received ∧ r ≠ .blockUnintelligible ∧ i = bid then 1 else 0
       strict := True } : Weights).OK := by
  constructor <;> intros
  all_goals wsolve [isAcceptedId, isReception]

theorem W_unknown (bid : String) :
    ({ ev := fun e => one (isReception true bid) e - (reportingOf bid e : Int)
       rep := fun p r i => if p = .received ∧ r = .blockUnintelligible ∧ i = bid then 1 else 0
       strict := True } : Weights).OK := by
  constructor <;> intros
  all_goals wsolve [isReception, reportingOf]

theorem W_forwarded (bid : String) :
    ({ ev := fun e => one (isReport .forwarded bid) e - one (isAskedId bid) e
       rep := fun p _ i => if p = .forwarded ∧ i = bid then 1 else 0
       strict := True } : Weights).OK := by
  constructor <;> intros
  all_goals wsolve [isAskedId, isReport]

theorem W_deliveredReport (bid : String) :
    ({ ev := fun e => one (isReport .delivered bid) e - one (isIncomingId bid) e
       rep := fun p _ i => if p = .delivered ∧ i = bid then 1 else 0
       strict := True } : Weights).OK := by
  constructor <;> intros
  all_goals wsolve [isIncomingId, isReport]

theorem W_deletedReport (bid : String) :
    ({ ev := fun e => one (isReport .deleted bid) e - one (isIncomingId bid) e - one (isAskedId bid) e -
         one (isAcceptedId bid) e - one (isSentId bid) e
       rep := fun p _ i => if p = .deleted ∧ i = bid then 1 else 0
       strict := True } : Weights).OK := by
  constructor <;> intros
  all_goals wsolve [isAcceptedId, isAskedId, isIncomingId, isReport, isSentId]

theorem W_incomingNote (bid : String) :
    ({ ev := fun e => one (isIncomingId bid) e - one (isAcceptedId bid) e - one (isSentId bid) e
       disp := fun i => if i = bid then 1 else 0
       strict := True } : Weights).OK := by
  constructor <;> intros
  all_goals wsolve [isAcceptedId, isIncomingId, isSentId]

theorem W_delivery (bid : String) :
    ({ ev := fun e => one (isDeliveryId bid) e - one (isIncomingId bid) e
       give := fun i => if i = bid then 1 else 0
       strict := True } : Weights).OK := by
  constructor <;> intros
  all_goals wsolve [isDeliveryId, isIncomingId]

theorem count_sum (s : Sender) (l : List Sender) :
    (l.map fun x => if x = s then (1 : Int) else 0).sum = l.count s := by
  induction l with
  | nil => rfl
  | cons x l ih =>
    simp only [List.map_cons, List.sum_cons, ih, List.count_cons, beq_iff_eq]
    split_ifs <;> simp; omega

theorem W_sendingTo (bid : String) (s : Sender) :
    ({ ev := fun e => one (isSendingTo bid s) e - (named bid s e : Int)
       trans := fun t => if t.stored.id = bid ∧ t.to = s then 1 else 0
       strict := True } : Weights).OK := by
  constructor <;> intros
  case askedSent bp a mk ha hmk =>
    simp only [one, isSendingTo, named, hmk, Bool.false_eq_true, if_false]
    by_cases hb : bp.id = bid
    · simp only [hb, if_true, true_and, count_sum]; omega
    · simp [hb]
  all_goals wsolve [isSendingTo, named]

end Dtn.Proc
