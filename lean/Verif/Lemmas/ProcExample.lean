import Verif.Lemmas.ProcExec
import Verif.Spec.Processing
/-! Example nodes, bundles and executions. -/

namespace Dtn.Proc.Ex
open Routing (Answer)

def cfg : Config :=
  { hostEid := .dtn "n1" ""
    statusReports := true
    decode := fun bytes =>
      match bytes with
      | [7] => some (.statusReport [true, false, false, false] "b")
      | [8] => some (.statusReport [false, false, true, false] "b")
      | [9] => some .other
      | _ => none
    encode := fun _ => [9] }

/-- 100 ms after the start of DTN time. -/
def start : Node := Node.start cfg 946684800100

def primary : Primary :=
  { bid := "b"
    source := .dtn "n2" "a"
    destination := .dtn "n3" "x"
    reportTo := .dtn "n2" "r"
    creationTime := 5
    lifetime := 1000 }

/-- A bundle with all three extension blocks. -/
def bundle (limit count age : Nat) : Bundle :=
  { primary
    canonicals :=
      [⟨PREVIOUS_NODE_BLOCK, 4, {}, .previousNode (.dtn "n2" "")⟩, ⟨HOP_COUNT_BLOCK, 3, {}, .hopCount limit count⟩,
       ⟨BUNDLE_AGE_BLOCK, 2, {}, .bundleAge age⟩, ⟨PAYLOAD_BLOCK, 1, {}, .data [1]⟩] }

/-- The same, asking for all reports. -/
def asking : Bundle :=
  { bundle 5 1 20 with
    primary := { primary with flags := { reqReception := true, reqForward := true, reqDelivery := true, reqDeletion := true } } }

/-- A status report about "b" for an endpoint of this node, which asserts reception only. -/
def record : Bundle :=
  { primary :=
      { primary with
        bid := "s"
        flags := { admin := true }
        destination := .dtn "n1" "x" }
    canonicals := [⟨PAYLOAD_BLOCK, 1, {}, .data [7]⟩] }

/-- An unknown block. -/
def odd (ty : Nat) (remove : Bool) : Block := ⟨ty, 7, { remove }, .data [3]⟩

/-- An unknown block that asks for the deletion of the bundle. -/
def fatal : Block := ⟨13, 8, { deleteBundle := true }, .data [3]⟩

def known : Block := ⟨PREVIOUS_NODE_BLOCK, 4, {}, .previousNode (.dtn "n2" "")⟩

def payload : Block := ⟨PAYLOAD_BLOCK, 1, {}, .data [1]⟩

/-- A bundle with these extension blocks. -/
def strange (cs : List Block) : Bundle := { primary, canonicals := cs ++ [payload] }

def sender : Sender := ⟨⟨"mtcp", 16162, true⟩, "10.0.0.3:16162", "mtcp", .dtn "n3" ""⟩

def answer (delete : Bool) : Answer := ⟨[sender], delete⟩

/-- Is there a transfer with this property? -/
def hasSending (p : Transfer → Bool) (s : Sys) : Bool :=
  s.node.events.any fun e => match e with | .sending t => p t | _ => false

def hasReport (p : Report → Bool) (s : Sys) : Bool :=
  s.node.events.any fun e => match e with | .report r => p r | _ => false

def hasRemoved (p : String → Cause → Bool) (s : Sys) : Bool :=
  s.node.events.any fun e => match e with | .removed b c => p b c | _ => false

theorem sending_of {p : Transfer → Bool} {s : Sys} (h : hasSending p s = true) :
    ∃ t, Event.sending t ∈ s.node.events ∧ p t = true := by
  obtain ⟨e, he, hp⟩ := List.any_eq_true.mp h
  cases e <;> simp at hp
  exact ⟨_, he, hp⟩

theorem report_of {p : Report → Bool} {s : Sys} (h : hasReport p s = true) :
    ∃ t, Event.report t ∈ s.node.events ∧ p t = true := by
  obtain ⟨e, he, hp⟩ := List.any_eq_true.mp h
  cases e <;> simp at hp
  exact ⟨_, he, hp⟩

theorem removed_of {p : String → Cause → Bool} {s : Sys} (h : hasRemoved p s = true) :
    ∃ b c, Event.removed b c ∈ s.node.events ∧ p b c = true := by
  obtain ⟨e, he, hp⟩ := List.any_eq_true.mp h
  cases e <;> simp at hp
  exact ⟨_, _, he, hp⟩

end Dtn.Proc.Ex
