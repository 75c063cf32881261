import Verif.Model.TcpPool
/-! Specification of the layer `tcp`. -/

namespace Dtn.Spec.TcpPoolSpec
open Dtn.TcpPool
open Dtn.Clas (Answer)
open Dtn.Tcpcl

variable {A : Type} [DecidableEq A]

/-- `s` is the state of the layer after the events `evs`. -/
def After (cfg : Cfg A) (evs : List (Ev A)) (s : State A) : Prop := run cfg {} evs = some s

/-- What the caller of transfer `i` was told. -/
def answer (s : State A) (i : Nat) : Option Answer :=
  match s.reqs[i]? with
  | some { pc := .done ans, .. } => some ans
  | _ => none

/-- Transfer `i` was asked for, to this destination and with these bytes. -/
def Asked (s : State A) (i : Nat) (dest : String) (data : Bytes) : Prop :=
  ∃ r, s.reqs[i]? = some r ∧ r.dest = dest ∧ r.data = data

/-- Something this node does by itself, without waiting for callers or peers. (Attempts to connect end within three seconds.) -/
def Local : Ev A → Prop
  | .take | .go _ _ | .next _ => True
  | _ => False

/-- The node has nothing left to do by itself. -/
def Quiet (cfg : Cfg A) (s : State A) : Prop := ∀ e, Local e → step cfg s e = none

/-- Connection `c` of this node, made to or from address `a`, is not over. -/
def Open (s : State A) (c : Nat) (a : A) : Prop := ∃ k, s.chans[c]? = some k ∧ k.addr = a ∧ k.stage ≠ .ended

/-- On connection `c` it is the peer's turn: its greeting or its parameters have not come, or it has not acknowledged what is being
sent. -/
def PeersTurn (s : State A) (c : Nat) : Prop :=
  ∃ k, s.chans[c]? = some k ∧ (k.stage = .contact ∨ k.stage = .params ∨
    (k.stage = .session ∧ ∃ x, k.sess = some x ∧ x.tx ≠ .idle))

/-- The `j`-th transfer that went into the channel of connection `c` is transfer `i`. -/
def Nth (s : State A) (c j i : Nat) : Prop := ∃ k, s.chans[c]? = some k ∧ k.entered[j]? = some i

/-- What was read from connection `c` after the session had begun. -/
def heard (k : Chan A) : List Packet :=
  k.history.filterMap fun
    | (_, .recv p) => some p
    | _ => none

/-- The bytes of transfer `i`. -/
def content (s : State A) (i : Nat) : Bytes := ((s.reqs[i]?).map Req.data).getD []

/-- A message that confirms the transfer of `data`, the transfer with index `j` on its connection: an acknowledgement of at least its
length or, if this node asked first, a refusal. -/
def Confirms (refuse : Bool) (j : Nat) (data : Bytes) : Packet → Prop
  | .xferAck a => a.tid = j + 1 ∧ data.length ≤ a.len
  | .xferRefuse _ tid => refuse = true ∧ tid = j + 1
  | _ => False

end Dtn.Spec.TcpPoolSpec
