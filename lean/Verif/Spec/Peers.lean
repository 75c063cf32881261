import Verif.Model.Peer
/-! Specification of the peer table: what is known about one node, given the calls made. -/

namespace Dtn.Spec
open Peers (Op)

/-- Seconds without contact after which a dynamic peer is gone. -/
def timeoutSecs (cfg : PeerCfg) (p : Peer) : Nat :=
  match p.period with
  | none => cfg.timeout
  | some ms => if cfg.custom = true ∧ 0 < cfg.timeout then cfg.timeout else 2 * (ms / 1000)

/-- Seconds since the last contact, computed with numbers of 64 bits: if the clock was set back before the last contact, it is almost
`2 ^ 64`. -/
def silence (now : Nat) (p : Peer) : Nat :=
  if p.lastContact ≤ now then now - p.lastContact else 2 ^ 64 - (p.lastContact - now)

/-- A peer the periodic check keeps. -/
def Alive (cfg : PeerCfg) (now : Nat) (p : Peer) : Prop :=
  p.conType = .static ∨ silence now p < timeoutSecs cfg p

instance (cfg : PeerCfg) (now : Nat) (p : Peer) : Decidable (Alive cfg now p) := inferInstanceAs (Decidable (_ ∨ _))

/-- What is known about node `n` after the calls `ops`, given what was known before: the peer added last, with the time
of its last contact and its failures, unless it was removed, timed out or failed four times. Failures are counted with 16 bits. -/
def entry (n : String) : Option Peer → List Op → Option Peer
  | cur, [] => cur
  | cur, .add p :: ops => if p.eid.node = some n then entry n (some p) ops else entry n cur ops
  | cur, .remove m :: ops => if m = n then entry n none ops else entry n cur ops
  | cur, .touch now m :: ops => if m = n then entry n (cur.map fun p => { p with lastContact := now }) ops else entry n cur ops
  | cur, .check cfg now :: ops =>
    match cur with
    | none => entry n none ops
    | some p => if Alive cfg now p then entry n (some p) ops else entry n none ops
  | cur, .fail m :: ops =>
    if m = n then
      match cur with
      | none => entry n none ops
      | some p =>
        if p.conType = .dynamic ∧ 4 ≤ (p.fails + 1) % 2 ^ 16 then entry n none ops
        else entry n (some { p with fails := (p.fails + 1) % 2 ^ 16 }) ops
    else entry n cur ops

end Dtn.Spec
