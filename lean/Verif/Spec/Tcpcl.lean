import Verif.Model.TcpclNet
/-! Specification vocabulary for TCPCL messages. -/

namespace Dtn.Spec
open Tcpcl

/-- A message that fits the TCPCL wire format (RFC 9174): numbers fit their fields, the announced length of a
segment is the length of its data, and only a START segment carries extension items. -/
def WellFormed : Packet → Prop
  | .contactHeader _ => True
  | .sessInit d => d.keepalive < 2 ^ 16 ∧ d.segmentMru < 2 ^ 64 ∧ d.transferMru < 2 ^ 64 ∧
      d.nodeId.length < 2 ^ 16
  | .sessTerm _ _ => True
  | .xferSeg d => d.tid < 2 ^ 64 ∧ d.len = d.buf.length ∧ d.buf.length < 2 ^ 63 ∧
      (∀ e ∈ d.extensions, e.data.length < 2 ^ 16) ∧
      (d.extensions.map fun e => 5 + e.data.length).sum < 2 ^ 32 ∧
      (d.flags.start = false → d.extensions = [])
  | .xferAck d => d.tid < 2 ^ 64 ∧ d.len < 2 ^ 64
  | .xferRefuse _ tid => tid < 2 ^ 64
  | .keepAlive => True
  | .msgReject _ header => header < 2 ^ 8

end Dtn.Spec
