import Verif.Model.TcpclNet
/-!
The messages of RFC 9174 (TCPCL version 4) as they are on the wire, written down from the RFC and without use of the
functions of the model. Only the type of messages (`Packet`) is that of the model.
-/

namespace Dtn.Spec.Rfc9174
open Tcpcl

/-- The number written by a sequence of octets, most significant octet first (network byte order). -/
def number : Bytes → Nat
  | [] => 0
  | b :: bs => b.toNat * 256 ^ bs.length + number bs

/-- `bs` is a field of `n` octets holding the number `v`. -/
def Field (n v : Nat) (bs : Bytes) : Prop := bs.length = n ∧ number bs = v

instance (n v : Nat) (bs : Bytes) : Decidable (Field n v bs) := inferInstanceAs (Decidable (_ ∧ _))

/-- `bs` is an octet of flags whose lowest bit is `b`; `R` says which values the seven reserved bits may have. -/
def Flag (R : Nat → Prop) (b : Bool) (bs : Bytes) : Prop := ∃ r, R r ∧ Field 1 ((if b then 1 else 0) + 2 * r) bs

/-- RFC 9174, 5.2.2, figure 16: the flags of XFER_SEGMENT and XFER_ACK are END = 0x01, START = 0x02 and six reserved
bits. -/
def SegFlag (R : Nat → Prop) (f : SegFlags) (bs : Bytes) : Prop :=
  ∃ r, R r ∧ Field 1 ((if f.end then 1 else 0) + (if f.start then 2 else 0) + 4 * r) bs

/-- RFC 9174, 5.1.2, table 3: reason codes of MSG_REJECT. -/
def rejectCode : RejectReason → Nat
  | .typeUnknown => 0x01
  | .unsupported => 0x02
  | .unexpected => 0x03

/-- RFC 9174, 5.2.4, table 6: reason codes of XFER_REFUSE. (The code 0x06, Session Terminating, is unknown to the
code.) -/
def refuseCode : RefuseReason → Nat
  | .unknown => 0x00
  | .completed => 0x01
  | .noResources => 0x02
  | .retransmit => 0x03
  | .notAcceptable => 0x04
  | .extensionFailure => 0x05

/-- RFC 9174, 6.1, table 9: reason codes of SESS_TERM. -/
def termCode : TermReason → Nat
  | .unknown => 0x00
  | .idleTimeout => 0x01
  | .versionMismatch => 0x02
  | .busy => 0x03
  | .contactFailure => 0x04
  | .resourceExhaustion => 0x05

/-- RFC 9174, 5.2.5, figure 21: one transfer extension item of type `ty`: flags (CRITICAL = 0x01), type, length of the
value, value. -/
def Item (R : Nat → Prop) (critical : Bool) (ty : Nat) (value bs : Bytes) : Prop :=
  ∃ fl t len, Flag R critical fl ∧ Field 2 ty t ∧ Field 2 value.length len ∧ bs = fl ++ t ++ len ++ value

/-- A sequence of transfer extension items of which `es` are those of type 1. Items of other types are only there
if `others` allows for them, given their CRITICAL flag. -/
inductive Items (R : Nat → Prop) (others : Bool → Prop) : List ExtItem → Bytes → Prop where
  | nil : Items R others [] []
  | item {e : ExtItem} {es : List ExtItem} {bs rest : Bytes} :
      Item R e.critical 1 e.data bs → Items R others es rest → Items R others (e :: es) (bs ++ rest)
  | other {critical : Bool} {ty : Nat} {value : Bytes} {es : List ExtItem} {bs rest : Bytes} :
      others critical → ty ≠ 1 → Item R critical ty value bs → Items R others es rest → Items R others es (bs ++ rest)

/-- `bs` is the message `p` on the wire, RFC 9174, 4.2 (contact header), 4.6 (SESS_INIT), 5.1.1 (KEEPALIVE), 5.1.2
(MSG_REJECT), 5.2.2 (XFER_SEGMENT), 5.2.3 (XFER_ACK), 5.2.4 (XFER_REFUSE), 6.1 (SESS_TERM). `R` is the condition on
reserved bits, `others` allows for transfer extension items the code does not know. SESS_INIT is without session
extension items. -/
def Wire (R : Nat → Prop) (others : Bool → Prop) : Packet → Bytes → Prop
  | .contactHeader tls, bs => ∃ fl, Flag R tls fl ∧ bs = [0x64, 0x74, 0x6e, 0x21] ++ [4] ++ fl
  | .xferSeg d, bs => d.len = d.buf.length ∧ ∃ fl tid len, SegFlag R d.flags fl ∧ Field 8 d.tid tid ∧
      Field 8 d.buf.length len ∧
      (if d.flags.start then
        ∃ extLen exts, Field 4 exts.length extLen ∧ Items R others d.extensions exts ∧
          bs = [0x01] ++ fl ++ tid ++ extLen ++ exts ++ len ++ d.buf
      else d.extensions = [] ∧ bs = [0x01] ++ fl ++ tid ++ len ++ d.buf)
  | .xferAck d, bs => ∃ fl tid len, SegFlag R d.flags fl ∧ Field 8 d.tid tid ∧ Field 8 d.len len ∧
      bs = [0x02] ++ fl ++ tid ++ len
  | .xferRefuse reason tid, bs => ∃ code t, Field 1 (refuseCode reason) code ∧ Field 8 tid t ∧
      bs = [0x03] ++ code ++ t
  | .keepAlive, bs => bs = [0x04]
  | .sessTerm reply reason, bs => ∃ fl code, Flag R reply fl ∧ Field 1 (termCode reason) code ∧
      bs = [0x05] ++ fl ++ code
  | .msgReject reason header, bs => ∃ code h, Field 1 (rejectCode reason) code ∧ Field 1 header h ∧
      bs = [0x06] ++ code ++ h
  | .sessInit d, bs => ∃ ka smru tmru idLen ext, Field 2 d.keepalive ka ∧ Field 8 d.segmentMru smru ∧
      Field 8 d.transferMru tmru ∧ Field 2 d.nodeId.length idLen ∧ Field 4 0 ext ∧
      bs = [0x07] ++ ka ++ smru ++ tmru ++ idLen ++ d.nodeId ++ ext

/-- What a sender conforming to the RFC writes: all reserved bits are zero. -/
def Written (p : Packet) (bs : Bytes) : Prop := Wire (fun r => r = 0) (fun _ => False) p bs

/-- What a receiver conforming to the RFC has to read: reserved bits are ignored, and so are extension items it does
not know, unless they are marked as critical. -/
def Readable (p : Packet) (bs : Bytes) : Prop := Wire (fun _ => True) (fun critical => critical = false) p bs

end Dtn.Spec.Rfc9174
