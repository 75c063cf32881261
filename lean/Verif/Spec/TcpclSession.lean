import Verif.Model.TcpclSession
/-! Specification vocabulary for TCPCL sessions. -/

namespace Dtn.Spec
open Tcpcl

/-- `segs` is a correct segmentation of `data` for transfer `tid` with segments of at most `mru` bytes: the data
parts concatenate to the bundle, no segment is empty or too long, lengths are stated correctly, the START flag is
exactly on the first one (if it is to be there at all) and the END flag exactly on the last one. -/
structure IsSegmentation (start : Bool) (tid mru : Nat) (data : Bytes) (segs : List XferSeg) : Prop where
  concat : (segs.map (·.buf)).flatten = data
  bounds : ∀ s ∈ segs, 0 < s.buf.length ∧ s.buf.length ≤ mru ∧ s.len = s.buf.length ∧ s.tid = tid
  startFlag : ∀ i s, segs[i]? = some s → (s.flags.start = true ↔ start = true ∧ i = 0)
  endFlag : ∀ i s, segs[i]? = some s → (s.flags.end = true ↔ i + 1 = segs.length)

/-- `run` is one complete transfer of `data` in a sequence of received segments: same transfer id throughout,
START exactly on the first segment, END exactly on the last one. -/
def IsTransfer (run : List XferSeg) (data : Bytes) : Prop :=
  run ≠ [] ∧ (run.map (·.buf)).flatten = data ∧
  (∃ tid, ∀ s ∈ run, s.tid = tid) ∧
  (∀ i s, run[i]? = some s → (s.flags.start = true ↔ i = 0)) ∧
  (∀ i s, run[i]? = some s → (s.flags.end = true ↔ i + 1 = run.length))

/-- Transfer id and number of bytes received so far for the transfer, for each segment of a sequence of received
segments: the count starts anew at each START segment. `n` is the count so far. -/
def ackValues : Nat → List XferSeg → List (Nat × Nat)
  | _, [] => []
  | n, s :: ss =>
    let m := if s.flags.start then s.buf.length else n + s.buf.length
    (s.tid, m) :: ackValues m ss

/-- The acknowledgements among the messages written by a session: transfer id and acknowledged length. -/
def acksIn (out : List Packet) : List (Nat × Nat) :=
  out.filterMap fun
    | .xferAck a => some (a.tid, a.len)
    | _ => none

/-- The transfer segments among the messages written by a session. -/
def segsIn (out : List Packet) : List XferSeg :=
  out.filterMap fun
    | .xferSeg d => some d
    | _ => none

/-- The segments a session has taken over into a transfer. -/
def accepted (s : Sess) : List XferSeg := (s.handled.filter (·.2)).map (·.1)

/-- The peer has sent no keepalive since the session began, or since its last other message. -/
def NoKeepalive (evs : List ((Bytes → Bool) × Sess.Ev)) : Prop :=
  ∃ before since, evs = before ++ since ∧
    (before = [] ∨ ∃ has p, before.getLast? = some (has, .recv p) ∧ p ≠ .keepAlive) ∧
    ∀ x ∈ since, x.2 ≠ .recv .keepAlive

end Dtn.Spec
