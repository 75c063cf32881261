import Verif.Lemmas.TcpclLayout
import Verif.Props.TcpclNet
import Verif.Model.TcpclSession
/-!
Property C141: TCPCL messages on the wire are those of RFC 9174 (`cla/tcp/net.rs`, `cla/tcp/proto.rs`).
-/

namespace Dtn.Props
open Spec Tcpcl Spec.Rfc9174

/-- C141: whatever message is written, its bytes are those the RFC prescribes for it, with all reserved bits zero. -/
theorem C141_written (p : Packet) (h : WellFormed p) : Written p (write p) := write_written p h

example : WellFormed exSeg := ⟨by decide, rfl, by decide, by decide, by decide, by decide⟩

/-- C141 (without session extension items, critical items and the reason code 6, see below): every message as the
RFC prescribes it is read as that message, whatever its reserved bits, whatever unknown extension items that are not
critical it carries, and whatever follows. -/
theorem C141_read_partial (p : Packet) (bs rest : Bytes) (h : Readable p bs) (hc : ∀ t, p ≠ .contactHeader t)
    (hm : ∀ d, p = .xferSeg d → d.buf.length < 2 ^ 63) : readPacket (bs ++ rest) = .ok p rest :=
  wire_read rest h hc hm

/-- C141: the contact header as the RFC prescribes it is understood, whatever its reserved bits. -/
theorem C141_contact_header_read (t : Bool) (bs rest : Bytes) (h : Readable (.contactHeader t) bs) :
    readContactHeader (bs ++ rest) = .ok t rest :=
  readable_header rest h

/-- A START and END segment with reserved bits set, and with an item of the unknown type 7 before one of type 1. -/
example : Readable (.xferSeg { flags := { «end» := true, start := true }, tid := 258, len := 2, buf := [5, 6], extensions := [{ critical := true, data := [9] }] })
    ([1, 0xf3] ++ [0, 0, 0, 0, 0, 0, 1, 2] ++ [0, 0, 0, 13] ++ [0, 0, 7, 0, 2, 1, 1] ++ [1, 0, 1, 0, 1, 9] ++
      [0, 0, 0, 0, 0, 0, 0, 2] ++ [5, 6]) := by
  refine ⟨rfl, [0xf3], [0, 0, 0, 0, 0, 0, 1, 2], [0, 0, 0, 0, 0, 0, 0, 2], ⟨60, trivial, by decide⟩, by decide,
    by decide, ?_⟩
  rw [if_pos rfl]
  exact ⟨[0, 0, 0, 13], [0, 0, 7, 0, 2, 1, 1] ++ ([1, 0, 1, 0, 1, 9] ++ []), by decide,
    .other (critical := false) (ty := 7) (value := [1, 1]) rfl (by decide)
      ⟨[0], [0, 7], [0, 2], ⟨0, trivial, by decide⟩, by decide, by decide, rfl⟩
      (.item ⟨[1], [0, 1], [0, 1], ⟨0, trivial, by decide⟩, by decide, by decide, rfl⟩ .nil), rfl⟩

example : Readable (.contactHeader true) [0x64, 0x74, 0x6e, 0x21, 4, 0x81] :=
  ⟨[0x81], ⟨64, trivial, by decide⟩, rfl⟩

/-- C141 is false: a SESS_INIT with session extension items is not understood, whatever the items are. (RFC 9174, 4.8:
items that are not known and not critical have to be skipped.) -/
theorem C141_session_items_violated (d : SessInit) (ka smru tmru idLen extLen items rest : Bytes)
    (h1 : Field 2 d.keepalive ka) (h2 : Field 8 d.segmentMru smru) (h3 : Field 8 d.transferMru tmru)
    (h4 : Field 2 d.nodeId.length idLen) (h5 : Field 4 items.length extLen) (hi : items ≠ []) :
    readPacket ([0x07] ++ ka ++ smru ++ tmru ++ idLen ++ d.nodeId ++ extLen ++ items ++ rest) = .err := by
  simp only [List.append_assoc, List.cons_append, List.nil_append]
  unfold readPacket
  rw [Rd.bind_ok (uint_one _ _)]
  simp only [UInt8.reduceToNat, Nat.reduceEqDiff, if_false, if_true]
  unfold readSessInit
  rw [Rd.bind_ok (uint_field _ h1), Rd.bind_ok (uint_field _ h2), Rd.bind_ok (uint_field _ h3),
    Rd.bind_ok (uint_field _ h4), Rd.bind_ok (Rd.bytes_append _ _), Rd.bind_ok (uint_field _ h5),
    if_pos (by simpa using hi)]
  rfl

/-- An item of type 9 that is not critical and has no value. -/
example : Field 4 ([0, 0, 9, 0, 0] : Bytes).length [0, 0, 0, 5] ∧ ([0, 0, 9, 0, 0] : Bytes) ≠ [] := by decide

/-- C141 is false: a XFER_REFUSE with the reason code 6 (Session Terminating) is not understood. -/
theorem C141_session_terminating_violated (tid : Nat) (t rest : Bytes) (_ : Field 8 tid t) :
    readPacket ([0x03] ++ [0x06] ++ t ++ rest) = .err := by
  simp only [List.cons_append, List.nil_append]
  unfold readPacket
  rw [Rd.bind_ok (uint_one _ _)]
  simp only [UInt8.reduceToNat, Nat.reduceEqDiff, if_false, if_true]
  rw [Rd.bind_ok (uint_one _ _)]
  rfl

example : Field 8 258 [0, 0, 0, 0, 0, 0, 1, 2] := by decide

/-- C141 is false: an extension item of a type that is not known is dropped although it is marked as critical: the
segment is read like one without it, so that it cannot be refused. (RFC 9174, 5.2.5: the transfer has to be refused
with "Extension Failure".) -/
theorem C141_critical_item_violated (tid ty : Nat) (value item t extLen len buf rest : Bytes) (hty : ty ≠ 1)
    (h1 : Field 8 tid t) (h2 : Item (fun r => r = 0) true ty value item) (h3 : Field 4 item.length extLen)
    (h4 : Field 8 buf.length len) (hm : buf.length < 2 ^ 63) :
    readPacket ([0x01] ++ [0x02] ++ t ++ extLen ++ item ++ len ++ buf ++ rest) =
      .ok (.xferSeg { flags := { start := true }, tid := tid, len := buf.length, buf := buf, extensions := [] }) rest := by
  refine wire_read (R := fun r => r = 0) (others := fun _ => True) rest
    ⟨rfl, [0x02], t, len, ⟨0, rfl, by simp [Field, number]⟩, h1, h4, ?_⟩ (by intro t h; cases h) (by intro d h; cases h; exact hm)
  rw [if_pos rfl]
  exact ⟨extLen, item, h3, by simpa using Items.other (others := fun _ => True) trivial hty h2 .nil, rfl⟩

example : Item (fun r => r = 0) true 7 [1, 1] [1, 0, 7, 0, 2, 1, 1] :=
  ⟨[1], [0, 7], [0, 2], ⟨0, rfl, by decide⟩, by decide, by decide, rfl⟩

/-- C141 is false: with the option to refuse bundles the peer already has, the node sends the id of the bundle in an
extension item of type 1. In the RFC (5.2.5.1) this is the type of the Transfer Length item, whose value is a number
of 8 octets. -/
theorem C141_bundle_id_item_violated (e : Env) (tid : Nat) (data : Bytes) (h : (e.bundleId data).length < 2 ^ 16)
    (h8 : (e.bundleId data).length ≠ 8) :
    ∃ before item after value, write (.xferSeg (Sess.requestSeg e tid data)) = before ++ item ++ after ∧
      before.length = 14 ∧ Item (fun r => r = 0) false 1 value item ∧ value.length ≠ 8 := by
  refine ⟨putUint 1 1 ++ putUint 1 2 ++ putUint 8 tid ++ putUint 4 (5 + (e.bundleId data).length),
    writeExt { critical := false, data := e.bundleId data }, putUint 8 0, e.bundleId data, ?_, by simp, ?_, h8⟩
  · simp [write, Sess.requestSeg, writeExts, minExtItemSize, SegFlags.bits]
  · exact ⟨_, _, _, flag_put false, field_put (by decide), field_put (by omega), rfl⟩

end Dtn.Props
