import Verif.Lemmas.TcpclNet
import Verif.Spec.TcpclLayout
/-! Lemmas about the layout of TCPCL messages. -/

namespace Dtn.Tcpcl
open Dtn.Spec Dtn.Spec.Rfc9174

theorem number_eq (bs : Bytes) : number bs = Rd.beVal bs := by
  induction bs with
  | nil => rfl
  | cons b bs ih => rw [beVal_cons, number, ih]

theorem field_put {k n : Nat} (h : n < 256 ^ k) : Field k n (putUint k n) :=
  ⟨putUint_length k n, by rw [number_eq, beVal_putUint_of_lt h]⟩

theorem uint_field {k v : Nat} {bs : Bytes} (rest : Bytes) (h : Field k v bs) :
    Rd.uint k (bs ++ rest) = .ok v rest := by
  unfold Rd.uint
  unfold Rd.bind
  rw [Rd.bytes_append' rest h.1, ← h.2, number_eq]
  rfl

theorem flag_put (b : Bool) : Flag (fun r => r = 0) b (putUint 1 (bitOf b)) :=
  ⟨0, rfl, by cases b <;> exact field_put (by decide)⟩

theorem segFlag_put (f : SegFlags) : SegFlag (fun r => r = 0) f (putUint 1 f.bits) :=
  ⟨0, rfl, field_put f.bits_lt⟩

theorem uint_flag {R : Nat → Prop} {b : Bool} {bs : Bytes} (rest : Bytes) (h : Flag R b bs) :
    ∃ v, Rd.uint 1 (bs ++ rest) = .ok v rest ∧ bit0 v = b := by
  obtain ⟨r, _, h⟩ := h
  refine ⟨_, uint_field rest h, ?_⟩
  unfold bit0
  cases b <;> simp <;> omega

theorem uint_segFlag {R : Nat → Prop} {f : SegFlags} {bs : Bytes} (rest : Bytes) (h : SegFlag R f bs) :
    ∃ v, Rd.uint 1 (bs ++ rest) = .ok v rest ∧ SegFlags.ofBits v = f := by
  obtain ⟨r, _, h⟩ := h
  refine ⟨_, uint_field rest h, ?_⟩
  obtain ⟨e, s⟩ := f
  unfold SegFlags.ofBits
  cases e <;> cases s <;> simp <;> omega

theorem writeExts_length (es : List ExtItem) : (writeExts es).1.length = (writeExts es).2 := by
  induction es with
  | nil => rfl
  | cons e es ih => simp [writeExts, writeExt, minExtItemSize, ih]; omega

theorem writeExts_items (es : List ExtItem) (h : ∀ e ∈ es, e.data.length < 2 ^ 16) :
    Items (fun r => r = 0) (fun _ => False) es (writeExts es).1 := by
  induction es with
  | nil => exact .nil
  | cons e es ih =>
    refine .item ⟨_, _, _, flag_put e.critical, field_put (by decide), field_put (n := e.data.length) ?_, rfl⟩
      (ih fun x hx => h x (by simp [hx]))
    have := h e (by simp)
    omega

theorem item_length {R : Nat → Prop} {c : Bool} {ty : Nat} {value bs : Bytes} (h : Item R c ty value bs) :
    bs.length = 5 + value.length := by
  obtain ⟨fl, t, len, ⟨_, _, h1, _⟩, ⟨h2, _⟩, ⟨h3, _⟩, rfl⟩ := h
  simp [h1, h2, h3]; omega

theorem readExts_items {R : Nat → Prop} {others : Bool → Prop} {es : List ExtItem} {bs : Bytes}
    (h : Items R others es bs) : ∀ (fuel : Nat) (rest : Bytes), bs.length ≤ fuel →
    readExts fuel bs.length (bs ++ rest) = .ok (es, 0) rest := by
  have step : ∀ {c : Bool} {ty : Nat} {value b : Bytes} {es : List ExtItem} {tl : Bytes} (_ : Item R c ty value b)
      (_ : ∀ (fuel : Nat) (rest : Bytes), tl.length ≤ fuel → readExts fuel tl.length (tl ++ rest) = .ok (es, 0) rest)
      (fuel : Nat) (rest : Bytes) (_ : (b ++ tl).length ≤ fuel),
      readExts fuel (b ++ tl).length ((b ++ tl) ++ rest) =
        .ok (if ty = 1 then ({ critical := c, data := value } :: es, 0) else (es, 0)) rest := by
    intro c ty value b es tl hi ih fuel rest hf
    have hl := item_length hi
    rw [List.length_append] at hf ⊢
    cases fuel with
    | zero => omega
    | succ fuel =>
      obtain ⟨fl, t, len, h1, h2, h3, rfl⟩ := hi
      simp only [readExts, List.append_assoc] at hl hf ⊢
      rw [if_neg (by unfold minExtItemSize; omega)]
      obtain ⟨v, g1, g2⟩ := uint_flag (t ++ (len ++ (value ++ (tl ++ rest)))) h1
      rw [Rd.bind_ok g1, Rd.bind_ok (uint_field _ h2), Rd.bind_ok (uint_field _ h3)]
      rw [if_neg (by unfold minExtItemSize; omega), Rd.bind_ok (Rd.bytes_append _ _)]
      have he : (fl ++ (t ++ (len ++ value))).length + tl.length - minExtItemSize - value.length = tl.length := by
        unfold minExtItemSize; omega
      rw [he, Rd.bind_ok (ih fuel rest (by omega))]
      simp only [g2]
      by_cases hty : ty = 1
      · rw [if_pos hty, if_pos hty]; rfl
      · rw [if_neg hty, if_neg hty]; rfl
  induction h with
  | nil =>
    intro fuel rest _
    cases fuel <;> rfl
  | item hi _ ih => intro fuel rest hf; exact step hi ih fuel rest hf
  | other _ hty hi _ ih =>
    intro fuel rest hf
    rw [step hi ih fuel rest hf, if_neg hty]

theorem write_written (p : Packet) (h : WellFormed p) : Written p (write p) := by
  unfold Written
  cases p with
  | contactHeader t => exact ⟨_, flag_put t, by cases t <;> rfl⟩
  | keepAlive => rfl
  | sessTerm reply reason =>
    refine ⟨_, _, flag_put reply, ?_, rfl⟩
    cases reason <;> exact field_put (by decide)
  | xferRefuse reason tid =>
    refine ⟨_, _, ?_, field_put (n := tid) (by simpa [WellFormed] using h), rfl⟩
    cases reason <;> exact field_put (by decide)
  | msgReject reason header =>
    refine ⟨_, _, ?_, field_put (n := header) (by simpa [WellFormed] using h), rfl⟩
    cases reason <;> exact field_put (by decide)
  | xferAck d =>
    simp only [WellFormed] at h
    exact ⟨_, _, _, segFlag_put d.flags, field_put (by omega), field_put (by omega), rfl⟩
  | sessInit d =>
    simp only [WellFormed] at h
    exact ⟨_, _, _, _, _, field_put (n := d.keepalive) (by omega), field_put (n := d.segmentMru) (by omega),
      field_put (n := d.transferMru) (by omega), field_put (n := d.nodeId.length) (by omega),
      field_put (n := 0) (by decide), rfl⟩
  | xferSeg d =>
    obtain ⟨flags, tid, len, buf, exts⟩ := d
    simp only [WellFormed] at h
    obtain ⟨h1, rfl, h3, h4, h5, h6⟩ := h
    refine ⟨rfl, _, _, _, segFlag_put flags, field_put (n := tid) (by omega),
      field_put (n := buf.length) (by omega), ?_⟩
    have hbuf : (if 0 < buf.length then buf else []) = buf := by
      split
      · rfl
      · have : buf.length = 0 := by omega
        exact (List.length_eq_zero_iff.mp this).symm
    simp only [write, hbuf]
    by_cases hs : flags.start = true
    · rw [if_pos hs, if_pos hs]
      have he : (if 0 < (writeExts exts).2 then (writeExts exts).1 else []) = (writeExts exts).1 := by
        cases exts with
        | nil => rfl
        | cons e es => rw [if_pos]; simp [writeExts, minExtItemSize]; omega
      rw [he]
      refine ⟨putUint 4 (writeExts exts).2, (writeExts exts).1, ?_, writeExts_items exts h4, ?_⟩
      · rw [writeExts_length]
        exact field_put (by rw [writeExts_len]; omega)
      · simp [putUint]
    · rw [if_neg hs, if_neg hs]
      exact ⟨h6 (by simpa using hs), by simp [putUint]⟩

theorem uint_one (b : UInt8) (rest : Bytes) : Rd.uint 1 (b :: rest) = .ok b.toNat rest := by
  simp [Rd.uint, Rd.bind, Rd.bytes, Rd.pure, Rd.beVal]

theorem RefuseReason.ofCode_rfc (r : RefuseReason) : RefuseReason.ofCode (refuseCode r) = some r := by
  cases r <;> rfl
theorem TermReason.ofCode_rfc (r : TermReason) : TermReason.ofCode (termCode r) = some r := by
  cases r <;> rfl
theorem RejectReason.ofCode_rfc (r : RejectReason) : RejectReason.ofCode (rejectCode r) = some r := by
  cases r <;> rfl

theorem wire_read {R : Nat → Prop} {others : Bool → Prop} {p : Packet} {bs : Bytes} (rest : Bytes)
    (h : Wire R others p bs)
    (hc : ∀ t, p ≠ .contactHeader t) (hm : ∀ d, p = .xferSeg d → d.buf.length < 2 ^ 63) :
    readPacket (bs ++ rest) = .ok p rest := by
  unfold readPacket
  cases p with
  | contactHeader t => exact absurd rfl (hc t)
  | keepAlive =>
    simp only [Wire] at h
    subst h
    rw [List.cons_append, Rd.bind_ok (uint_one _ _)]
    rfl
  | sessTerm reply reason =>
    obtain ⟨fl, code, h1, h2, rfl⟩ := h
    simp only [List.append_assoc, List.cons_append, List.nil_append]
    rw [Rd.bind_ok (uint_one _ _)]
    obtain ⟨v, g1, g2⟩ := uint_flag (code ++ rest) h1
    simp only [UInt8.reduceToNat, Nat.reduceEqDiff, if_false, if_true]
    rw [Rd.bind_ok g1, Rd.bind_ok (uint_field _ h2)]
    simp only [TermReason.ofCode_rfc, g2]
    rfl
  | xferRefuse reason tid =>
    obtain ⟨code, t, h1, h2, rfl⟩ := h
    simp only [List.append_assoc, List.cons_append, List.nil_append]
    rw [Rd.bind_ok (uint_one _ _)]
    simp only [UInt8.reduceToNat, Nat.reduceEqDiff, if_false, if_true]
    rw [Rd.bind_ok (uint_field _ h1)]
    simp only [RefuseReason.ofCode_rfc]
    rw [Rd.bind_ok (uint_field _ h2)]
    rfl
  | msgReject reason header =>
    obtain ⟨code, t, h1, h2, rfl⟩ := h
    simp only [List.append_assoc, List.cons_append, List.nil_append]
    rw [Rd.bind_ok (uint_one _ _)]
    simp only [UInt8.reduceToNat, Nat.reduceEqDiff, if_false, if_true]
    rw [Rd.bind_ok (uint_field _ h1), Rd.bind_ok (uint_field _ h2)]
    simp only [RejectReason.ofCode_rfc]
    rfl
  | xferAck d =>
    obtain ⟨fl, tid, len, h1, h2, h3, rfl⟩ := h
    simp only [List.append_assoc, List.cons_append, List.nil_append]
    rw [Rd.bind_ok (uint_one _ _)]
    simp only [UInt8.reduceToNat, Nat.reduceEqDiff, if_false, if_true]
    obtain ⟨v, g1, g2⟩ := uint_segFlag (tid ++ (len ++ rest)) h1
    rw [Rd.bind_ok g1, Rd.bind_ok (uint_field _ h2), Rd.bind_ok (uint_field _ h3)]
    simp only [g2]
    rfl
  | sessInit d =>
    obtain ⟨ka, smru, tmru, idLen, ext, h1, h2, h3, h4, h5, rfl⟩ := h
    simp only [List.append_assoc, List.cons_append, List.nil_append]
    rw [Rd.bind_ok (uint_one _ _)]
    simp only [UInt8.reduceToNat, Nat.reduceEqDiff, if_false, if_true]
    unfold readSessInit
    rw [Rd.bind_ok (uint_field _ h1), Rd.bind_ok (uint_field _ h2), Rd.bind_ok (uint_field _ h3),
      Rd.bind_ok (uint_field _ h4), Rd.bind_ok (Rd.bytes_append _ _), Rd.bind_ok (uint_field _ h5)]
    rfl
  | xferSeg d =>
    have hm := hm d rfl
    obtain ⟨flags, dtid, dlen, buf, exts⟩ := d
    obtain ⟨hl, fl, tid, len, h1, h2, h3, h4⟩ := h
    simp only at hl h1 h2 h3 h4 hm
    subst hl
    have hext : ∃ x, bs = [0x01] ++ fl ++ tid ++ x ++ len ++ buf ∧
        ∀ y, readExtensions flags (x ++ y) = .ok exts y := by
      by_cases hs : flags.start = true
      · rw [if_pos hs] at h4
        obtain ⟨extLen, eb, e1, e2, rfl⟩ := h4
        refine ⟨extLen ++ eb, by simp, fun y => ?_⟩
        unfold readExtensions
        rw [if_pos hs, List.append_assoc, Rd.bind_ok (uint_field _ e1),
          Rd.bind_ok (readExts_items e2 _ y (Nat.le_refl _))]
        simp only
        rw [Rd.bind_ok (show Rd.bytes 0 y = .ok [] y by simp [Rd.bytes])]
        rfl
      · rw [if_neg hs] at h4
        obtain ⟨rfl, rfl⟩ := h4
        refine ⟨[], by simp, fun y => ?_⟩
        unfold readExtensions
        rw [if_neg hs]
        rfl
    obtain ⟨x, rfl, hx⟩ := hext
    simp only [List.append_assoc, List.cons_append, List.nil_append]
    rw [Rd.bind_ok (uint_one _ _)]
    simp only [UInt8.reduceToNat, if_true]
    unfold readXferSeg
    obtain ⟨v, g1, g2⟩ := uint_segFlag (tid ++ (x ++ (len ++ (buf ++ rest)))) h1
    rw [Rd.bind_ok g1, Rd.bind_ok (uint_field _ h2)]
    simp only [g2]
    rw [Rd.bind_ok (hx _), Rd.bind_ok (uint_field _ h3), if_neg (by unfold maxAlloc; omega),
      Rd.bind_ok (Rd.bytes_append _ _)]
    rfl

theorem readable_header {t : Bool} {bs : Bytes} (rest : Bytes) (h : Readable (.contactHeader t) bs) :
    readContactHeader (bs ++ rest) = .ok t rest := by
  obtain ⟨fl, hf, rfl⟩ := h
  obtain ⟨v, g1, g2⟩ := uint_flag [] hf
  obtain ⟨r, _, hl, hv⟩ := hf
  match fl, hl with
  | [b], _ =>
    rw [List.append_nil, uint_one] at g1
    cases g1
    unfold readContactHeader
    rw [Rd.bind_ok (Rd.bytes_append' rest (by rfl))]
    rw [if_neg (by simp [magic])]
    simp [g2]
    rfl

end Dtn.Tcpcl
