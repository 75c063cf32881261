import Verif.Lemmas.Reader
import Verif.Spec.Tcpcl
/-! Lemmas about TCPCL messages. -/

namespace Dtn.Tcpcl
open Dtn.Spec

theorem SegFlags.bits_lt (f : SegFlags) : f.bits < 256 ^ 1 := by
  unfold SegFlags.bits; split <;> split <;> decide

theorem SegFlags.ofBits_bits (f : SegFlags) : SegFlags.ofBits f.bits = f := by
  cases f with
  | mk e s => cases e <;> cases s <;> rfl

theorem bitOf_lt (b : Bool) : bitOf b < 256 ^ 1 := by cases b <;> decide

theorem bit0_bitOf (b : Bool) : bit0 (bitOf b) = b := by cases b <;> rfl

theorem RefuseReason.code_lt (r : RefuseReason) : r.code < 256 ^ 1 := by cases r <;> decide
theorem RefuseReason.ofCode_code (r : RefuseReason) : RefuseReason.ofCode r.code = some r := by
  cases r <;> rfl
theorem TermReason.code_lt (r : TermReason) : r.code < 256 ^ 1 := by cases r <;> decide
theorem TermReason.ofCode_code (r : TermReason) : TermReason.ofCode r.code = some r := by
  cases r <;> rfl
theorem RejectReason.code_lt (r : RejectReason) : r.code < 256 ^ 1 := by cases r <;> decide
theorem RejectReason.ofCode_code (r : RejectReason) : RejectReason.ofCode r.code = some r := by
  cases r <;> rfl

theorem writeExts_len (es : List ExtItem) :
    (writeExts es).2 = (es.map fun e => 5 + e.data.length).sum := by
  induction es with
  | nil => rfl
  | cons e es ih => simp [writeExts, ih, minExtItemSize]

theorem readExts_write (es : List ExtItem) : ∀ (fuel : Nat) (rest : Bytes),
    (∀ e ∈ es, e.data.length < 2 ^ 16) → (writeExts es).2 ≤ fuel →
    readExts fuel (writeExts es).2 ((writeExts es).1 ++ rest) = .ok (es, 0) rest := by
  induction es with
  | nil =>
    intro fuel rest _ _
    cases fuel with
    | zero => rfl
    | succ n => rfl
  | cons e es ih =>
    intro fuel rest hd hf
    have he : e.data.length < 2 ^ 16 := hd e (by simp)
    have hl : (writeExts (e :: es)).2 = minExtItemSize + e.data.length + (writeExts es).2 := rfl
    rw [hl] at hf ⊢
    unfold minExtItemSize at hf ⊢
    cases fuel with
    | zero => omega
    | succ fuel =>
      simp only [readExts, writeExts, writeExt, List.append_assoc]
      rw [if_neg (by unfold minExtItemSize; omega)]
      rw [Rd.bind_ok (Rd.uint_put _ (bitOf_lt _)), Rd.bind_ok (Rd.uint_put _ (by decide)),
        Rd.bind_ok (Rd.uint_put _ (by omega))]
      rw [if_neg (by unfold minExtItemSize; omega)]
      rw [Rd.bind_ok (Rd.bytes_append _ _)]
      have h1 : 5 + e.data.length + (writeExts es).2 - minExtItemSize - e.data.length = (writeExts es).2 := by
        unfold minExtItemSize; omega
      rw [h1, Rd.bind_ok (ih fuel rest (fun e' h' => hd e' (by simp [h'])) (by omega))]
      simp only [bit0_bitOf, if_true]
      rfl

theorem read_write (p : Packet) (rest : Bytes) (h : WellFormed p)
    (hc : ∀ t, p ≠ .contactHeader t) : readPacket (write p ++ rest) = .ok p rest := by
  unfold readPacket
  cases p with
  | contactHeader t => exact absurd rfl (hc t)
  | keepAlive =>
    simp only [write]
    rw [Rd.bind_ok (Rd.uint_put _ (by decide))]
    rfl
  | sessTerm reply reason =>
    simp only [write, List.append_assoc]
    rw [Rd.bind_ok (Rd.uint_put _ (by decide))]
    simp only [Nat.reduceEqDiff, if_false, if_true]
    rw [Rd.bind_ok (Rd.uint_put _ (bitOf_lt _)), Rd.bind_ok (Rd.uint_put _ reason.code_lt)]
    simp only [TermReason.ofCode_code, bit0_bitOf]
    rfl
  | xferRefuse reason tid =>
    simp only [write, List.append_assoc]
    rw [Rd.bind_ok (Rd.uint_put _ (by decide))]
    simp only [Nat.reduceEqDiff, if_false, if_true]
    rw [Rd.bind_ok (Rd.uint_put _ reason.code_lt)]
    simp only [RefuseReason.ofCode_code]
    rw [Rd.bind_ok (Rd.uint_put _ (by simpa [WellFormed] using h))]
    rfl
  | msgReject reason header =>
    simp only [write, List.append_assoc]
    rw [Rd.bind_ok (Rd.uint_put _ (by decide))]
    simp only [Nat.reduceEqDiff, if_false, if_true]
    rw [Rd.bind_ok (Rd.uint_put _ reason.code_lt),
      Rd.bind_ok (Rd.uint_put _ (by simpa [WellFormed] using h))]
    simp only [RejectReason.ofCode_code]
    rfl
  | xferAck d =>
    simp only [write, List.append_assoc]
    rw [Rd.bind_ok (Rd.uint_put _ (by decide))]
    simp only [Nat.reduceEqDiff, if_false, if_true]
    simp only [WellFormed] at h
    rw [Rd.bind_ok (Rd.uint_put _ d.flags.bits_lt), Rd.bind_ok (Rd.uint_put _ (by omega)),
      Rd.bind_ok (Rd.uint_put _ (by omega))]
    simp only [SegFlags.ofBits_bits]
    rfl
  | sessInit d =>
    simp only [write, List.append_assoc]
    rw [Rd.bind_ok (Rd.uint_put _ (by decide))]
    simp only [Nat.reduceEqDiff, if_false, if_true]
    simp only [WellFormed] at h
    unfold readSessInit
    rw [Rd.bind_ok (Rd.uint_put _ (by omega)), Rd.bind_ok (Rd.uint_put _ (by omega)),
      Rd.bind_ok (Rd.uint_put _ (by omega)), Rd.bind_ok (Rd.uint_put _ (by omega)),
      Rd.bind_ok (Rd.bytes_append _ _), Rd.bind_ok (Rd.uint_put _ (by decide))]
    rfl
  | xferSeg d =>
    obtain ⟨flags, tid, len, buf, exts⟩ := d
    simp only [write, List.append_assoc]
    rw [Rd.bind_ok (Rd.uint_put _ (by decide))]
    simp only [if_true]
    simp only [WellFormed] at h
    obtain ⟨h1, rfl, h3, h4, h5, h6⟩ := h
    unfold readXferSeg
    rw [Rd.bind_ok (Rd.uint_put _ flags.bits_lt), Rd.bind_ok (Rd.uint_put _ (by omega))]
    simp only [SegFlags.ofBits_bits]
    have hbuf : (if 0 < buf.length then buf else []) = buf := by
      split
      · rfl
      · have : buf.length = 0 := by omega
        exact (List.length_eq_zero_iff.mp this).symm
    rw [hbuf]
    have hext : ∀ x : Bytes, readExtensions flags
        ((if flags.start = true then
          putUint 4 (writeExts exts).2 ++ (if 0 < (writeExts exts).2 then (writeExts exts).1 else [])
          else []) ++ x) = .ok exts x := by
      intro x
      unfold readExtensions
      by_cases hs : flags.start = true
      · rw [if_pos hs, if_pos hs, List.append_assoc,
          Rd.bind_ok (Rd.uint_put _ (by rw [writeExts_len]; omega))]
        have he : (if 0 < (writeExts exts).2 then (writeExts exts).1 else []) = (writeExts exts).1 := by
          cases exts with
          | nil => rfl
          | cons e es => rw [if_pos]; simp [writeExts, minExtItemSize]; omega
        rw [he, Rd.bind_ok (readExts_write exts _ x h4 (Nat.le_refl _))]
        simp only
        rw [Rd.bind_ok (show Rd.bytes 0 x = .ok [] x by simp [Rd.bytes])]
        rfl
      · rw [if_neg hs, if_neg hs, List.nil_append]
        rw [h6 (by simpa using hs)]
        rfl
    rw [Rd.bind_ok (hext _)]
    rw [Rd.bind_ok (Rd.uint_put _ (by omega))]
    rw [if_neg (by unfold maxAlloc; omega), Rd.bind_ok (Rd.bytes_append _ _)]
    rfl

theorem readContactHeader_write (t : Bool) (rest : Bytes) :
    readContactHeader (write (.contactHeader t) ++ rest) = .ok t rest := by
  unfold readContactHeader
  have : Rd.bytes 6 (write (.contactHeader t) ++ rest) = .ok (write (.contactHeader t)) rest :=
    Rd.bytes_append' rest (by cases t <;> rfl)
  rw [Rd.bind_ok this]
  cases t <;> rfl

/-! ### Prefix property -/

open Rd

theorem readExts_prefixed (fuel : Nat) : ∀ extLen, Prefixed (readExts fuel extLen) := by
  induction fuel with
  | zero => intro e; exact Prefixed.pure _
  | succ n ih =>
    intro e
    unfold readExts
    split
    · exact Prefixed.pure _
    · refine (Prefixed.uint 1).bind fun _ => (Prefixed.uint 2).bind fun _ =>
        (Prefixed.uint 2).bind fun _ => ?_
      split
      · exact Prefixed.abort
      · refine (Prefixed.bytes _).bind fun _ => (ih _).bind fun p => ?_
        split
        split
        · exact Prefixed.pure _
        · exact Prefixed.pure _

theorem readExtensions_prefixed (f : SegFlags) : Prefixed (readExtensions f) := by
  unfold readExtensions
  split
  · refine (Prefixed.uint 4).bind fun _ => (readExts_prefixed _ _).bind fun p => ?_
    split
    exact (Prefixed.bytes _).bind fun _ => Prefixed.pure _
  · exact Prefixed.pure _

theorem readXferSeg_prefixed : Prefixed readXferSeg := by
  unfold readXferSeg
  refine (Prefixed.uint 1).bind fun _ => (Prefixed.uint 8).bind fun _ =>
    (readExtensions_prefixed _).bind fun _ => (Prefixed.uint 8).bind fun _ => ?_
  split
  · exact Prefixed.abort
  · exact (Prefixed.bytes _).bind fun _ => Prefixed.pure _

theorem read_prefixed : Prefixed readPacket := by
  unfold readPacket
  refine (Prefixed.uint 1).bind fun m => ?_
  split
  · exact readXferSeg_prefixed
  split
  · exact (Prefixed.uint 1).bind fun _ => (Prefixed.uint 8).bind fun _ => (Prefixed.uint 8).bind fun _ =>
      Prefixed.pure _
  split
  · refine (Prefixed.uint 1).bind fun _ => ?_
    split
    · exact (Prefixed.uint 8).bind fun _ => Prefixed.pure _
    · exact Prefixed.fail
  split
  · exact Prefixed.pure _
  split
  · refine (Prefixed.uint 1).bind fun _ => (Prefixed.uint 1).bind fun _ => ?_
    split
    · exact Prefixed.pure _
    · exact Prefixed.fail
  split
  · refine (Prefixed.uint 1).bind fun _ => (Prefixed.uint 1).bind fun _ => ?_
    split
    · exact Prefixed.pure _
    · exact Prefixed.fail
  split
  · unfold readSessInit
    refine (Prefixed.uint 2).bind fun _ => (Prefixed.uint 8).bind fun _ => (Prefixed.uint 8).bind fun _ =>
      (Prefixed.uint 2).bind fun _ => (Prefixed.bytes _).bind fun _ => (Prefixed.uint 4).bind fun _ => ?_
    split
    · exact Prefixed.fail
    · exact Prefixed.pure _
  split
  · unfold readContactInStream
    refine (Prefixed.bytes _).bind fun _ => ?_
    split
    · exact Prefixed.fail
    split
    · exact Prefixed.fail
    · exact Prefixed.pure _
  · exact Prefixed.fail

/-! ### Well-formed results -/

theorem readExts_wf (fuel : Nat) : ∀ extLen bs items left rest,
    readExts fuel extLen bs = .ok (items, left) rest →
    (items.map fun e => 5 + e.data.length).sum + left ≤ extLen ∧
    ∀ e ∈ items, e.data.length < 2 ^ 16 := by
  induction fuel with
  | zero => intro e bs items left rest h; cases h; simp
  | succ n ih =>
    intro e bs items left rest h
    unfold readExts at h
    split at h
    · cases h; simp
    · obtain ⟨flag, b1, h1, h⟩ := bind_inv h
      obtain ⟨ty, b2, h2, h⟩ := bind_inv h
      obtain ⟨il, b3, h3, h⟩ := bind_inv h
      split at h
      · cases h
      · next hle =>
        obtain ⟨data, b4, h4, h⟩ := bind_inv h
        obtain ⟨⟨its, lf⟩, b5, h5, h⟩ := bind_inv h
        have hh := ih _ _ _ _ _ h5
        have hdl := bytes_len h4
        have hil := uint_lt h3
        unfold minExtItemSize at hle hh
        simp only at h
        split at h
        · cases h
          refine ⟨by simp only [List.map_cons, List.sum_cons]; omega, ?_⟩
          intro x hx
          rcases List.mem_cons.mp hx with rfl | hx
          · simp only; omega
          · exact hh.2 x hx
        · cases h
          exact ⟨by omega, hh.2⟩

theorem read_wellFormed {bs : Bytes} {p : Packet} {rest : Bytes} (h : readPacket bs = .ok p rest) :
    WellFormed p := by
  unfold readPacket at h
  obtain ⟨m, b0, h0, h⟩ := bind_inv h
  split at h
  · unfold readXferSeg at h
    obtain ⟨f, b1, h1, h⟩ := bind_inv h
    obtain ⟨tid, b2, h2, h⟩ := bind_inv h
    obtain ⟨exts, b3, h3, h⟩ := bind_inv h
    obtain ⟨len, b4, h4, h⟩ := bind_inv h
    split at h
    · cases h
    next hlen =>
    obtain ⟨buf, b5, h5, h⟩ := bind_inv h
    cases h
    have ht := uint_lt h2
    have hb := bytes_len h5
    unfold maxAlloc at hlen
    unfold readExtensions at h3
    refine ⟨by omega, hb.symm, by show buf.length < 2 ^ 63; omega, ?_⟩
    split at h3
    · next hs =>
      obtain ⟨el, c1, g1, h3⟩ := bind_inv h3
      obtain ⟨⟨its, left⟩, c2, g2, h3⟩ := bind_inv h3
      obtain ⟨_, c3, g3, h3⟩ := bind_inv h3
      cases h3
      have hw := readExts_wf _ _ _ _ _ _ g2
      have hel := uint_lt g1
      exact ⟨hw.2, by simp only; omega, by intro hf; simp [hs] at hf⟩
    · cases h3; simp
  split at h
  · obtain ⟨f, b1, h1, h⟩ := bind_inv h
    obtain ⟨tid, b2, h2, h⟩ := bind_inv h
    obtain ⟨len, b3, h3, h⟩ := bind_inv h
    cases h
    have := uint_lt h2; have := uint_lt h3
    exact ⟨by omega, by omega⟩
  split at h
  · obtain ⟨c, b1, h1, h⟩ := bind_inv h
    cases hc : RefuseReason.ofCode c with
    | some r =>
      rw [hc] at h
      obtain ⟨tid, b2, h2, h⟩ := bind_inv h
      cases h
      have := uint_lt h2
      simp only [WellFormed]; omega
    | none => rw [hc] at h; cases h
  split at h
  · cases h; trivial
  split at h
  · obtain ⟨f, b1, h1, h⟩ := bind_inv h
    obtain ⟨c, b2, h2, h⟩ := bind_inv h
    cases hc : TermReason.ofCode c with
    | some r => rw [hc] at h; cases h; trivial
    | none => rw [hc] at h; cases h
  split at h
  · obtain ⟨f, b1, h1, h⟩ := bind_inv h
    obtain ⟨c, b2, h2, h⟩ := bind_inv h
    cases hc : RejectReason.ofCode f with
    | some r =>
      rw [hc] at h; cases h
      have := uint_lt h2
      simp only [WellFormed]; omega
    | none => rw [hc] at h; cases h
  split at h
  · unfold readSessInit at h
    obtain ⟨f1, b1, h1, h⟩ := bind_inv h
    obtain ⟨f2, b2, h2, h⟩ := bind_inv h
    obtain ⟨f3, b3, h3, h⟩ := bind_inv h
    obtain ⟨f4, b4, h4, h⟩ := bind_inv h
    obtain ⟨f5, b5, h5, h⟩ := bind_inv h
    obtain ⟨f6, b6, h6, h⟩ := bind_inv h
    split at h
    · cases h
    cases h
    have := uint_lt h1; have := uint_lt h2; have := uint_lt h3; have := uint_lt h4
    have := bytes_len h5
    exact ⟨by omega, by omega, by omega, by simp only; omega⟩
  split at h
  · unfold readContactInStream at h
    obtain ⟨f, b1, h1, h⟩ := bind_inv h
    split at h
    · cases h
    split at h
    · cases h
    cases h; trivial
  · cases h

/-! ### Panics -/

theorem bind_panic {α β : Type} {r : Rd α} {f : α → Rd β} {bs : Bytes}
    (h : (r >>= f) bs = .panic) : r bs = .panic ∨ ∃ a mid, r bs = .ok a mid ∧ f a mid = .panic := by
  have h' : Rd.bind r f bs = .panic := h
  unfold Rd.bind at h'
  cases hr : r bs with
  | ok a mid => rw [hr] at h'; exact Or.inr ⟨a, mid, rfl, h'⟩
  | eof => rw [hr] at h'; cases h'
  | err => rw [hr] at h'; cases h'
  | panic => exact Or.inl rfl

theorem bytes_no_panic (n : Nat) (bs : Bytes) : Rd.bytes n bs ≠ .panic := by
  unfold Rd.bytes; split <;> simp

theorem uint_no_panic (n : Nat) (bs : Bytes) : Rd.uint n bs ≠ .panic := by
  intro h
  rcases bind_panic (r := Rd.bytes n) (f := fun bs => Rd.pure (Rd.beVal bs)) h with h | ⟨_, _, _, h⟩
  · exact bytes_no_panic _ _ h
  · cases h

theorem bind_uint_panic {β : Type} {k : Nat} {f : Nat → Rd β} {bs : Bytes}
    (h : (Rd.uint k >>= f) bs = .panic) : ∃ a mid, Rd.uint k bs = .ok a mid ∧ f a mid = .panic := by
  rcases bind_panic h with h | h
  · exact absurd h (uint_no_panic _ _)
  · exact h

theorem bind_bytes_panic {β : Type} {k : Nat} {f : Bytes → Rd β} {bs : Bytes}
    (h : (Rd.bytes k >>= f) bs = .panic) : ∃ a mid, Rd.bytes k bs = .ok a mid ∧ f a mid = .panic := by
  rcases bind_panic h with h | h
  · exact absurd h (bytes_no_panic _ _)
  · exact h

/-- A panic can only come from an `XFER_SEGMENT` message. -/
theorem read_panic {bs : Bytes} (h : readPacket bs = .panic) :
    ∃ rest, bs = 1 :: rest ∧ readXferSeg rest = .panic := by
  unfold readPacket at h
  obtain ⟨m, b0, h0, h⟩ := bind_uint_panic h
  split at h
  · next hm =>
    subst hm
    unfold Rd.uint Rd.bind Rd.bytes at h0
    match bs with
    | [] => simp at h0
    | b :: t =>
      simp [Rd.pure, Rd.beVal] at h0
      obtain ⟨hb, rfl⟩ := h0
      have : b = 1 := UInt8.toNat_inj.mp (by simpa using hb)
      exact ⟨t, by rw [this], h⟩
  exfalso
  split at h
  · obtain ⟨_, _, _, h⟩ := bind_uint_panic h
    obtain ⟨_, _, _, h⟩ := bind_uint_panic h
    obtain ⟨_, _, _, h⟩ := bind_uint_panic h
    cases h
  split at h
  · obtain ⟨c, _, _, h⟩ := bind_uint_panic h
    cases hc : RefuseReason.ofCode c with
    | some r =>
      rw [hc] at h
      obtain ⟨_, _, _, h⟩ := bind_uint_panic h
      cases h
    | none => rw [hc] at h; cases h
  split at h
  · cases h
  split at h
  · obtain ⟨_, _, _, h⟩ := bind_uint_panic h
    obtain ⟨c, _, _, h⟩ := bind_uint_panic h
    cases hc : TermReason.ofCode c with
    | some r => rw [hc] at h; cases h
    | none => rw [hc] at h; cases h
  split at h
  · obtain ⟨c, _, _, h⟩ := bind_uint_panic h
    obtain ⟨_, _, _, h⟩ := bind_uint_panic h
    cases hc : RejectReason.ofCode c with
    | some r => rw [hc] at h; cases h
    | none => rw [hc] at h; cases h
  split at h
  · unfold readSessInit at h
    obtain ⟨_, _, _, h⟩ := bind_uint_panic h
    obtain ⟨_, _, _, h⟩ := bind_uint_panic h
    obtain ⟨_, _, _, h⟩ := bind_uint_panic h
    obtain ⟨_, _, _, h⟩ := bind_uint_panic h
    obtain ⟨_, _, _, h⟩ := bind_bytes_panic h
    obtain ⟨_, _, _, h⟩ := bind_uint_panic h
    split at h <;> cases h
  split at h
  · unfold readContactInStream at h
    obtain ⟨_, _, _, h⟩ := bind_bytes_panic h
    split at h
    · cases h
    split at h <;> cases h
  · cases h

end Dtn.Tcpcl
