import Verif.Spec.EclaFrames
import Verif.Lemmas.Reader
/-! Lemmas about external convergence layer framing and base64. -/

namespace Dtn.EclaFrames
open Spec.EclaFrames

/-! ### Frames -/

theorem decode_nil : decode [] = .more := rfl

theorem decode_frame_inv {buf p rest} (h : decode buf = .frame p rest) :
    4 ≤ buf.length ∧ Rd.beVal (buf.take 4) ≤ maxFrame ∧ 4 + Rd.beVal (buf.take 4) ≤ buf.length ∧
    p = (buf.drop 4).take (Rd.beVal (buf.take 4)) ∧ rest = buf.drop (4 + Rd.beVal (buf.take 4)) := by
  unfold decode at h
  dsimp only at h
  split at h
  · cases h
  · split at h
    · cases h
    · split at h
      · cases h
      · cases h
        exact ⟨by omega, by omega, by omega, rfl, rfl⟩

theorem decode_frame_append {buf p rest} (h : decode buf = .frame p rest) (x : Bytes) :
    decode (buf ++ x) = .frame p (rest ++ x) := by
  obtain ⟨h4, hm, hl, hp, hr⟩ := decode_frame_inv h
  have ht : (buf ++ x).take 4 = buf.take 4 := List.take_append_of_le_length h4
  unfold decode
  dsimp only
  rw [if_neg (by simp; omega), ht, if_neg (by omega), if_neg (by simp; omega), hp, hr]
  congr 1
  · rw [List.drop_append_of_le_length h4, List.take_append_of_le_length (by simp; omega)]
  · rw [List.drop_append_of_le_length hl]

theorem decode_err_append {buf} (h : decode buf = .err) (x : Bytes) : decode (buf ++ x) = .err := by
  unfold decode at h ⊢
  dsimp only at h ⊢
  split at h
  · cases h
  · rename_i h4
    have ht : (buf ++ x).take 4 = buf.take 4 := List.take_append_of_le_length (by omega)
    rw [if_neg (by simp; omega), ht]
    split at h
    · rename_i hm; rw [if_pos hm]
    · split at h <;> cases h

theorem decode_frame_lt {buf p rest} (h : decode buf = .frame p rest) : rest.length < buf.length := by
  obtain ⟨h4, -, -, -, hr⟩ := decode_frame_inv h
  rw [hr]; simp; omega

theorem drain_fuel (k : Nat) : ∀ (r : Rx), r.buf.length ≤ k → ∀ k', r.buf.length ≤ k' → drain k r = drain k' r := by
  induction k with
  | zero =>
    intro r h k' h'
    cases k' with
    | zero => rfl
    | succ k' =>
      have hb : r.buf = [] := List.length_eq_zero_iff.mp (by omega)
      simp [drain, hb, decode_nil]
  | succ k ih =>
    intro r h k' h'
    cases k' with
    | zero =>
      have hb : r.buf = [] := List.length_eq_zero_iff.mp (by omega)
      simp [drain, hb, decode_nil]
    | succ k' =>
      simp only [drain]
      cases hd : decode r.buf with
      | frame d rest =>
        have := decode_frame_lt hd
        exact ih _ (by simp; omega) _ (by simp; omega)
      | more => rfl
      | err => rfl

/-- Take all frames of a buffer. -/
def flush (r : Rx) : Rx := drain r.buf.length r

theorem flush_unfold (r : Rx) : flush r =
    match decode r.buf with
    | .more => r
    | .frame p rest => flush { r with buf := rest, packets := r.packets ++ [p] }
    | .err => { r with failed := true } := by
  unfold flush
  cases hb : r.buf with
  | nil => simp [drain, decode_nil]
  | cons c t =>
    simp only [List.length_cons, drain]
    rw [hb]
    cases hd : decode (c :: t) with
    | frame d rest =>
      have := decode_frame_lt hd
      simp only [List.length_cons] at this
      exact drain_fuel _ _ (by simp; omega) _ (by simp)
    | more => rfl
    | err => rfl

/-- The observable part of a receiver. -/
def view (r : Rx) : List Bytes × Bool × Bytes := (r.packets, r.failed, if r.failed then [] else r.buf)

theorem flush_append (k : Nat) : ∀ (r : Rx), r.buf.length ≤ k → r.failed = false → ∀ x : Bytes,
    view (flush { r with buf := r.buf ++ x }) =
      (let r1 := flush r; if r1.failed then view r1 else view (flush { r1 with buf := r1.buf ++ x })) := by
  induction k with
  | zero =>
    intro r h hf x
    have hb : r.buf = [] := List.length_eq_zero_iff.mp (by omega)
    have : flush r = r := by rw [flush_unfold r, hb]; simp [decode_nil]
    rw [this]; simp [hf]
  | succ k ih =>
    intro r h hf x
    rw [flush_unfold r]
    cases hd : decode r.buf with
    | more => simp [hf]
    | err =>
      rw [flush_unfold]
      simp [decode_err_append hd, view]
    | frame d rest =>
      rw [flush_unfold]
      simp only [decode_frame_append hd]
      have hlt := decode_frame_lt hd
      exact ih { r with buf := rest, packets := r.packets ++ [d] } (by simp; omega) hf x

theorem flush_idem (k : Nat) : ∀ r : Rx, r.buf.length ≤ k → r.failed = false → (flush r).failed = false →
    flush (flush r) = flush r := by
  induction k with
  | zero =>
    intro r h _ _
    have hb : r.buf = [] := List.length_eq_zero_iff.mp (by omega)
    have : flush r = r := by rw [flush_unfold r, hb]; simp [decode_nil]
    rw [this, this]
  | succ k ih =>
    intro r h hf hff
    cases hd : decode r.buf with
    | more =>
      have : flush r = r := by rw [flush_unfold r, hd]
      rw [this, this]
    | err =>
      have : flush r = { r with failed := true } := by rw [flush_unfold r, hd]
      rw [this] at hff; cases hff
    | frame d rest =>
      have : flush r = flush { r with buf := rest, packets := r.packets ++ [d] } := by rw [flush_unfold r, hd]
      have hlt := decode_frame_lt hd
      rw [this] at hff ⊢
      exact ih _ (by simp; omega) hf hff

theorem view_feed (r : Rx) (hf : r.failed = false) (x : Bytes) :
    view (feed (flush r) x) = view (flush { r with buf := r.buf ++ x }) := by
  rw [flush_append _ r (Nat.le_refl _) hf x]
  dsimp only
  unfold feed
  split
  · rfl
  · rfl

theorem view_failed {r s : Rx} (h : view r = view s) (hf : r.failed = true) (x : Bytes) : view (feed r x) = view (feed s x) := by
  have hs : s.failed = true := by
    simp only [view, Prod.mk.injEq] at h; rw [← h.2.1]; exact hf
  simp only [feed, hf, hs, if_true]
  exact h

theorem view_feed_congr {r s : Rx} (h : view r = view s) (x : Bytes) : view (feed r x) = view (feed s x) := by
  cases hf : r.failed with
  | true => exact view_failed h hf x
  | false =>
    have hs : s.failed = false := by
      simp only [view, Prod.mk.injEq] at h; rw [← h.2.1]; exact hf
    simp only [view, hf, hs, Prod.mk.injEq] at h
    have : r = s := by
      cases r; cases s
      simp_all
    rw [this]

theorem receive_view (cs : List Bytes) : view (receive cs) = view (flush { buf := cs.flatten }) := by
  have key : ∀ (cs : List Bytes) (r s : Rx) (b : Bytes), s.failed = false → view r = view (flush { s with buf := b }) →
      view (cs.foldl feed r) = view (flush { s with buf := b ++ cs.flatten }) := by
    intro cs
    induction cs with
    | nil => intro r s b _ h; simpa using h
    | cons c cs ih =>
      intro r s b hs h
      simp only [List.foldl_cons, List.flatten_cons]
      rw [← List.append_assoc]
      refine ih (feed r c) s (b ++ c) hs ?_
      rw [view_feed_congr h c]
      exact view_feed { s with buf := b } hs c
  have := key cs {} {} [] rfl (by simp [flush, drain])
  simpa [receive] using this

theorem decode_frame {p : Bytes} (h : p.length ≤ maxFrame) (rest : Bytes) : decode (frame p ++ rest) = .frame p rest := by
  have hl := putUint_length 4 p.length
  have hv : Rd.beVal (putUint 4 p.length) = p.length := beVal_putUint_of_lt (by unfold maxFrame at h; omega)
  have ht : (frame p ++ rest).take 4 = putUint 4 p.length := by
    unfold frame
    rw [List.append_assoc, List.take_append_of_le_length (by omega), List.take_of_length_le (by omega)]
  unfold decode
  dsimp only
  rw [ht, hv, if_neg (by simp [frame]), if_neg (by omega), if_neg (by simp [frame, hl])]
  congr 1
  · unfold frame
    rw [List.append_assoc, List.drop_append_of_le_length (by omega), List.drop_of_length_le (by omega)]
    simp
  · unfold frame
    rw [List.drop_append_of_le_length (by simp [hl]), List.drop_of_length_le (by simp [hl])]
    simp

theorem decode_partial {p a b : Bytes} (h : p.length ≤ maxFrame) (hab : frame p = a ++ b) (hb : b ≠ []) :
    decode a = .more := by
  have hpos : 0 < b.length := List.length_pos_iff.mpr hb
  have hl := putUint_length 4 p.length
  have hv : Rd.beVal (putUint 4 p.length) = p.length := beVal_putUint_of_lt (by unfold maxFrame at h; omega)
  have hlen : 4 + p.length = a.length + b.length := by
    have := congrArg List.length hab
    simp [frame, hl] at this; omega
  unfold decode
  dsimp only
  split
  · rfl
  · rename_i h4
    have ht : a.take 4 = putUint 4 p.length := by
      have : (a ++ b).take 4 = a.take 4 := List.take_append_of_le_length (by omega)
      rw [← this, ← hab]
      unfold frame
      rw [List.take_append_of_le_length (by omega), List.take_of_length_le (by omega)]
    rw [ht, hv, if_neg (by omega), if_pos (by omega)]

theorem decode_large {p : Bytes} (h : maxFrame < p.length) (h32 : p.length < 2 ^ 32) (rest : Bytes) :
    decode (frame p ++ rest) = .err := by
  have hl := putUint_length 4 p.length
  have hv : Rd.beVal (putUint 4 p.length) = p.length := beVal_putUint_of_lt (by omega)
  have ht : (frame p ++ rest).take 4 = putUint 4 p.length := by
    unfold frame
    rw [List.append_assoc, List.take_append_of_le_length (by omega), List.take_of_length_le (by omega)]
  unfold decode
  dsimp only
  rw [ht, hv, if_neg (by simp [frame]), if_pos h]

theorem flush_stream (ps : List Bytes) (r : Rx) (t : Bytes) (h : ∀ p ∈ ps, p.length ≤ maxFrame)
    (hb : r.buf = stream ps ++ t) : flush r = flush { r with buf := t, packets := r.packets ++ ps } := by
  induction ps generalizing r with
  | nil =>
    simp only [stream, List.map_nil, List.flatten_nil, List.nil_append] at hb
    simp [← hb]
  | cons p ps ih =>
    have hb' : r.buf = frame p ++ (stream ps ++ t) := by
      rw [hb]; simp [stream]
    rw [flush_unfold r, hb', decode_frame (h p (by simp))]
    dsimp only
    rw [ih { r with buf := stream ps ++ t, packets := r.packets ++ [p] } (fun q hq => h q (by simp [hq])) rfl]
    simp

/-! ### Base64 -/

set_option maxRecDepth 10000 in
theorem stands_char : ∀ n : Fin 64, Stands (char n.val) n.val := by unfold Stands; decide

set_option maxRecDepth 10000 in
theorem value_char' : ∀ n : Fin 64, value (char n.val) = some n.val ∧ char n.val ≠ '=' := by decide

theorem value_char {n : Nat} (h : n < 64) : value (char n) = some n := (value_char' ⟨n, h⟩).1
theorem char_ne {n : Nat} (h : n < 64) : char n ≠ '=' := (value_char' ⟨n, h⟩).2
theorem stands {n : Nat} (h : n < 64) : Stands (char n) n := stands_char ⟨n, h⟩

theorem encode64_encodes (d : Bytes) : Encodes d (encode64 d) := by
  induction d using encode64.induct with
  | case1 => exact .nil
  | case2 x =>
    have := x.toNat_lt
    exact .one (stands (by omega)) (stands (by omega)) (by omega)
  | case3 x y =>
    have := x.toNat_lt
    have := y.toNat_lt
    exact .two (stands (by omega)) (stands (by omega)) (stands (by omega)) (by omega)
  | case4 x y z r ih =>
    have := x.toNat_lt
    have := y.toNat_lt
    have := z.toNat_lt
    exact .three (stands (by omega)) (stands (by omega)) (stands (by omega)) (stands (by omega)) (by omega) ih

theorem ofNat_of_eq {x : UInt8} {n : Nat} (h : n = x.toNat) : UInt8.ofNat n = x := by
  rw [h]; simp

theorem decode64_encode64 (d : Bytes) : decode64 (encode64 d) = some d := by
  induction d using encode64.induct with
  | case1 => rfl
  | case2 x =>
    have := x.toNat_lt
    simp only [encode64, decode64, decodeLast, if_pos, and_self]
    rw [value_char (by omega), value_char (by omega)]
    dsimp only
    rw [if_pos (by omega), ofNat_of_eq (x := x) (by omega)]
  | case3 x y =>
    have := x.toNat_lt
    have := y.toNat_lt
    simp only [encode64, decode64, decodeLast]
    rw [if_neg (fun h => char_ne (by omega) h.1), if_pos trivial, value_char (by omega), value_char (by omega),
      value_char (by omega)]
    dsimp only
    rw [if_pos (by omega), ofNat_of_eq (x := x) (by omega), ofNat_of_eq (x := y) (by omega)]
  | case4 x y z r ih =>
    have := x.toNat_lt
    have := y.toNat_lt
    have := z.toNat_lt
    have e1 : UInt8.ofNat (x.toNat / 4 * 4 + (x.toNat % 4 * 16 + y.toNat / 16) / 16) = x := ofNat_of_eq (by omega)
    have e2 : UInt8.ofNat ((x.toNat % 4 * 16 + y.toNat / 16) % 16 * 16 + (y.toNat % 16 * 4 + z.toNat / 64) / 4) = y :=
      ofNat_of_eq (by omega)
    have e3 : UInt8.ofNat ((y.toNat % 16 * 4 + z.toNat / 64) % 4 * 64 + z.toNat % 64) = z := ofNat_of_eq (by omega)
    rw [encode64]
    cases hr : encode64 r with
    | nil =>
      have hr' : r = [] := by
        rw [hr] at ih
        exact (Option.some.inj ih).symm
      subst hr'
      simp only [decode64, decodeLast]
      rw [if_neg (fun h => char_ne (by omega) h.1), if_neg (fun h => char_ne (by omega) h), value_char (by omega),
        value_char (by omega), value_char (by omega), value_char (by omega)]
      dsimp only
      rw [e1, e2, e3]
    | cons a t =>
      rw [decode64]
      · rw [value_char (by omega), value_char (by omega), value_char (by omega), value_char (by omega)]
        dsimp only
        rw [← hr, ih, e1, e2, e3]
        rfl
      · intro h; cases h

end Dtn.EclaFrames
