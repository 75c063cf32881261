import Verif.Model.Mtcp
import Verif.Spec.Mtcp
/-! Lemmas about MTCP framing. -/

namespace Dtn.Mtcp
open Dtn Dtn.Spec

set_option maxRecDepth 10000 in
theorem parseFirst_spec : ∀ b : UInt8, parseFirst b =
    if b.toNat / 32 ≠ 2 then .not
    else if b.toNat % 32 < 24 then .len (UInt8.ofNat (b.toNat % 32))
    else if b.toNat % 32 = 24 then .u8
    else if b.toNat % 32 = 25 then .u16
    else if b.toNat % 32 = 26 then .u32
    else if b.toNat % 32 = 27 then .u64
    else .not := by
  intro b
  have h : ∀ n : Fin 256, parseFirst (UInt8.ofNat n.val) =
    if n.val / 32 ≠ 2 then .not
    else if n.val % 32 < 24 then .len (UInt8.ofNat (n.val % 32))
    else if n.val % 32 = 24 then .u8
    else if n.val % 32 = 25 then .u16
    else if n.val % 32 = 26 then .u32
    else if n.val % 32 = 27 then .u64
    else .not := by decide
  have := h ⟨b.toNat, b.toNat_lt⟩
  simpa using this

theorem length1 {α} {l : List α} (h : l.length = 1) : ∃ a, l = [a] := by
  match l, h with
  | [a], _ => exact ⟨a, rfl⟩

theorem length2 {α} {l : List α} (h : l.length = 2) : ∃ a b, l = [a, b] := by
  match l, h with
  | [a, b], _ => exact ⟨a, b, rfl⟩

theorem length4 {α} {l : List α} (h : l.length = 4) : ∃ a b c d, l = [a, b, c, d] := by
  match l, h with
  | [a, b, c, d], _ => exact ⟨a, b, c, d, rfl⟩

theorem length8 {α} {l : List α} (h : l.length = 8) :
    ∃ a b c d e f g i, l = [a, b, c, d, e, f, g, i] := by
  match l, h with
  | [a, b, c, d, e, f, g, i], _ => exact ⟨a, b, c, d, e, f, g, i, rfl⟩

theorem head_length {hdr : Bytes} {n : Nat} (h : IsByteStringHead hdr n) :
    1 ≤ hdr.length ∧ hdr.length ≤ 9 := by
  obtain ⟨b, ext, rfl, _, h | h | h | h | h⟩ := h <;> simp [h]

theorem head_parse {hdr : Bytes} {n : Nat} (h : IsByteStringHead hdr n) (x : Bytes) :
    ∃ b, (hdr ++ x)[0]? = some b ∧ hdrLen b = hdr.length ∧ parseLen (hdr ++ x) = some n := by
  obtain ⟨b, ext, rfl, hb, h⟩ := h
  refine ⟨b, rfl, ?_⟩
  rcases h with ⟨h1, rfl, rfl⟩ | ⟨h1, h2, rfl⟩ | ⟨h1, h2, rfl⟩ | ⟨h1, h2, rfl⟩ | ⟨h1, h2, rfl⟩
  · have : parseFirst b = .len (UInt8.ofNat (b.toNat % 32)) := by
      rw [parseFirst_spec]; simp [hb, h1]
    simp [hdrLen, parseLen, this]
    omega
  · obtain ⟨a, rfl⟩ := length1 h2
    have : parseFirst b = .u8 := by rw [parseFirst_spec]; simp [hb, h1]
    simp [hdrLen, parseLen, this, at?, beValue]
  · obtain ⟨a, c, rfl⟩ := length2 h2
    have : parseFirst b = .u16 := by rw [parseFirst_spec]; simp [hb, h1]
    simp [hdrLen, parseLen, this, at?, beValue, Nat.shiftLeft_eq]; omega
  · obtain ⟨a, c, d, e, rfl⟩ := length4 h2
    have : parseFirst b = .u32 := by rw [parseFirst_spec]; simp [hb, h1]
    simp [hdrLen, parseLen, this, at?, beValue, Nat.shiftLeft_eq]; omega
  · obtain ⟨a, c, d, e, f, g, i, j, rfl⟩ := length8 h2
    have : parseFirst b = .u64 := by rw [parseFirst_spec]; simp [hb, h1]
    simp [hdrLen, parseLen, this, at?, beValue, Nat.shiftLeft_eq]; omega

theorem head_exists {b : UInt8} {t : Bytes} (hl : 9 ≤ t.length) (h : hdrLen b ≠ 0) :
    ∃ hdr n body, b :: t = hdr ++ body ∧ IsByteStringHead hdr n := by
  have hs := parseFirst_spec b
  by_cases hb : b.toNat / 32 = 2
  · simp [hb] at hs
    by_cases h1 : b.toNat % 32 < 24
    · exact ⟨[b], _, t, rfl, b, [], rfl, hb, Or.inl ⟨h1, rfl, rfl⟩⟩
    · have key : ∀ k, k ≤ 9 → b :: t = (b :: t.take k) ++ t.drop k := by
        intro k _; simp
      by_cases h2 : b.toNat % 32 = 24
      · exact ⟨_, _, _, key 1 (by omega), b, _, rfl, hb,
          Or.inr (Or.inl ⟨h2, by simp; omega, rfl⟩)⟩
      · by_cases h3 : b.toNat % 32 = 25
        · exact ⟨_, _, _, key 2 (by omega), b, _, rfl, hb,
            Or.inr (Or.inr (Or.inl ⟨h3, by simp; omega, rfl⟩))⟩
        · by_cases h4 : b.toNat % 32 = 26
          · exact ⟨_, _, _, key 4 (by omega), b, _, rfl, hb,
              Or.inr (Or.inr (Or.inr (Or.inl ⟨h4, by simp; omega, rfl⟩)))⟩
          · by_cases h5 : b.toNat % 32 = 27
            · exact ⟨_, _, _, key 8 (by omega), b, _, rfl, hb,
                Or.inr (Or.inr (Or.inr (Or.inr ⟨h5, by simp; omega, rfl⟩)))⟩
            · simp [h1, h2, h3, h4, h5] at hs
              simp [hdrLen, hs] at h
  · simp [hb] at hs
    simp [hdrLen, hs] at h

/-- The last byte of a byte-string head announcing no data is not the break code. -/
theorem head_zero_last {hdr : Bytes} (h : IsByteStringHead hdr 0) : hdr.getLast? ≠ some 0xff := by
  obtain ⟨b, ext, rfl, hb, h⟩ := h
  intro hl
  rcases h with ⟨h1, rfl, _⟩ | ⟨h1, h2, h0⟩ | ⟨h1, h2, h0⟩ | ⟨h1, h2, h0⟩ | ⟨h1, h2, h0⟩
  · simp at hl; subst hl; simp at hb
  · obtain ⟨a, rfl⟩ := length1 h2
    simp at hl; subst hl; simp [beValue] at h0
  · obtain ⟨a, c, rfl⟩ := length2 h2
    simp at hl; subst hl; simp [beValue] at h0
  · obtain ⟨a, c, d, e, rfl⟩ := length4 h2
    simp at hl; subst hl; simp [beValue] at h0
  · obtain ⟨a, c, d, e, f, g, i, j, rfl⟩ := length8 h2
    simp at hl; subst hl; simp [beValue] at h0

theorem getLast?_eq_getElem? {α} (l : List α) : l.getLast? = l[l.length - 1]? :=
  List.getLast?_eq_getElem? ..

/-- What `decode` does once the head is known. -/
theorem decode_head {hdr body : Bytes} {n : Nat} (h : IsByteStringHead hdr n)
    (hl : 10 ≤ (hdr ++ body).length) :
    decode (hdr ++ body) =
      if 2 ^ 64 ≤ hdr.length + n then .err
      else if n ≤ body.length then
        if (body.take n).getLast? = some 0xff then .frame (body.take n) (body.drop n) else .err
      else .more := by
  obtain ⟨b, hb, hh, _⟩ := head_parse h body
  have hlen := head_length h
  have hp : parseLen ((hdr ++ body).take 10) = some n := by
    have : (hdr ++ body).take 10 = hdr ++ body.take (10 - hdr.length) := by
      rw [List.take_append, List.take_of_length_le (by omega)]
    rw [this]
    obtain ⟨_, _, _, hp⟩ := head_parse h (body.take (10 - hdr.length))
    exact hp
  unfold decode
  rw [if_neg (by omega), hb]
  simp only
  rw [hp]
  simp only
  rw [if_neg (by omega), hh]
  by_cases hov : 2 ^ 64 ≤ hdr.length + n
  · simp [hov]
  rw [if_neg hov, if_neg hov, if_neg (by omega)]
  by_cases hn : n ≤ body.length
  · rw [if_pos hn, if_pos (by simp; omega)]
    have htake : (hdr ++ body).take (hdr.length + n - 1 + 1) = hdr ++ body.take n := by
      rw [Nat.sub_add_cancel (by omega), List.take_length_add_append]
    have hdrop : (hdr ++ body).drop (hdr.length + n - 1 + 1) = body.drop n := by
      rw [Nat.sub_add_cancel (by omega), List.drop_length_add_append]
    rw [htake, hdrop]
    have hfs : fromSlice (hdr ++ body.take n) = some (body.take n) := by
      obtain ⟨b', hb', hh', hp'⟩ := head_parse h (body.take n)
      cases hc : hdr ++ body.take n with
      | nil => rw [hc] at hb'; simp at hb'
      | cons c cs =>
        have hcb : c = b' := by rw [hc] at hb'; simpa using hb'
        subst hcb
        simp only [fromSlice]
        rw [← hc, hp']
        simp only
        rw [if_pos]
        · rw [hh', List.drop_left]
        · rw [hh']; refine ⟨by omega, ?_⟩
          simp; omega
    have hlast : (hdr ++ body)[hdr.length + n - 1]? = (hdr ++ body.take n).getLast? := by
      rw [getLast?_eq_getElem?, ← htake, List.getElem?_take_of_lt]
      · congr 1; rw [htake]; simp; omega
      · rw [htake]; simp; omega
    rw [hlast, hfs]
    by_cases h0 : n = 0
    · subst h0
      have := head_zero_last h
      simp only [List.take_zero, List.append_nil, List.getLast?_nil]
      cases hg : hdr.getLast? with
      | none => simp at hg; simp [hg] at hlen
      | some t =>
        rw [hg] at this
        simp at this
        simp [this]
    · have hne : (body.take n) ≠ [] := by
        intro hc
        have := congrArg List.length hc
        rw [List.length_take, List.length_nil] at this; omega
      rw [List.getLast?_append]
      cases hg : (body.take n).getLast? with
      | none => rw [List.getLast?_eq_none_iff] at hg; exact absurd hg hne
      | some t =>
        simp
  · rw [if_neg hn, if_neg (by simp; omega)]

theorem decode_short {buf : Bytes} (h : buf.length < 10) : decode buf = .more := by
  unfold decode; rw [if_pos h]

/-- Every buffer of at least ten bytes either starts with a byte-string head or is rejected. -/
theorem decode_cases (buf : Bytes) (h : 10 ≤ buf.length) :
    (∃ hdr n body, buf = hdr ++ body ∧ IsByteStringHead hdr n) ∨
    (∀ x, decode (buf ++ x) = .err) := by
  match buf, h with
  | b :: t, h =>
    by_cases hb : hdrLen b = 0
    · right; intro x
      unfold decode
      rw [if_neg (by simp at *; omega)]
      simp [hb]
    · left
      exact head_exists (by simp at h; omega) hb

theorem beBytes_length (k n : Nat) : (beBytes k n).length = k := by
  induction k with
  | zero => rfl
  | succ k ih => simp [beBytes, ih]

theorem header_isHead {n : Nat} (h : n < 2 ^ 64) : IsByteStringHead (header n) n := by
  unfold header
  split
  · next h1 =>
    have : (UInt8.ofNat (64 + n)).toNat = 64 + n := by simp; omega
    exact ⟨_, [], rfl, by rw [this]; omega, Or.inl ⟨by rw [this]; omega, rfl, by rw [this]; omega⟩⟩
  split
  · next h1 h2 =>
    refine ⟨_, _, rfl, by decide, Or.inr (Or.inl ⟨by decide, rfl, ?_⟩)⟩
    simp [beBytes, beValue]; omega
  split
  · next h1 h2 h3 =>
    refine ⟨_, _, rfl, by decide, Or.inr (Or.inr (Or.inl ⟨by decide, rfl, ?_⟩))⟩
    simp [beBytes, beValue, Nat.shiftRight_eq_div_pow]; omega
  split
  · next h1 h2 h3 h4 =>
    refine ⟨_, _, rfl, by decide, Or.inr (Or.inr (Or.inr (Or.inl ⟨by decide, rfl, ?_⟩)))⟩
    simp [beBytes, beValue, Nat.shiftRight_eq_div_pow]; omega
  · next h1 h2 h3 h4 =>
    refine ⟨_, _, rfl, by decide, Or.inr (Or.inr (Or.inr (Or.inr ⟨by decide, rfl, ?_⟩)))⟩
    simp [beBytes, beValue, Nat.shiftRight_eq_div_pow]; omega

/-! ### Streams -/

theorem decode_frame_shape {buf d rest : Bytes} (h : decode buf = .frame d rest) :
    ∃ hdr, buf = hdr ++ d ++ rest ∧ IsByteStringHead hdr d.length ∧ d.getLast? = some 0xff := by
  by_cases hl : buf.length < 10
  · rw [decode_short hl] at h; cases h
  rcases decode_cases buf (by omega) with ⟨hdr, n, body, rfl, hh⟩ | he
  · rw [decode_head hh (by omega)] at h
    split at h
    · cases h
    split at h
    · next hn =>
      split at h
      · next hg =>
        cases h
        refine ⟨hdr, by simp, ?_, hg⟩
        simpa [Nat.min_eq_left hn] using hh
      · cases h
    · cases h
  · have := he []
    rw [List.append_nil, h] at this; cases this

theorem decode_frame_append {buf d rest : Bytes} (h : decode buf = .frame d rest) (x : Bytes) :
    decode (buf ++ x) = .frame d (rest ++ x) := by
  by_cases hl : buf.length < 10
  · rw [decode_short hl] at h; cases h
  rcases decode_cases buf (by omega) with ⟨hdr, n, body, rfl, hh⟩ | he
  · rw [decode_head hh (by omega)] at h
    rw [List.append_assoc, decode_head hh (by simp at *; omega)]
    split at h
    · cases h
    split at h
    · next h1 hn =>
      rw [if_neg h1, if_pos (by simp; omega), List.take_append_of_le_length hn,
        List.drop_append_of_le_length hn]
      split at h
      · next hg => cases h; rw [if_pos hg]
      · cases h
    · cases h
  · have := he []
    rw [List.append_nil, h] at this; cases this

theorem decode_err_append {buf : Bytes} (h : decode buf = .err) (x : Bytes) :
    decode (buf ++ x) = .err := by
  by_cases hl : buf.length < 10
  · rw [decode_short hl] at h; cases h
  rcases decode_cases buf (by omega) with ⟨hdr, n, body, rfl, hh⟩ | he
  · rw [decode_head hh (by omega)] at h
    rw [List.append_assoc, decode_head hh (by simp at *; omega)]
    split at h
    · next h1 => rw [if_pos h1]
    split at h
    · next h1 hn =>
      rw [if_neg h1, if_pos (by simp; omega), List.take_append_of_le_length hn]
      split at h
      · cases h
      · next hg => rw [if_neg hg]
    · cases h
  · exact he x

theorem decode_ne_panic (buf : Bytes) : decode buf ≠ .panic := by
  by_cases hl : buf.length < 10
  · rw [decode_short hl]; simp
  rcases decode_cases buf (by omega) with ⟨hdr, n, body, rfl, hh⟩ | he
  · rw [decode_head hh (by omega)]
    split <;> try simp
    split <;> try simp
    split <;> simp
  · have := he []
    rw [List.append_nil] at this; rw [this]; simp

theorem decode_frame_lt {buf d rest : Bytes} (h : decode buf = .frame d rest) :
    rest.length < buf.length := by
  obtain ⟨hdr, rfl, hh, _⟩ := decode_frame_shape h
  have := head_length hh
  simp; omega

theorem drain_failed (k : Nat) (r : Rx) (h : r.failed = true) : drain k r = r := by
  cases k <;> simp [drain, h]

/-- More fuel than bytes changes nothing. -/
theorem drain_fuel (k : Nat) : ∀ (r : Rx), r.buf.length ≤ k → ∀ k', r.buf.length ≤ k' →
    drain k r = drain k' r := by
  induction k with
  | zero =>
    intro r h k' h'
    cases k' with
    | zero => rfl
    | succ k' =>
      have hb : r.buf = [] := List.length_eq_zero_iff.mp (by omega)
      simp [drain, hb, decode]
  | succ k ih =>
    intro r h k' h'
    cases k' with
    | zero =>
      have hb : r.buf = [] := List.length_eq_zero_iff.mp (by omega)
      simp [drain, hb, decode]
    | succ k' =>
      simp only [drain]
      split
      · rfl
      · cases hd : decode r.buf with
        | frame d rest =>
          have := decode_frame_lt hd
          exact ih _ (by simp; omega) _ (by simp; omega)
        | _ => rfl

/-- Take all frames of a buffer. -/
def flush (r : Rx) : Rx := drain r.buf.length r

theorem flush_unfold (r : Rx) (hf : r.failed = false) : flush r =
    match decode r.buf with
    | .more => r
    | .frame d rest => flush { r with buf := rest, frames := r.frames ++ [d] }
    | .err => { r with failed := true }
    | .panic => { r with failed := true } := by
  unfold flush
  cases hb : r.buf with
  | nil => simp [drain, decode]
  | cons c t =>
    simp only [List.length_cons, drain, hf]
    rw [hb]
    cases hd : decode (c :: t) with
    | frame d rest =>
      have := decode_frame_lt hd
      simp only [List.length_cons] at this
      exact drain_fuel _ _ (by simp; omega) _ (by simp)
    | _ => rfl

/-- The observable part of a receiver: frames, failure, and the undecoded bytes unless it failed. -/
def view (r : Rx) : List Bytes × Bool × Bytes :=
  (r.frames, r.failed, if r.failed then [] else r.buf)

theorem flush_append (k : Nat) : ∀ (r : Rx), r.buf.length ≤ k → r.failed = false → ∀ x : Bytes,
    view (flush { r with buf := r.buf ++ x }) =
      (let r1 := flush r; if r1.failed then view r1 else view (flush { r1 with buf := r1.buf ++ x })) := by
  induction k with
  | zero =>
    intro r h hf x
    have hb : r.buf = [] := List.length_eq_zero_iff.mp (by omega)
    have : flush r = r := by rw [flush_unfold r hf, hb]; simp [decode]
    rw [this]; simp [hf]
  | succ k ih =>
    intro r h hf x
    rw [flush_unfold r hf]
    cases hd : decode r.buf with
    | more => simp [hf]
    | panic => exact absurd hd (decode_ne_panic _)
    | err =>
      rw [flush_unfold _ (by simpa using hf)]
      simp [decode_err_append hd, view]
    | frame d rest =>
      rw [flush_unfold _ (by simpa using hf)]
      simp only [decode_frame_append hd]
      have hlt := decode_frame_lt hd
      exact ih { r with buf := rest, frames := r.frames ++ [d] } (by simp; omega) hf x

theorem flush_buf_done (k : Nat) : ∀ r : Rx, r.buf.length ≤ k → (flush r).failed = false →
    r.failed = false → decode (flush r).buf = .more := by
  induction k with
  | zero =>
    intro r h _ hf
    have hb : r.buf = [] := List.length_eq_zero_iff.mp (by omega)
    rw [flush_unfold r hf, hb]; simp [decode, hb]
  | succ k ih =>
    intro r h hff hf
    rw [flush_unfold r hf] at hff ⊢
    cases hd : decode r.buf with
    | more => simp [hd]
    | panic => exact absurd hd (decode_ne_panic _)
    | err => simp [hd] at hff
    | frame d rest =>
      simp only [hd] at hff ⊢
      have hlt := decode_frame_lt hd
      exact ih _ (by simp; omega) hff hf

theorem feed_eq (r : Rx) (x : Bytes) :
    feed r x = if r.failed then r else flush { r with buf := r.buf ++ x } := by
  unfold feed flush; rfl

theorem foldl_feed_failed (cs : List Bytes) : ∀ r : Rx, r.failed = true → cs.foldl feed r = r := by
  induction cs with
  | nil => intro r _; rfl
  | cons c cs ih => intro r h; rw [List.foldl_cons, feed_eq, if_pos h]; exact ih r h

theorem foldl_feed_view (cs : List Bytes) : ∀ r : Rx, r.failed = false →
    view (cs.foldl feed (flush r)) = view (flush { r with buf := r.buf ++ cs.flatten }) := by
  induction cs with
  | nil =>
    intro r hf
    simp
  | cons c cs ih =>
    intro r hf
    rw [List.foldl_cons, feed_eq]
    by_cases h1 : (flush r).failed = true
    · rw [if_pos h1, foldl_feed_failed cs _ h1, flush_append _ r (Nat.le_refl _) hf]
      simp [h1]
    · rw [if_neg h1]
      have := (ih { flush r with buf := (flush r).buf ++ c } (by simpa using h1))
      rw [this, flush_append _ r (Nat.le_refl _) hf]
      simp [h1]

theorem receive_view (cs : List Bytes) :
    view (receive cs) = view (flush { buf := cs.flatten }) := by
  have := foldl_feed_view cs {} rfl
  have h0 : flush {} = {} := by rw [flush_unfold _ rfl]; simp [decode]
  rw [h0] at this
  simpa [receive] using this

end Dtn.Mtcp

namespace Dtn.Mtcp
open Dtn Dtn.Spec

theorem decode_encode {d : Bytes} (h : BundleBytes d) (rest : Bytes) :
    decode (encode d ++ rest) = .frame d rest := by
  obtain ⟨h9, hff, hlt⟩ := h
  have hh := header_isHead (n := d.length) (by omega)
  have hlen := head_length hh
  unfold encode
  rw [List.append_assoc, decode_head hh (by simp; omega), if_neg (by omega), if_pos (by simp)]
  simp [hff]

theorem sendBuffer_eq (ds : List Bytes) : sendBuffer ds = (ds.map encode).flatten := by
  have h : ∀ (ds : List Bytes) (acc : Bytes),
      ds.foldl (fun buf b => buf ++ encode b) acc = acc ++ (ds.map encode).flatten := by
    intro ds
    induction ds with
    | nil => intro acc; simp
    | cons d ds ih => intro acc; simp [ih]
  have := h ds []
  rw [List.nil_append] at this
  exact this

theorem flush_frames (ds : List Bytes) : ∀ (r : Rx) (p : Bytes), r.failed = false →
    (∀ d ∈ ds, BundleBytes d) → r.buf = (ds.map encode).flatten ++ p → decode p = .more →
    flush r = { r with buf := p, frames := r.frames ++ ds } := by
  induction ds with
  | nil =>
    intro r p hf _ hb hp
    rw [flush_unfold r hf]
    simp at hb
    rw [hb, hp]; cases r; simp_all
  | cons d ds ih =>
    intro r p hf hds hb hp
    rw [flush_unfold r hf, hb]
    simp only [List.map_cons, List.flatten_cons, List.append_assoc]
    rw [decode_encode (hds d (by simp))]
    simp only
    have := ih { r with buf := (ds.map encode).flatten ++ p, frames := r.frames ++ [d] } p hf
      (fun d' h' => hds d' (by simp [h'])) rfl hp
    rw [this]
    simp

theorem decode_proper_prefix {d p q : Bytes} (h : BundleBytes d) (he : encode d = p ++ q)
    (hq : q ≠ []) : decode p = .more := by
  have hd := decode_encode h []
  rw [List.append_nil, he] at hd
  cases hp : decode p with
  | more => rfl
  | panic => exact absurd hp (decode_ne_panic _)
  | err => rw [decode_err_append hp q] at hd; cases hd
  | frame d' rest =>
    rw [decode_frame_append hp q] at hd
    injection hd with _ h2
    simp at h2
    exact absurd h2.2 hq

end Dtn.Mtcp
