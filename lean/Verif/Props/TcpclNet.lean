import Verif.Lemmas.TcpclNet
/-!
Properties C43, C44: TCPCL messages (`cla/tcp/net.rs`).
-/

namespace Dtn.Props
open Spec Tcpcl

/-! ## C43 -/

/-- C43: every well-formed message other than the contact header is read back unchanged, consuming exactly its
bytes, whatever follows. -/
theorem C43_tcpcl_round_trip (p : Packet) (rest : Bytes) (h : WellFormed p)
    (hc : ∀ t, p ≠ .contactHeader t) : readPacket (write p ++ rest) = .ok p rest :=
  read_write p rest h hc

/-- C43: the contact header is read back by the function that reads it when a connection is opened. -/
theorem C43_contact_header_round_trip (t : Bool) (rest : Bytes) :
    readContactHeader (write (.contactHeader t) ++ rest) = .ok t rest :=
  readContactHeader_write t rest

/-- Read up to `n` messages. -/
def readMany : Nat → Bytes → List Packet
  | 0, _ => []
  | n + 1, bs =>
    match readPacket bs with
    | .ok p rest => p :: readMany n rest
    | _ => []

/-- C43: a stream of any well-formed messages is read back message by message. -/
theorem C43_tcpcl_stream_round_trip (ps : List Packet) (rest : Bytes)
    (h : ∀ p ∈ ps, WellFormed p ∧ ∀ t, p ≠ .contactHeader t) :
    readMany ps.length ((ps.map write).flatten ++ rest) = ps := by
  induction ps with
  | nil => rfl
  | cons p ps ih =>
    simp only [List.length_cons, readMany, List.map_cons, List.flatten_cons, List.append_assoc]
    rw [read_write p _ (h p (by simp)).1 (h p (by simp)).2]
    simp only
    rw [ih fun p hp => h p (by simp [hp])]

/-- Two messages used as examples: a START segment with an extension item, and a session initialisation. -/
def exSeg : Packet := .xferSeg
  { flags := { «end» := true, start := true }, tid := 77, len := 3, buf := [1, 2, 3],
    extensions := [{ critical := true, data := [9, 9] }, { critical := false, data := [] }] }

/-- See `exSeg`. -/
def exInit : Packet := .sessInit { keepalive := 30, segmentMru := 64000, transferMru := 64000, nodeId := [100, 116, 110] }

example : (WellFormed exSeg ∧ ∀ t, exSeg ≠ .contactHeader t) ∧
    (WellFormed exInit ∧ ∀ t, exInit ≠ .contactHeader t) := by
  refine ⟨⟨?_, by intro t h; cases h⟩, ⟨?_, by intro t h; cases h⟩⟩
  · refine ⟨by decide, rfl, by decide, by decide, by decide, by decide⟩
  · exact ⟨by decide, by decide, by decide, by decide⟩

example : readPacket (write exSeg ++ write exInit) = .ok exSeg (write exInit) := by decide

/-- Finding beside C43: the branch of `read` for contact headers does not recognise any contact header, because
it compares the whole magic with the bytes after the first one. (Sessions do not use that branch.) -/
theorem C43_contact_header_in_stream_unreadable (t : Bool) (rest : Bytes) :
    readPacket (write (.contactHeader t) ++ rest) = .err ∨ readPacket (write (.contactHeader t) ++ rest) = .eof := by
  have hw : write (.contactHeader t) = [0x64, 0x74, 0x6e, 0x21, 4, UInt8.ofNat (bitOf t)] := by
    cases t <;> rfl
  rw [hw]
  unfold readPacket
  have h1 : Rd.uint 1 (([0x64, 0x74, 0x6e, 0x21, 4, UInt8.ofNat (bitOf t)] : Bytes) ++ rest) =
      .ok 0x64 ([0x74, 0x6e, 0x21, 4, UInt8.ofNat (bitOf t)] ++ rest) := by
    simp [Rd.uint, Rd.bind, Rd.bytes, Rd.pure, Rd.beVal]
  rw [Rd.bind_ok h1]
  simp only [Nat.reduceEqDiff, if_false, if_true]
  unfold readContactInStream
  cases rest with
  | nil => right; simp [Rd.bytes, Bind.bind, Rd.bind]
  | cons b rest =>
    left
    have h2 : Rd.bytes 6 (([0x74, 0x6e, 0x21, 4, UInt8.ofNat (bitOf t)] : Bytes) ++ b :: rest) =
      .ok [0x74, 0x6e, 0x21, 4, UInt8.ofNat (bitOf t), b] rest := by
      simp [Rd.bytes]
    rw [Rd.bind_ok h2, if_pos (by simp [magic])]
    rfl

/-! ## C44 -/

/-- C44 (without the absence of panics, see below): a message that is read is determined by a prefix of the
stream, leaves exactly the rest, and is well-formed; an error stays an error whatever comes after. -/
theorem C44_tcpcl_read_exact_partial (bs : Bytes) :
    (∀ p rest, readPacket bs = .ok p rest →
      WellFormed p ∧ ∃ pre, bs = pre ++ rest ∧ ∀ x, readPacket (pre ++ x) = .ok p x) ∧
    (readPacket bs = .err → ∀ x, readPacket (bs ++ x) = .err) :=
  ⟨fun p rest h => ⟨read_wellFormed h, read_prefixed.1 bs p rest h⟩, fun h => read_prefixed.2.1 bs h⟩

example : ∃ p rest, readPacket (write exSeg ++ [4, 4]) = .ok p rest ∧ rest = [4, 4] := ⟨exSeg, [4, 4], by decide, rfl⟩
example : readPacket [9, 9] = .err := by decide

/-- C44: where a panic is possible at all: only in a transfer segment, and there only with the START flag
(extension items) or with an announced length of 2^63 bytes or more. -/
theorem C44_tcpcl_panic_only_in_segments_partial (bs : Bytes) (h : readPacket bs = .panic) :
    ∃ (flags : UInt8) (tail : Bytes), bs = 1 :: flags :: tail ∧
      (flags.toNat / 2 % 2 = 1 ∨
       ∃ tid len rest, tail = tid ++ len ++ rest ∧ tid.length = 8 ∧ len.length = 8 ∧
        2 ^ 63 ≤ Rd.beVal len) := by
  obtain ⟨rest, rfl, h'⟩ := read_panic h
  replace h := h'
  unfold readXferSeg at h
  obtain ⟨f, b1, h1, h⟩ := bind_uint_panic h
  match rest with
  | [] => simp [Rd.uint, Rd.bind, Rd.bytes] at h1
  | flags :: tail =>
    simp [Rd.uint, Rd.bind, Rd.bytes, Rd.pure, Rd.beVal] at h1
    obtain ⟨rfl, rfl⟩ := h1
    refine ⟨flags, tail, rfl, ?_⟩
    by_cases hs : flags.toNat / 2 % 2 = 1
    · exact Or.inl hs
    right
    obtain ⟨tid, b2, h2, h⟩ := bind_uint_panic h
    rcases bind_panic h with h | ⟨exts, b3, h3, h⟩
    · simp [readExtensions, SegFlags.ofBits, hs] at h
      cases h
    · simp [readExtensions, SegFlags.ofBits, hs] at h3
      cases h3
      obtain ⟨len, b4, h4, h⟩ := bind_uint_panic h
      have e2 : 8 ≤ tail.length ∧ b2 = tail.drop 8 := by
        unfold Rd.uint Rd.bind Rd.bytes at h2
        by_cases h8 : 8 ≤ tail.length
        · rw [if_pos h8] at h2; cases h2; exact ⟨h8, rfl⟩
        · rw [if_neg h8] at h2; cases h2
      have e4 : 8 ≤ b2.length ∧ b4 = b2.drop 8 ∧ len = Rd.beVal (b2.take 8) := by
        unfold Rd.uint Rd.bind Rd.bytes at h4
        by_cases h8 : 8 ≤ b2.length
        · rw [if_pos h8] at h4; cases h4; exact ⟨h8, rfl, rfl⟩
        · rw [if_neg h8] at h4; cases h4
      split at h
      · next hlen =>
        refine ⟨tail.take 8, b2.take 8, b4, ?_, by simp; omega, by simp; omega, ?_⟩
        · rw [e4.2.1, List.append_assoc, List.take_append_drop, e2.2, List.take_append_drop]
        · rw [← e4.2.2]; unfold maxAlloc at hlen; omega
      · obtain ⟨_, _, _, h⟩ := bind_bytes_panic h
        cases h

/-- C44 is false: any START segment announcing extension items of `extLen` bytes whose first item claims to be
longer than that makes the reader's length arithmetic underflow (a panic with overflow checks; without them
the message boundary is lost). -/
theorem C44_extension_length_underflow_violated (flags : UInt8) (tid extLen : Nat)
    (itemFlags itemType itemLen : Nat) (rest : Bytes)
    (hs : flags.toNat / 2 % 2 = 1) (ht : tid < 2 ^ 64) (he : 5 ≤ extLen) (hel : extLen < 5 + itemLen)
    (hf : itemFlags < 2 ^ 8) (hty : itemType < 2 ^ 16) (hl : itemLen < 2 ^ 16) :
    readPacket ([1, flags] ++ (putUint 8 tid ++ (putUint 4 extLen ++ (putUint 1 itemFlags ++
      (putUint 2 itemType ++ (putUint 2 itemLen ++ rest)))))) = .panic := by
  unfold readPacket
  have h1 : ∀ (b : UInt8) (t : Bytes), Rd.uint 1 (b :: t) = .ok b.toNat t := by
    intro b t; simp [Rd.uint, Rd.bind, Rd.bytes, Rd.pure, Rd.beVal]
  rw [List.cons_append, Rd.bind_ok (h1 _ _), if_pos (by decide)]
  unfold readXferSeg
  rw [List.cons_append, Rd.bind_ok (h1 _ _), List.nil_append, Rd.bind_ok (Rd.uint_put _ (by omega))]
  have hstart : (SegFlags.ofBits flags.toNat).start = true := by simp [SegFlags.ofBits, hs]
  have hx : readExts extLen extLen (putUint 1 itemFlags ++
      (putUint 2 itemType ++ (putUint 2 itemLen ++ rest))) = .panic := by
    cases extLen with
    | zero => omega
    | succ n =>
      simp only [readExts]
      rw [if_neg (by unfold minExtItemSize; omega), Rd.bind_ok (Rd.uint_put _ (by omega)),
        Rd.bind_ok (Rd.uint_put _ (by omega)), Rd.bind_ok (Rd.uint_put _ (by omega)),
        if_pos (by unfold minExtItemSize; omega)]
      rfl
  have hext : readExtensions (SegFlags.ofBits flags.toNat) (putUint 4 extLen ++ (putUint 1 itemFlags ++
      (putUint 2 itemType ++ (putUint 2 itemLen ++ rest)))) = .panic := by
    unfold readExtensions
    rw [if_pos hstart, Rd.bind_ok (Rd.uint_put _ (by omega))]
    simp [Bind.bind, Rd.bind, hx]
  simp [Bind.bind, Rd.bind, hext]

example : (2 : UInt8).toNat / 2 % 2 = 1 ∧ 5 ≤ 5 ∧ 5 < 5 + 1 := by decide

/-- C44 is false: a segment announcing 2^63 bytes or more makes the reader panic on the allocation before any of
the data has arrived. -/
theorem C44_huge_segment_violated (tid len : Nat) (rest : Bytes) (ht : tid < 2 ^ 64)
    (h : 2 ^ 63 ≤ len) (hl : len < 2 ^ 64) :
    readPacket ([1, 0] ++ (putUint 8 tid ++ (putUint 8 len ++ rest))) = .panic := by
  unfold readPacket
  have h1 : ∀ (b : UInt8) (t : Bytes), Rd.uint 1 (b :: t) = .ok b.toNat t := by
    intro b t; simp [Rd.uint, Rd.bind, Rd.bytes, Rd.pure, Rd.beVal]
  rw [List.cons_append, Rd.bind_ok (h1 _ _), if_pos (by decide)]
  unfold readXferSeg
  rw [List.cons_append, Rd.bind_ok (h1 _ _), List.nil_append, Rd.bind_ok (Rd.uint_put _ (by omega))]
  have hext : ∀ x, readExtensions (SegFlags.ofBits (0 : UInt8).toNat) x = .ok [] x := by
    intro x; rfl
  rw [Rd.bind_ok (hext _), Rd.bind_ok (Rd.uint_put _ (by omega)), if_pos (by unfold maxAlloc; omega)]
  rfl

end Dtn.Props
