import Verif.Lemmas.Mtcp
/-!
Properties C40, C41, C42: MTCP framing (`cla/mtcp.rs`).
-/

namespace Dtn.Props
open Spec Mtcp

/-- The bytes of a small serialised bundle. -/
def exBundleBytes : Bytes := [0x9f, 0x88, 7, 0, 0, 1, 2, 3, 4, 5, 0xff]

/-- The bytes of a serialised bundle that needs a two-byte head. -/
def exBundleBytes2 : Bytes := List.replicate 29 7 ++ [0xff]

example : BundleBytes exBundleBytes ∧ BundleBytes exBundleBytes2 := by
  exact ⟨⟨by decide, by decide, by decide⟩, by decide, by decide, by decide⟩

/-! ## C40 -/

/-- C40: an encoded bundle decodes to exactly the bundle bytes, consuming exactly the frame, whatever
follows it in the buffer. -/
theorem C40_mtcp_round_trip (d rest : Bytes) (h : BundleBytes d) :
    decode (encode d ++ rest) = .frame d rest := decode_encode h rest

/-- C40: the frame is a CBOR byte string (RFC 8949) holding the bundle bytes. -/
theorem C40_mtcp_frame_is_cbor_byte_string (d : Bytes) (h : d.length < 2 ^ 64) :
    ∃ hdr, encode d = hdr ++ d ∧ IsByteStringHead hdr d.length :=
  ⟨header d.length, rfl, header_isHead h⟩

example : ∃ hdr, encode exBundleBytes2 = hdr ++ exBundleBytes2 ∧ IsByteStringHead hdr 30 :=
  C40_mtcp_frame_is_cbor_byte_string exBundleBytes2 (by decide)

/-- C40, the limit of the round trip: data of nine or more bytes that does not end in the CBOR break code
(so is no serialised bundle) is never decoded but ends the connection, although MTCP itself carries any byte
string. -/
theorem C40_mtcp_non_bundle_data_rejected (d rest : Bytes) (h9 : 9 ≤ d.length)
    (hlt : d.length < 2 ^ 64 - 9) (h : d.getLast? ≠ some 0xff) :
    decode (encode d ++ rest) = .err := by
  have hh := header_isHead (n := d.length) (by omega)
  have hlen := head_length hh
  unfold encode
  rw [List.append_assoc, decode_head hh (by simp; omega), if_neg (by omega), if_pos (by simp)]
  simp [h]

example : ([1, 2, 3, 4, 5, 6, 7, 8, 9] : Bytes).getLast? ≠ some 0xff := by decide

/-! ## C41 -/

/-- C41: two ways of cutting the same byte stream into chunks give the same frames in the same order, the
same failure, and (unless it failed) leave the same bytes waiting. -/
theorem C41_mtcp_chunking_irrelevant (cs cs' : List Bytes) (h : cs.flatten = cs'.flatten) :
    (receive cs).frames = (receive cs').frames ∧ (receive cs).failed = (receive cs').failed ∧
    ((receive cs).failed = false → (receive cs).buf = (receive cs').buf) := by
  have := (receive_view cs).trans ((congrArg (fun b => view (flush { buf := b })) h).trans
    (receive_view cs').symm)
  simp only [view, Prod.mk.injEq] at this
  refine ⟨this.1, this.2.1, ?_⟩
  intro hf
  have h3 := this.2.2
  rw [← this.2.1, hf] at h3
  simpa using h3

example : (receive [encode exBundleBytes ++ (encode exBundleBytes).take 3, (encode exBundleBytes).drop 3]).frames
      = [exBundleBytes, exBundleBytes] ∧
    ([encode exBundleBytes ++ (encode exBundleBytes).take 3, (encode exBundleBytes).drop 3] : List Bytes).flatten
      = [encode exBundleBytes, encode exBundleBytes].flatten := by decide

/-- C41: whatever way the bytes of any number of sent bundles, followed by the beginning `p` of one more,
are cut into chunks, the receiver has produced exactly the complete bundles in order, has not failed, and
holds exactly the incomplete rest. -/
theorem C41_mtcp_stream_delivers_sent_bundles (ds : List Bytes) (d p q : Bytes) (chunks : List Bytes)
    (hds : ∀ d ∈ ds, BundleBytes d) (hd : BundleBytes d) (hpq : encode d = p ++ q) (hq : q ≠ [])
    (hc : chunks.flatten = sendBuffer ds ++ p) :
    receive chunks = { buf := p, frames := ds, failed := false } := by
  have hv := receive_view chunks
  rw [hc, sendBuffer_eq,
    flush_frames ds _ p rfl hds rfl (decode_proper_prefix hd hpq hq)] at hv
  simp only [view, List.nil_append, Prod.mk.injEq] at hv
  cases hr : receive chunks with
  | mk b f fl =>
    rw [hr] at hv
    obtain ⟨h1, h2, h3⟩ := hv
    simp only at h1 h2
    subst h1; subst h2
    simpa using h3

example : encode exBundleBytes = [0x4b, 0x9f, 0x88] ++ (encode exBundleBytes).drop 3 ∧
    (encode exBundleBytes).drop 3 ≠ [] ∧
    ([(encode exBundleBytes).take 1, (encode exBundleBytes).drop 1 ++ [0x4b], [0x9f, 0x88]] : List Bytes).flatten
      = sendBuffer [exBundleBytes] ++ [0x4b, 0x9f, 0x88] := by decide

/-! ## C42 -/

/-- C42: for every buffer, decoding does not panic; a frame consists of a byte-string head read from the
start of the buffer and exactly the announced bytes following it, the rest staying in the buffer; a buffer of
ten bytes or more not starting with a definite-length byte-string head is rejected; and more input is asked for only
if fewer than ten bytes are there or the announced data is incomplete. -/
theorem C42_mtcp_decode_total_and_exact (buf : Bytes) :
    decode buf ≠ .panic ∧
    (∀ d rest, decode buf = .frame d rest →
      ∃ hdr, buf = hdr ++ d ++ rest ∧ IsByteStringHead hdr d.length) ∧
    (10 ≤ buf.length → (¬ ∃ hdr n body, buf = hdr ++ body ∧ IsByteStringHead hdr n) →
      decode buf = .err) ∧
    (decode buf = .more → buf.length < 10 ∨
      ∃ hdr n body, buf = hdr ++ body ∧ IsByteStringHead hdr n ∧ body.length < n) := by
  refine ⟨decode_ne_panic buf, ?_, ?_, ?_⟩
  · intro d rest h
    obtain ⟨hdr, h1, h2, _⟩ := decode_frame_shape h
    exact ⟨hdr, h1, h2⟩
  · intro hl hno
    rcases decode_cases buf hl with h | h
    · exact absurd h hno
    · simpa using h []
  · intro hm
    by_cases hl : buf.length < 10
    · exact Or.inl hl
    · right
      rcases decode_cases buf (by omega) with ⟨hdr, n, body, rfl, hh⟩ | h
      · rw [decode_head hh (by omega)] at hm
        refine ⟨hdr, n, body, rfl, hh, ?_⟩
        split at hm
        · cases hm
        split at hm
        · split at hm <;> cases hm
        · omega
      · have := h []
        rw [List.append_nil, hm] at this; cases this

example : decode [0x5b, 0xff, 0xff, 0xff, 0xff, 0xff, 0xff, 0xff, 0xff, 0] = .err ∧
    decode [0x80, 1, 2, 3, 4, 5, 6, 7, 8, 9] = .err ∧
    decode [0x58, 200, 2, 3, 4, 5, 6, 7, 8, 9] = .more := by decide

end Dtn.Props
