import Verif.Lemmas.EclaFrames
/-! Properties C50 and C51: framing and text encoding of external convergence layer packets. -/

namespace Dtn.Props
open EclaFrames Spec.EclaFrames

/-- C50, missing: packets above 8 MiB and partial writes (see below). However the bytes of the packets are cut into
chunks, and even if the last packet is not complete, the reader gets exactly the complete packets, in order, without
error. -/
theorem C50_packets_arrive_partial (ps : List Bytes) (p : Bytes) (chunks : List Bytes) (a b : Bytes)
    (hps : ∀ q ∈ ps, Fits q) (hp : Fits p) (hcut : frame p = a ++ b) (hb : b ≠ [])
    (hc : chunks.flatten = stream ps ++ a) :
    (receive chunks).packets = ps ∧ (receive chunks).failed = false := by
  have hv := receive_view chunks
  have h1 : flush { buf := chunks.flatten } = ({ buf := a, packets := ps } : Rx) := by
    rw [flush_stream ps { buf := chunks.flatten } a hps hc, flush_unfold]
    simp only [decode_partial hp hcut hb, List.nil_append]
  rw [h1] at hv
  simp only [view, Prod.mk.injEq] at hv
  exact ⟨hv.1, hv.2.1⟩

example : ∃ chunks : List Bytes, chunks = [[0, 0], [0, 2, 7], [8, 0, 0, 0, 1, 9, 0], [0]] ∧
    chunks.flatten = stream [[7, 8], [9]] ++ [0, 0] ∧ frame [1, 2] = [0, 0] ++ [0, 2, 1, 2] ∧
    (receive chunks).packets = [[7, 8], [9]] := ⟨_, rfl, by decide, by decide, by decide⟩

/-- C50: the header of every packet below 4 GiB is its length in network byte order, followed by the packet. -/
theorem C50_frame_layout (p : Bytes) (h : p.length < 2 ^ 32) : ∃ b3 b2 b1 b0 : UInt8, frame p = b3 :: b2 :: b1 :: b0 :: p ∧
    b3.toNat * 16777216 + b2.toNat * 65536 + b1.toNat * 256 + b0.toNat = p.length := by
  refine ⟨_, _, _, _, rfl, ?_⟩
  simp only [UInt8.toNat_ofNat']
  omega

/-- C50 fails for packets above 8 MiB: the reader ends with an error and gets nothing of what follows, although the
sender's side accepts such packets. -/
theorem C50_large_packet_violated (ps : List Bytes) (p : Bytes) (qs : List Bytes) (chunks : List Bytes)
    (hps : ∀ q ∈ ps, Fits q) (hp : ¬Fits p) (h32 : p.length < 2 ^ 32) (hc : chunks.flatten = stream (ps ++ p :: qs)) :
    (receive chunks).packets = ps ∧ (receive chunks).failed = true := by
  have hv := receive_view chunks
  have hs : chunks.flatten = stream ps ++ (frame p ++ stream qs) := by rw [hc]; simp [stream]
  have h1 : flush { buf := chunks.flatten } =
      ({ buf := frame p ++ stream qs, packets := ps, failed := true } : Rx) := by
    rw [flush_stream ps { buf := chunks.flatten } _ hps hs, flush_unfold]
    have hp' : maxFrame < p.length := Nat.lt_of_not_le hp
    simp only [decode_large hp' h32, List.nil_append]
  rw [h1] at hv
  simp only [view, Prod.mk.injEq] at hv
  exact ⟨hv.1, hv.2.1⟩

example : ∃ p : Bytes, ¬Fits p ∧ p.length < 2 ^ 32 := by
  have h : ∀ n, (List.replicate n (0 : UInt8)).length = n := fun n => List.length_replicate
  refine ⟨List.replicate 8388609 0, ?_, ?_⟩
  · unfold Fits; rw [h]; omega
  · rw [h]; omega

/-- C50, sending side, missing: sockets that take only part of a frame. If the socket takes every frame at once, the
packets arrive. -/
theorem C50_full_writes_arrive_partial (ps : List Bytes) (ws : List (Bytes × Nat)) (chunks : List Bytes)
    (hps : ∀ q ∈ ps, Fits q) (hw : ws.map (·.1) = ps.map frame) (hfull : ∀ w ∈ ws, w.1.length ≤ w.2)
    (hc : chunks.flatten = write ws) : (receive chunks).packets = ps ∧ (receive chunks).failed = false := by
  have hws : ∀ ws : List (Bytes × Nat), (∀ w ∈ ws, w.1.length ≤ w.2) → write ws = (ws.map (·.1)).flatten := by
    intro ws
    induction ws with
    | nil => intro _; rfl
    | cons w ws ih =>
      intro h
      simp only [write, List.map_cons, List.flatten_cons]
      rw [ih fun x hx => h x (by simp [hx]), List.take_of_length_le (h w (by simp))]
  refine C50_packets_arrive_partial ps [] chunks [] (frame []) hps (by simp [Fits]) rfl (by decide) ?_
  rw [hc, hws ws hfull, hw]
  simp [stream]

example : (receive [write [(frame [7, 8], 6), (frame [9], 5)]]).packets = [[7, 8], [9]] := by decide

/-- C50 fails on the sending side: `try_write` may write only part of a frame, and the rest is dropped. Then the reader
takes bytes of the next packet for the rest of the first: it reads a packet nobody sent. -/
theorem C50_partial_write_violated : ∃ (ps : List Bytes) (ws : List (Bytes × Nat)), (∀ q ∈ ps, Fits q) ∧
    ws.map (·.1) = ps.map frame ∧ (∃ q ∈ (receive [write ws]).packets, q ∉ ps) ∧
    (∃ q ∈ ps, q ∉ (receive [write ws]).packets) :=
  ⟨[[1, 2, 3, 4, 5], [6]], [(frame [1, 2, 3, 4, 5], 5), (frame [6], 5)], by
    unfold Fits; decide, by decide, ⟨[1, 0, 0, 0, 1], by decide, by decide⟩, ⟨[6], by decide, by decide⟩⟩

/-- C51: every byte string survives the text encoding. -/
theorem C51_round_trip (d : Bytes) : decode64 (encode64 d) = some d := decode64_encode64 d

/-- C51: the text is the one RFC 4648 prescribes, so modules in other languages read it. -/
theorem C51_standard_text (d : Bytes) : Encodes d (encode64 d) := encode64_encodes d

/-- C51: the text consists of four characters for every three bytes begun, and no character needs an escape in JSON. -/
theorem C51_text_shape (d : Bytes) : (encode64 d).length = (d.length + 2) / 3 * 4 ∧
    ∀ c ∈ encode64 d, c ∈ alphabet ∨ c = '=' := by
  have mem : ∀ {c n}, Stands c n → c ∈ alphabet := fun h => List.mem_of_getElem? h
  have key : ∀ {d t}, Encodes d t → t.length = (d.length + 2) / 3 * 4 ∧ ∀ c ∈ t, c ∈ alphabet ∨ c = '=' := by
    intro d t h
    induction h with
    | nil => exact ⟨rfl, by simp⟩
    | three ha hb hc hd _ _ ih =>
      refine ⟨by simp only [List.length_cons, ih.1]; omega, ?_⟩
      intro x hx
      simp only [List.mem_cons] at hx
      rcases hx with rfl | rfl | rfl | rfl | hx
      · exact .inl (mem ha)
      · exact .inl (mem hb)
      · exact .inl (mem hc)
      · exact .inl (mem hd)
      · exact ih.2 x hx
    | one ha hb _ =>
      refine ⟨by simp, ?_⟩
      intro x hx
      simp only [List.mem_cons, List.not_mem_nil, or_false] at hx
      rcases hx with rfl | rfl | rfl | rfl
      · exact .inl (mem ha)
      · exact .inl (mem hb)
      · exact .inr rfl
      · exact .inr rfl
    | two ha hb hc _ =>
      refine ⟨by simp, ?_⟩
      intro x hx
      simp only [List.mem_cons, List.not_mem_nil, or_false] at hx
      rcases hx with rfl | rfl | rfl | rfl
      · exact .inl (mem ha)
      · exact .inl (mem hb)
      · exact .inl (mem hc)
      · exact .inr rfl
  exact key (encode64_encodes d)

/-- C51: different byte strings have different texts. -/
theorem C51_injective (d e : Bytes) (h : encode64 d = encode64 e) : d = e := by
  have := C51_round_trip d
  rw [h, C51_round_trip e] at this
  exact (Option.some.inj this).symm

example : encode64 [77, 97, 110, 255] = ['T', 'W', 'F', 'u', '/', 'w', '=', '='] ∧
    decode64 ['T', 'W', 'F', 'u', '/', 'w', '=', '='] = some [77, 97, 110, 255] := by decide

end Dtn.Props
