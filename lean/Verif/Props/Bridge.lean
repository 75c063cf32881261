import Verif.Lemmas.BridgeMore
import Verif.Props.Ecla
import Verif.Model.ConnectN
/-! C126: the programs that carry the bundles of a node over TCP. -/

namespace Dtn.Props
open Bridge Spec.BridgeSpec
open ModuleClient (EclaPacket)
open scoped List

/-! ## Examples -/

def brBundle (k : Nat) : Bundle :=
  { primary := { bid := "b", source := .dtn "a" "", destination := .dtn "b" "", reportTo := .dtn "a" "", creationTime := k, lifetime := 1000 }, canonicals := [] }

/-- Bundles are nine bytes, packets are one byte for what they are and their contents. -/
def brCodec : Codec where
  bid b := b.id
  wire b := [0x9f, UInt8.ofNat b.primary.creationTime, 0, 0, 0, 0, 0, 0, 0xff]
  parse l := match l with | [0x9f, k, 0, 0, 0, 0, 0, 0, 0xff] => some (brBundle k.toNat) | _ => none
  json p := match p with | .data _ _ _ bytes => 0 :: bytes | .beacon _ _ block => 1 :: block | _ => [2]
  fromJson l := match l with | 0 :: bytes => some (.data "" "b" "" bytes) | 1 :: block => some (.beacon (.dtn "a" "") "" block) | _ => none

def brPacket (dst : String) (k : Nat) : EclaPacket := .data "" dst "" (brCodec.wire (brBundle k))

/-- A packet is sent. -/
def brSend (dst : String) (k : Nat) : List Bridge.Ev := [.packet (brPacket dst k), .pick true, .write none]

/-- Two bundles to `b`, then one that is cut off after four bytes, and one more. -/
def brOut : List Bridge.Ev :=
  brSend "b" 1 ++ brSend "c" 2 ++ brSend "b" 3 ++ [.packet (brPacket "b" 4), .pick true, .write (some 4)] ++ brSend "b" 5

def brState (g : Prog) (evs : List Bridge.Ev) : Bridge.State := (({} : Bridge.State).run g evs).getD {}

theorem brState_run {g : Prog} {evs : List Bridge.Ev} (h : (({} : Bridge.State).run g evs).isSome = true) : After g evs (brState g evs) := by
  unfold brState After
  obtain ⟨n, hn⟩ := Option.isSome_iff_exists.mp h
  rw [hn]; rfl

/-- What goes out on the first connection comes in, in two chunks, and is taken. -/
def brIn (g : Prog) : List Bridge.Ev :=
  [.accept "a", .chunk 0 (((brState g brOut).outs[0]?.map fun o => o.written.take 5).getD []), .chunk 0 (((brState g brOut).outs[0]?.map fun o => o.written.drop 5).getD []),
    .next 0, .next 0, .take]

/-! ## Sending -/

/-- C126: both programs send a packet to the address that the node has written in it: `dtnecla_mtcp` if it contains a bundle, `dtnecla_json_mtcp`
whatever it contains. -/
theorem C126_addressed (x : Codec) (p : EclaPacket) (dst : String) :
    (For (mtcp x) dst p ↔ destination p = some dst ∧ (bundle x p).isSome) ∧ (For (jsonMtcp x) dst p ↔ destination p = some dst) := by
  cases p with
  | data src d bid bytes =>
    constructor
    · constructor
      · rintro ⟨data, h⟩
        simp only [mtcp, Option.map_eq_some_iff, Prod.mk.injEq] at h
        obtain ⟨b, hb, rfl, _⟩ := h
        exact ⟨rfl, by simp [bundle, hb]⟩
      · rintro ⟨h1, h2⟩
        obtain ⟨b, hb⟩ := Option.isSome_iff_exists.1 h2
        simp only [destination, Option.some.injEq] at h1
        simp only [bundle] at hb
        exact ⟨_, by simp only [mtcp, hb, Option.map_some, h1]; rfl⟩
    · simp [For, jsonMtcp, destination]
  | _ => simp [For, mtcp, jsonMtcp, destination]

example : For (mtcp brCodec) "b" (brPacket "b" 1) ∧ For (jsonMtcp brCodec) "b" (.data "a" "b" "x" [1]) ∧ ¬For (mtcp brCodec) "b" (.data "a" "b" "x" [1]) :=
  ⟨((C126_addressed _ _ _).1).2 (by decide +kernel), ((C126_addressed _ _ _).2).2 rfl, fun h => absurd (((C126_addressed _ _ _).1).1 h).2 (by decide +kernel)⟩

/-- C126: both programs deal with the packets of the node one after the other, in the order they get them, and with each once. -/
theorem C126_in_order (g : Prog) (evs : List Bridge.Ev) (s : Bridge.State) (h : After g evs s) :
    passed evs = s.handled.map (fun a => a.1) ++ (s.busy.toList.map fun b => b.1) ++ s.rx ∧
    ∀ p f, (p, f) ∈ s.handled → (f = .ignored ↔ ∀ dst, ¬For g dst p) := by
  have hi := OutInv.after h
  refine ⟨hi.order, fun p f hm => ?_⟩
  cases f with
  | ignored =>
    simp only [true_iff]
    rintro dst ⟨data, hd⟩
    rw [hi.ignored p hm] at hd; cases hd
  | written c =>
    obtain ⟨o, data, -, hf⟩ := hi.written p c hm
    simp only [reduceCtorEq, false_iff]
    exact fun hn => hn _ ⟨data, hf⟩
  | lost =>
    simp only [reduceCtorEq, false_iff]
    intro hn
    cases hf : g.frame p with
    | none => exact hi.lost p hm hf
    | some q => exact hn q.1 ⟨q.2, hf⟩

/-- C126: whoever reads the connections to an address one after the other gets packets for that address, each at most once and in the order in
which the node sent them, and each complete. Missing: packets can be lost, see below. -/
theorem C126_sent_in_order_partial (g : Prog) (evs : List Bridge.Ev) (s : Bridge.State) (dst : String) (h : After g evs s) :
    ((List.range s.outs.length).flatMap fun c => if (s.outs[c]?).map (fun o => o.addr) = some dst then sentOn s c else []) <+ forAddr g dst (passed evs) := by
  have hi := OutInv.after h
  rw [← sentTo_eq hi dst, hi.order]
  refine (sentTo_sublist g dst s).trans ?_
  simp only [forAddr, List.filter_append, List.append_assoc]
  exact List.sublist_append_left _ _

/-- C126: if opening connections and writing succeed, nothing is lost: every packet for the address has been written, is being written or
waits. -/
theorem C126_all_sent_partial (g : Prog) (evs : List Bridge.Ev) (s : Bridge.State) (dst : String) (h : After g evs s) (hn : NoFailure evs) (he : s.ended = false) :
    ((List.range s.outs.length).flatMap fun c => if (s.outs[c]?).map (fun o => o.addr) = some dst then sentOn s c else []) ++
      forAddr g dst ((s.busy.toList.map fun b => b.1) ++ s.rx) = forAddr g dst (passed evs) := by
  have hi := OutInv.after h
  rw [← sentTo_eq hi dst, hi.order, sentTo_all hi dst (no_lost h hn he)]
  simp [forAddr, List.filter_append]

example : (({} : Bridge.State).run (mtcp brCodec) (brSend "b" 1 ++ brSend "c" 2 ++ brSend "b" 3)).isSome = true ∧
    NoFailure (brSend "b" 1 ++ brSend "c" 2 ++ brSend "b" 3) ∧
    sentOn (brState (mtcp brCodec) (brSend "b" 1 ++ brSend "c" 2 ++ brSend "b" 3)) 0 = [brPacket "b" 1, brPacket "b" 3] := by
  refine ⟨by decide +kernel, ⟨by decide, fun k => ?_⟩, by decide +kernel⟩
  simp [brSend]

/-- C126: what is on a connection is the packets written on it, whole, one after the other, and perhaps the beginning of a packet whose writing
failed; all of them are for the address of the connection. -/
theorem C126_on_the_wire (g : Prog) (evs : List Bridge.Ev) (s : Bridge.State) (c : Nat) (o : Outgoing) (h : After g evs s) (ho : s.outs[c]? = some o) :
    (∀ p ∈ sentOn s c, For g o.addr p) ∧
    ∃ tail, o.written = (sentOn s c).flatMap (fun p => ((g.frame p).map fun f => f.2).getD []) ++ tail ∧
      (tail = [] ∨ ∃ p data rest, (p, Fate.lost) ∈ s.handled ∧ g.frame p = some (o.addr, data) ∧ data = tail ++ rest ∧ rest ≠ []) := by
  have hi := OutInv.after h
  refine ⟨fun p hp => ?_, hi.wires c o ho⟩
  obtain ⟨o', data, ho', hf⟩ := hi.written p c (mem_sentOn.1 hp)
  rw [ho] at ho'; cases ho'
  exact ⟨data, hf⟩

theorem mem_passed_of_handled {g : Prog} {evs : List Bridge.Ev} {s : Bridge.State} (h : After g evs s) {p : EclaPacket} {f : Fate} (hm : (p, f) ∈ s.handled) : p ∈ passed evs := by
  rw [(OutInv.after h).order]
  exact List.mem_append_left _ (List.mem_append_left _ (List.mem_map.2 ⟨_, hm, rfl⟩))

theorem mtcp_frame_inv {x : Codec} {p : EclaPacket} {dst : String} {data : Bytes} (h : (mtcp x).frame p = some (dst, data)) :
    ∃ b, bundle x p = some b ∧ data = Mtcp.encode (x.wire b) := by
  cases p with
  | data src d bid bytes =>
    simp only [mtcp, Option.map_eq_some_iff, Prod.mk.injEq] at h
    obtain ⟨b, hb, -, h2⟩ := h
    exact ⟨b, hb, h2.symm⟩
  | register _ _ _ => simp [mtcp] at h
  | beacon _ _ _ => simp [mtcp] at h
  | registered _ _ => simp [mtcp] at h
  | error _ => simp [mtcp] at h

theorem mtcp_stream {x : Codec} {l : List EclaPacket} (h : ∀ p ∈ l, ∃ dst data, (mtcp x).frame p = some (dst, data)) :
    l.flatMap (fun p => (((mtcp x).frame p).map fun f => f.2).getD []) = (((l.filterMap (bundle x)).map x.wire).map Mtcp.encode).flatten := by
  induction l with
  | nil => rfl
  | cons p l ih =>
    obtain ⟨dst, data, hf⟩ := h p List.mem_cons_self
    obtain ⟨b, hb, hd⟩ := mtcp_frame_inv hf
    rw [List.flatMap_cons, ih fun q hq => h q (List.mem_cons_of_mem _ hq), List.filterMap_cons_some hb]
    simp [hf, hd]

theorem json_frame_inv {x : Codec} {p : EclaPacket} {dst : String} {data : Bytes} (h : (jsonMtcp x).frame p = some (dst, data)) :
    data = EclaFrames.frame (x.json p) := by
  cases p with
  | data src d bid bytes =>
    simp only [jsonMtcp, Option.some.injEq, Prod.mk.injEq] at h
    exact h.2.symm
  | register _ _ _ => simp [jsonMtcp] at h
  | beacon _ _ _ => simp [jsonMtcp] at h
  | registered _ _ => simp [jsonMtcp] at h
  | error _ => simp [jsonMtcp] at h

theorem json_stream {x : Codec} {l : List EclaPacket} (h : ∀ p ∈ l, ∃ dst data, (jsonMtcp x).frame p = some (dst, data)) :
    l.flatMap (fun p => (((jsonMtcp x).frame p).map fun f => f.2).getD []) = ((l.map x.json).map EclaFrames.frame).flatten := by
  induction l with
  | nil => rfl
  | cons p l ih =>
    obtain ⟨dst, data, hf⟩ := h p List.mem_cons_self
    rw [List.flatMap_cons, ih fun q hq => h q (List.mem_cons_of_mem _ hq)]
    simp [hf, json_frame_inv hf]

/-- C126: from a connection of `dtnecla_mtcp` a receiver of MTCP, such as a node with the built-in layer, reads exactly the bundles written on it,
in order, however TCP cuts the bytes; if it has read only a part, then the first ones. -/
theorem C126_mtcp_readable (x : Codec) (evs : List Bridge.Ev) (s : Bridge.State) (c : Nat) (o : Outgoing) (chunks : List Bytes) (h : After (mtcp x) evs s)
    (ho : s.outs[c]? = some o) (hx : ∀ p ∈ passed evs, ∀ b, bundle x p = some b → Spec.BundleBytes (x.wire b)) (hc : chunks.flatten <+: o.written) :
    (Mtcp.receive chunks).failed = false ∧ (Mtcp.receive chunks).frames <+: ((sentOn s c).filterMap (bundle x)).map x.wire ∧
    (chunks.flatten = o.written → (Mtcp.receive chunks).frames = ((sentOn s c).filterMap (bundle x)).map x.wire) := by
  obtain ⟨h1, tail, h2, h3⟩ := C126_on_the_wire (mtcp x) evs s c o h ho
  rw [mtcp_stream fun p hp => let ⟨d, hd⟩ := h1 p hp; ⟨o.addr, d, hd⟩] at h2
  rw [h2] at hc ⊢
  refine mtcp_reads _ tail chunks ?_ ?_ hc
  · intro d hd
    simp only [List.mem_map, List.mem_filterMap] at hd
    obtain ⟨b, ⟨p, hp, hb⟩, rfl⟩ := hd
    exact hx p (mem_passed_of_handled h (mem_sentOn.1 hp)) b hb
  · rcases h3 with h3 | ⟨p, data, rest, hm, hf, hd, hr⟩
    · exact .inl h3
    · obtain ⟨b, hb, hdb⟩ := mtcp_frame_inv hf
      exact .inr ⟨x.wire b, rest, hx p (mem_passed_of_handled h hm) b hb, by rw [← hdb, hd], hr⟩

example : (({} : Bridge.State).run (mtcp brCodec) brOut).isSome = true ∧
    (∀ p ∈ passed brOut, ∀ b, bundle brCodec p = some b → Spec.BundleBytes (brCodec.wire b)) ∧
    (Mtcp.receive [((brState (mtcp brCodec) brOut).outs[0]?.map fun o => o.written).getD []]).frames = [brCodec.wire (brBundle 1), brCodec.wire (brBundle 3)] ∧
    (brState (mtcp brCodec) brOut).outs[0]?.map (fun o => o.written.length) = some 24 := by
  refine ⟨by decide +kernel, ?_, by decide +kernel, by decide +kernel⟩
  intro p _ b _
  exact ⟨by simp [brCodec], by simp [brCodec], by simp [brCodec]⟩

/-- C126: the same for the JSON program: the receiver reads exactly the packets written, as long as none is larger than 8 MiB. -/
theorem C126_json_readable_partial (x : Codec) (evs : List Bridge.Ev) (s : Bridge.State) (c : Nat) (o : Outgoing) (chunks : List Bytes) (h : After (jsonMtcp x) evs s)
    (ho : s.outs[c]? = some o) (hx : ∀ p ∈ passed evs, Spec.EclaFrames.Fits (x.json p)) (hc : chunks.flatten <+: o.written) :
    (EclaFrames.receive chunks).failed = false ∧ (EclaFrames.receive chunks).packets <+: (sentOn s c).map x.json ∧
    (chunks.flatten = o.written → (EclaFrames.receive chunks).packets = (sentOn s c).map x.json) := by
  obtain ⟨h1, tail, h2, h3⟩ := C126_on_the_wire (jsonMtcp x) evs s c o h ho
  rw [json_stream fun p hp => let ⟨d, hd⟩ := h1 p hp; ⟨o.addr, d, hd⟩] at h2
  rw [h2] at hc ⊢
  refine json_reads _ tail chunks ?_ ?_ hc
  · intro d hd
    simp only [List.mem_map] at hd
    obtain ⟨p, hp, rfl⟩ := hd
    exact hx p (mem_passed_of_handled h (mem_sentOn.1 hp))
  · rcases h3 with h3 | ⟨p, data, rest, hm, hf, hd, hr⟩
    · exact .inl h3
    · exact .inr ⟨x.json p, rest, hx p (mem_passed_of_handled h hm), by rw [← json_frame_inv hf, hd], hr⟩

/-- C126 fails for large packets: a packet of more than 8 MiB is written, and the receiver reads neither it nor anything after it on that
connection. -/
theorem C126_json_large_violated (x : Codec) (s t : Bridge.State) (c : Nat) (o : Outgoing) (p : EclaPacket) (dst : String) (evs : List Bridge.Ev)
    (hs : s.outs[c]? = some o) (hb : s.busy = some (p, dst, EclaFrames.frame (x.json p))) (hp : s.pool.get? dst = some c)
    (hw : s.ended = false) (qs : List Bytes) (hq : ∀ q ∈ qs, Spec.EclaFrames.Fits q) (ho : o.written = (qs.map EclaFrames.frame).flatten)
    (hl : ¬Spec.EclaFrames.Fits (x.json p)) (h32 : (x.json p).length < 2 ^ 32) (hr : s.run (jsonMtcp x) (.write none :: evs) = some t) :
    t.handled[s.handled.length]? = some (p, .written c) ∧
    ∀ (rest : Bytes) (chunks : List Bytes), chunks.flatten = o.written ++ EclaFrames.frame (x.json p) ++ rest →
      (EclaFrames.receive chunks).packets = qs ∧ (EclaFrames.receive chunks).failed = true := by
  constructor
  · simp only [State.run, Option.bind_eq_some_iff] at hr
    obtain ⟨u, hu, hr⟩ := hr
    simp only [State.step, hw, hb, hp, hs, Bool.false_eq_true, if_false, Option.some.injEq] at hu
    subst hu
    obtain ⟨l, hl⟩ := handled_run hr
    rw [← hl]
    simp
  · intro rest chunks hc
    have hv := EclaFrames.receive_view chunks
    have h1 : EclaFrames.flush { buf := chunks.flatten } = ({ buf := EclaFrames.frame (x.json p) ++ rest, packets := qs, failed := true } : EclaFrames.Rx) := by
      rw [EclaFrames.flush_stream qs { buf := chunks.flatten } (EclaFrames.frame (x.json p) ++ rest) hq (by rw [hc, ho]; simp [Spec.EclaFrames.stream]), EclaFrames.flush_unfold]
      have hp' : EclaFrames.maxFrame < (x.json p).length := Nat.lt_of_not_le hl
      simp only [EclaFrames.decode_large hp' h32, List.nil_append]
    rw [h1] at hv
    simp only [EclaFrames.view, Prod.mk.injEq] at hv
    exact ⟨hv.1, hv.2.1⟩

/-- A packet with these bytes is about to be written. -/
theorem brLarge (l : Bytes) : After (jsonMtcp brCodec) [.packet (.data "" "b" "" l), .pick true]
    { busy := some (.data "" "b" "" l, "b", EclaFrames.frame (brCodec.json (.data "" "b" "" l))), pool := [("b", 0)], outs := [{ addr := "b" }] } := by
  simp [After, State.run, State.step, capacity, jsonMtcp, AList.contains, AList.insert, AList.erase, AList.get?]

example : ∃ l : Bytes, ¬Spec.EclaFrames.Fits (brCodec.json (.data "" "b" "" l)) ∧ (brCodec.json (.data "" "b" "" l)).length < 2 ^ 32 := by
  have h : ∀ l, (brCodec.json (.data "" "b" "" l)).length = l.length + 1 := fun l => rfl
  have hr : ∀ n, (List.replicate n (0 : UInt8)).length = n := fun n => List.length_replicate
  refine ⟨List.replicate 8388609 0, ?_, ?_⟩
  · unfold Spec.EclaFrames.Fits; rw [h, hr]; omega
  · rw [h, hr]; omega

/-! ## Receiving -/

/-- C126: what the client gets for the node is what was accepted from the connections, in the same order; `dtnecla_mtcp` drops nothing. -/
theorem C126_given_in_order (x : Codec) (evs : List Bridge.Ev) (s : Bridge.State) (h : After (mtcp x) evs s) :
    s.offered.map (fun o => o.2.1) = s.given ++ s.ctx := by
  have hi := InInv.after (mtcp_grows x) h
  have hw := hi.waits rfl
  rw [← hi.channel, List.filter_eq_self.2 fun o ho => hw o ho]

theorem acceptedFrom_all {s : Bridge.State} (h : ∀ o ∈ s.offered, o.2.2 = true) (i : Nat) : acceptedFrom s i = offeredFrom s i := by
  unfold acceptedFrom offeredFrom
  congr 1
  exact List.filter_congr fun o ho => by simp [h o ho]

/-- C126: `dtnecla_mtcp` passes nothing to the node but bundles that arrived: each packet is a bundle read from a connection, with the address
of that connection. -/
theorem C126_mtcp_only_bundles (x : Codec) (evs : List Bridge.Ev) (s : Bridge.State) (h : After (mtcp x) evs s) (i : Nat) (p : EclaPacket) (b : Bool)
    (hp : (i, p, b) ∈ s.offered) :
    ∃ k bn f, s.ins[i]? = some k ∧ f ∈ (Mtcp.receive k.chunks).frames ∧ x.parse f = some bn ∧ p = .data "" k.addr (x.bid bn) (x.wire bn) := by
  have hi := InInv.after (mtcp_grows x) h
  have hlt := hi.known _ hp
  have hk := List.getElem?_eq_getElem hlt
  have hm : p ∈ offeredFrom s i := List.mem_map.2 ⟨(i, p, b), List.mem_filter.2 ⟨hp, by simp⟩, rfl⟩
  rw [(hi.conn i _ hk).packets] at hm
  obtain ⟨f, hf, hpo⟩ := List.mem_filterMap.1 hm
  have hf' := List.mem_of_mem_take hf
  simp only [passOf, mtcp] at hpo
  cases hx : x.parse f with
  | none => simp [hx] at hpo
  | some bn =>
    simp only [hx, Option.some.injEq] at hpo
    exact ⟨_, bn, f, hk, hf', hx, hpo.symm⟩

/-- C126: `dtnecla_mtcp` passes the bundles of a connection to the node without leaving out any: what it has offered are the bundles of the first
frames it read, and it does not go on after a frame that is no bundle. -/
theorem C126_mtcp_no_gap (x : Codec) (evs : List Bridge.Ev) (s : Bridge.State) (h : After (mtcp x) evs s) (i : Nat) (k : Incoming) (hk : s.ins[i]? = some k) :
    ∃ bns : List Bundle, offeredFrom s i = bns.map (fun bn => .data "" k.addr (x.bid bn) (x.wire bn)) ∧
      bns.map some <+: (Mtcp.receive k.chunks).frames.map x.parse := by
  have hi := (InInv.after (mtcp_grows x) h).conn i k hk
  have hp : ∀ f ∈ (Mtcp.receive k.chunks).frames.take k.used, ∃ bn, x.parse f = some bn := by
    intro f hf
    have := hi.nostop f hf
    cases hx : x.parse f with
    | none => simp [mtcp, hx] at this
    | some bn => exact ⟨bn, rfl⟩
  have key : ∀ l : List Bytes, (∀ f ∈ l, ∃ bn, x.parse f = some bn) → ∃ bns : List Bundle,
      l.filterMap (passOf (mtcp x) k.addr) = bns.map (fun bn => .data "" k.addr (x.bid bn) (x.wire bn)) ∧ bns.map some = l.map x.parse := by
    intro l
    induction l with
    | nil => intro _; exact ⟨[], rfl, rfl⟩
    | cons f l ih =>
      intro hl
      obtain ⟨bn, hb⟩ := hl f List.mem_cons_self
      obtain ⟨bns, h1, h2⟩ := ih fun f' hf' => hl f' (List.mem_cons_of_mem _ hf')
      have hpo : passOf (mtcp x) k.addr f = some (.data "" k.addr (x.bid bn) (x.wire bn)) := by simp [passOf, mtcp, hb]
      exact ⟨bn :: bns, by rw [List.filterMap_cons_some hpo, h1, List.map_cons], by rw [List.map_cons, List.map_cons, h2, hb]⟩
  obtain ⟨bns, h1, h2⟩ := key _ hp
  exact ⟨bns, hi.packets.trans h1, h2 ▸ (List.take_prefix _ _).map _⟩

/-- Two bundles with nonsense between them: the first is offered, and the connection is given up. -/
example : (({} : Bridge.State).run (mtcp brCodec) [.accept "a", .chunk 0 (Mtcp.encode (brCodec.wire (brBundle 1)) ++ Mtcp.encode [1] ++ Mtcp.encode (brCodec.wire (brBundle 2))),
      .next 0, .next 0]).isSome = true ∧
    offeredFrom (brState (mtcp brCodec) [.accept "a", .chunk 0 (Mtcp.encode (brCodec.wire (brBundle 1)) ++ Mtcp.encode [1] ++ Mtcp.encode (brCodec.wire (brBundle 2))),
      .next 0, .next 0]) 0 = [.data "" "a" (brCodec.bid (brBundle 1)) (brCodec.wire (brBundle 1))] := by
  decide +kernel

/-- The frames of whole bundles become packets for the node. -/
theorem mtcp_pass {x : Codec} {addr : String} {bs : List Bundle} (h : ∀ b ∈ bs, x.parse (x.wire b) = some b) :
    (bs.map x.wire).filterMap (passOf (mtcp x) addr) = bs.map fun b => .data "" addr (x.bid b) (x.wire b) := by
  induction bs with
  | nil => rfl
  | cons b bs ih =>
    have hb : passOf (mtcp x) addr (x.wire b) = some (.data "" addr (x.bid b) (x.wire b)) := by
      simp [passOf, mtcp, h b List.mem_cons_self]
    rw [List.map_cons, List.filterMap_cons_some hb, ih fun c hc => h c (List.mem_cons_of_mem _ hc), List.map_cons]

/-- C126: from one `dtnecla_mtcp` to another. If an incoming connection of the second is an outgoing connection of the first, the second gives its
node the bundles that the first wrote on it, in order, none twice and none changed, and all of them once it has read everything. -/
theorem C126_mtcp_across (x : Codec) (evsA evsB : List Bridge.Ev) (a b : Bridge.State) (c i : Nat) (o : Outgoing) (k : Incoming)
    (hA : After (mtcp x) evsA a) (hB : After (mtcp x) evsB b) (ho : a.outs[c]? = some o) (hk : b.ins[i]? = some k) (hc : k.chunks.flatten <+: o.written)
    (hx : ∀ p ∈ passed evsA, ∀ bn, bundle x p = some bn → Spec.BundleBytes (x.wire bn) ∧ x.parse (x.wire bn) = some bn) :
    acceptedFrom b i <+: ((sentOn a c).filterMap (bundle x)).map (fun bn => .data "" k.addr (x.bid bn) (x.wire bn)) ∧
    (k.chunks.flatten = o.written → Settled (mtcp x) b i →
      acceptedFrom b i = ((sentOn a c).filterMap (bundle x)).map fun bn => .data "" k.addr (x.bid bn) (x.wire bn)) := by
  obtain ⟨-, h2, h3⟩ := C126_mtcp_readable x evsA a c o k.chunks hA ho (fun p hp bn hb => (hx p hp bn hb).1) hc
  have hi := InInv.after (mtcp_grows x) hB
  rw [acceptedFrom_all (hi.waits rfl)]
  have hrt : ∀ bn ∈ (sentOn a c).filterMap (bundle x), x.parse (x.wire bn) = some bn := by
    intro bn hbn
    obtain ⟨p, hp, hb⟩ := List.mem_filterMap.1 hbn
    exact (hx p (mem_passed_of_handled hA (mem_sentOn.1 hp)) bn hb).2
  constructor
  · rw [(hi.conn i k hk).packets, ← mtcp_pass hrt]
    exact ((List.take_prefix _ _).trans h2).filterMap _
  · intro heq hst
    have hfr := h3 heq
    rw [settled_all hi hk hst, ← mtcp_pass hrt, ← hfr]
    · rfl
    · intro f hf hstop
      change f ∈ (Mtcp.receive k.chunks).frames at hf
      rw [hfr] at hf
      obtain ⟨bn, hbn, rfl⟩ := List.mem_map.1 hf
      simp [mtcp, hrt bn hbn] at hstop

example : (({} : Bridge.State).run (mtcp brCodec) (brIn (mtcp brCodec))).isSome = true ∧
    acceptedFrom (brState (mtcp brCodec) (brIn (mtcp brCodec))) 0 = [.data "" "a" (brBundle 1).id (brCodec.wire (brBundle 1)), .data "" "a" (brBundle 3).id (brCodec.wire (brBundle 3))] ∧
    ((brState (mtcp brCodec) (brIn (mtcp brCodec))).ins[0]?.map fun k => k.chunks.flatten) = ((brState (mtcp brCodec) brOut).outs[0]?.map fun o => o.written) ∧
    Settled (mtcp brCodec) (brState (mtcp brCodec) (brIn (mtcp brCodec))) 0 ∧
    (∀ p ∈ passed brOut, ∀ bn, bundle brCodec p = some bn → brCodec.parse (brCodec.wire bn) = some bn) := by
  refine ⟨by decide +kernel, by decide +kernel, by decide +kernel, .inr ⟨by decide +kernel, by decide +kernel, by decide +kernel⟩, ?_⟩
  intro p hp bn hbn
  have hall : (passed brOut).all (fun p => (bundle brCodec p).all fun bn => decide (brCodec.parse (brCodec.wire bn) = some bn)) = true := by decide +kernel
  have := List.all_eq_true.1 hall p hp
  rw [hbn] at this
  simpa using this

/-- The frames of packets become the packets. -/
theorem json_pass {x : Codec} {addr : String} {ps : List EclaPacket} (h : ∀ p ∈ ps, x.fromJson (x.json p) = some p) :
    (ps.map x.json).filterMap (passOf (jsonMtcp x) addr) = ps := by
  induction ps with
  | nil => rfl
  | cons p ps ih =>
    have hp : passOf (jsonMtcp x) addr (x.json p) = some p := by
      simp [passOf, jsonMtcp, h p List.mem_cons_self]
    rw [List.map_cons, List.filterMap_cons_some hp, ih fun q hq => h q (List.mem_cons_of_mem _ hq)]

/-- C126: from one JSON program to another: the packets arrive in order, none twice and none changed; they all arrive if the channel to the client
always has room. Missing: packets that find it full are dropped, see below. -/
theorem C126_json_across_partial (x : Codec) (evsA evsB : List Bridge.Ev) (a b : Bridge.State) (c i : Nat) (o : Outgoing) (k : Incoming)
    (hA : After (jsonMtcp x) evsA a) (hB : After (jsonMtcp x) evsB b) (ho : a.outs[c]? = some o) (hk : b.ins[i]? = some k) (hc : k.chunks.flatten <+: o.written)
    (hx : ∀ p ∈ passed evsA, Spec.EclaFrames.Fits (x.json p) ∧ x.fromJson (x.json p) = some p) :
    acceptedFrom b i <+ sentOn a c ∧
    (Roomy (jsonMtcp x) evsB → acceptedFrom b i <+: sentOn a c ∧
      (k.chunks.flatten = o.written → Settled (jsonMtcp x) b i → acceptedFrom b i = sentOn a c)) := by
  obtain ⟨-, h2, h3⟩ := C126_json_readable_partial x evsA a c o k.chunks hA ho (fun p hp => (hx p hp).1) hc
  have hi := InInv.after (json_grows x) hB
  have hrt : ∀ p ∈ sentOn a c, x.fromJson (x.json p) = some p := fun p hp => (hx p (mem_passed_of_handled hA (mem_sentOn.1 hp))).2
  have hoff : offeredFrom b i <+: sentOn a c := by
    rw [(hi.conn i k hk).packets]
    have := ((List.take_prefix k.used _).trans h2).filterMap (passOf (jsonMtcp x) k.addr)
    rwa [json_pass hrt] at this
  constructor
  · refine List.Sublist.trans ?_ hoff.sublist
    unfold acceptedFrom offeredFrom
    refine List.Sublist.map _ ?_
    have : (b.offered.filter fun o => decide (o.1 = i ∧ o.2.2 = true)) = (b.offered.filter fun o => decide (o.1 = i)).filter fun o => o.2.2 := by
      rw [List.filter_filter]
      exact List.filter_congr fun o _ => by rw [Bool.eq_iff_iff]; simp [and_comm]
    rw [this]
    exact List.filter_sublist
  · intro hr
    rw [acceptedFrom_all (no_drop hB hr)]
    refine ⟨hoff, fun heq hst => ?_⟩
    have hfr := h3 heq
    rw [settled_all hi hk hst]
    · change (EclaFrames.receive k.chunks).packets.filterMap _ = _
      rw [hfr, json_pass hrt]
    · intro f _ hstop
      simp only [jsonMtcp] at hstop
      split at hstop <;> cases hstop

example : (({} : Bridge.State).run (jsonMtcp brCodec) (brIn (jsonMtcp brCodec))).isSome = true ∧
    acceptedFrom (brState (jsonMtcp brCodec) (brIn (jsonMtcp brCodec))) 0 = [brPacket "b" 1, brPacket "b" 3] ∧
    (∀ p ∈ sentOn (brState (jsonMtcp brCodec) brOut) 0, brCodec.fromJson (brCodec.json p) = some p) := by
  refine ⟨by decide +kernel, by decide +kernel, by decide +kernel⟩

/-! ## What goes wrong -/

/-- C126 fails: if a connection cannot be opened or breaks while a packet is written, the packet is gone. Nothing is said to the node, which has
been told that the packet was sent, and the packet is never tried again. -/
theorem C126_lost_violated (g : Prog) (s t u : Bridge.State) (p : EclaPacket) (e : Bridge.Ev) (evs : List Bridge.Ev)
    (hs : (s.busy = none ∧ s.rx.head? = some p ∧ (∃ dst, For g dst p ∧ s.pool.get? dst = none) ∧ e = .pick false) ∨
      (∃ dst data k, s.busy = some (p, dst, data) ∧ (s.pool.get? dst).isSome = true ∧ e = .write (some k)))
    (hst : s.step g e = some t) (hr : t.run g evs = some u) :
    t.ended = false ∧ t.ctx = s.ctx ∧ t.offered = s.offered ∧ u.handled[s.handled.length]? = some (p, .lost) := by
  have hfin : ∀ t : Bridge.State, t.handled = s.handled ++ [(p, .lost)] → t.run g evs = some u → u.handled[s.handled.length]? = some (p, .lost) := by
    intro t ht hr
    obtain ⟨l, hl⟩ := handled_run hr
    rw [← hl, ht]; simp
  have hse : s.ended = false := by
    cases hse : s.ended with
    | false => rfl
    | true => rw [ended_stays hse] at hst; cases hst
  rcases hs with ⟨hb, hrx, ⟨dst, ⟨data, hf⟩, hg⟩, rfl⟩ | ⟨dst, data, k, hb, hg, rfl⟩
  · obtain ⟨rx, hrx⟩ : ∃ rx, s.rx = p :: rx := by
      cases h : s.rx with
      | nil => simp [h] at hrx
      | cons q rx => simp only [h, List.head?_cons, Option.some.injEq] at hrx; exact ⟨rx, by rw [hrx]⟩
    simp only [State.step, hse, hb, hrx, hf, AList.contains, hg, Bool.false_eq_true, if_false, Option.isSome_none, Option.some.injEq] at hst
    subst hst
    exact ⟨rfl, rfl, rfl, hfin _ rfl hr⟩
  · obtain ⟨c, hc⟩ := Option.isSome_iff_exists.1 hg
    simp only [State.step, hse, hb, hc, Bool.false_eq_true, if_false] at hst
    split at hst
    · cases hst
    · split at hst
      · simp only [Option.some.injEq] at hst; subst hst
        exact ⟨rfl, rfl, rfl, hfin _ rfl hr⟩
      · cases hst

example : (({} : Bridge.State).run (mtcp brCodec) [.packet (brPacket "b" 1), .pick false]).isSome = true ∧
    (({} : Bridge.State).run (mtcp brCodec) [.packet (brPacket "b" 1), .pick true, .write (some 4)]).isSome = true := by decide +kernel

/-- C126: nobody but the node can end the programs, if no one connects from an address that packets are sent to. -/
theorem C126_keeps_running_partial (g : Prog) (evs : List Bridge.Ev) (s : Bridge.State) (h : After g evs s) (ha : Apart g evs) (he : s.ended = true) :
    g.exits = true ∧ .clientEnds ∈ evs := (keep h ha).ended he

example : Apart (mtcp brCodec) ([.accept "a"] ++ brOut ++ [.clientEnds]) ∧ (brState (mtcp brCodec) ([.accept "a"] ++ brOut ++ [.clientEnds])).ended = true := by
  refine ⟨?_, by decide +kernel⟩
  intro addr hm p hp
  have ha : addr = "a" := by simpa [brOut, brSend] using hm
  subst ha
  rintro ⟨data, hd⟩
  have hall : (passed ([.accept "a"] ++ brOut ++ [.clientEnds])).all (fun p => decide (((mtcp brCodec).frame p).map (fun f => f.1) ≠ some "a")) = true := by decide +kernel
  have := List.all_eq_true.1 hall p hp
  rw [hd] at this
  simp at this

/-- C126 fails: whoever connects from an address that packets are sent to can end the program, by closing that connection between the moment the
program has found its own connection and the moment it uses it. -/
theorem C126_ended_by_peer_violated (g : Prog) (s : Bridge.State) (p : EclaPacket) (dst : String) (data : Bytes) (i : Nat) (k : Incoming)
    (he : s.ended = false) (hb : s.busy = some (p, dst, data)) (hk : s.ins[i]? = some k) (ha : k.addr = dst) (hd : k.done = false) (hc : k.closed = false)
    (hf : (g.frames k.chunks).1[k.used]? = none) :
    ∃ t, s.run g [.close i, .next i, .write none] = some t ∧ t.ended = true ∧ ∀ e, t.step g e = none := by
  subst ha
  have hlt := (List.getElem?_eq_some_iff.1 hk).1
  refine ⟨{ s with ins := (s.ins.set i { k with closed := true }).set i { k with closed := true, done := true }, pool := s.pool.erase k.addr, busy := none, handled := s.handled ++ [(p, .lost)], ended := true }, ?_, rfl, fun e => by simp [State.step]⟩
  have h1 : s.step g (.close i) = some { s with ins := s.ins.set i { k with closed := true } } := by
    simp only [State.step, he, hk, hc, hd, Bool.false_eq_true, if_false, and_self, if_true]
  have h2 : ({ s with ins := s.ins.set i { k with closed := true } } : Bridge.State).step g (.next i) =
      some { s with ins := (s.ins.set i { k with closed := true }).set i { k with closed := true, done := true }, pool := s.pool.erase k.addr } := by
    have hk' : (s.ins.set i { k with closed := true })[i]? = some { k with closed := true } := List.getElem?_set_self hlt
    simp only [hd] at hk'
    simp only [State.step, he, hk', hd, hf, Bool.false_eq_true, if_false, or_true, if_true, State.finish]
  have h3 : ({ s with ins := (s.ins.set i { k with closed := true }).set i { k with closed := true, done := true }, pool := s.pool.erase k.addr } : Bridge.State).step g (.write none) =
      some { s with ins := (s.ins.set i { k with closed := true }).set i { k with closed := true, done := true }, pool := s.pool.erase k.addr, busy := none, handled := s.handled ++ [(p, .lost)], ended := true } := by
    simp only [State.step, he, hb, AList.get?_erase_self, Bool.false_eq_true, if_false]
  simp only [State.run, h1, h2, h3, Option.bind_some]

example : (({} : Bridge.State).run (mtcp brCodec) [.accept "b", .packet (brPacket "b" 1), .pick true, .close 0, .next 0, .write none]).isSome = true := by decide +kernel

/-- C126 fails: a packet that finds the channel to the client full is dropped by the JSON program, although it arrived. -/
theorem C126_json_dropped_violated (x : Codec) (s : Bridge.State) (i : Nat) (k : Incoming) (f : Bytes) (p : EclaPacket) (he : s.ended = false)
    (hk : s.ins[i]? = some k) (hd : k.done = false) (hf : (EclaFrames.receive k.chunks).packets[k.used]? = some f) (hp : x.fromJson f = some p)
    (hfull : s.ctx.length = 100) :
    ∃ t, s.step (jsonMtcp x) (.next i) = some t ∧ t.ctx = s.ctx ∧ t.ins = s.ins.set i { k with used := k.used + 1 } := by
  refine ⟨{ s with ins := s.ins.set i { k with used := k.used + 1 }, offered := s.offered ++ [(i, p, false)] }, ?_, rfl, rfl⟩
  have hfr : ((jsonMtcp x).frames k.chunks).1[k.used]? = some f := hf
  have hit : (jsonMtcp x).item k.addr f = .pass p := by simp [jsonMtcp, hp]
  have hw : (jsonMtcp x).waits = false := rfl
  simp [State.step, he, hk, hd, hfr, hit, hw, hfull, capacity]

/-- A hundred and one packets arrive at once. -/
def brFlood : List Bridge.Ev :=
  [.accept "a", .chunk 0 ((List.range 101).flatMap fun _ => EclaFrames.frame [1])] ++ List.replicate 100 (.next 0)

set_option maxRecDepth 100000 in
example : (({} : Bridge.State).run (jsonMtcp brCodec) (brFlood ++ [.next 0])).isSome = true ∧ (brState (jsonMtcp brCodec) brFlood).ctx.length = 100 ∧
    (brState (jsonMtcp brCodec) (brFlood ++ [.next 0])).ctx.length = 100 := by decide +kernel

/-- C126 fails: whoever can connect to the JSON program can have it send the node any packet. -/
theorem C126_json_foreign_violated (x : Codec) (s : Bridge.State) (p : EclaPacket) (addr : String) (he : s.ended = false) (hroom : s.ctx.length < 100)
    (hj : x.fromJson (x.json p) = some p) (hfit : Spec.EclaFrames.Fits (x.json p)) :
    ∃ t, s.run (jsonMtcp x) [.accept addr, .chunk s.ins.length (EclaFrames.frame (x.json p)), .next s.ins.length] = some t ∧ t.ctx = s.ctx ++ [p] := by
  have hrd : (EclaFrames.receive [EclaFrames.frame (x.json p)]).packets = [x.json p] := by
    have := (json_reads [x.json p] [] [EclaFrames.frame (x.json p)] (by simpa using hfit) (.inl rfl) (by simp)).2.2
    exact this (by simp)
  refine ⟨{ s with ins := (s.ins ++ [({ addr, chunks := [EclaFrames.frame (x.json p)] } : Incoming)]).set s.ins.length ({ addr, chunks := [EclaFrames.frame (x.json p)], used := 1 } : Incoming), ctx := s.ctx ++ [p], offered := s.offered ++ [(s.ins.length, p, true)] }, ?_, rfl⟩
  have hfr : ((jsonMtcp x).frames [EclaFrames.frame (x.json p)]).1[0]? = some (x.json p) := by
    change (EclaFrames.receive [EclaFrames.frame (x.json p)]).packets[0]? = _
    rw [hrd]; rfl
  have hit : (jsonMtcp x).item addr (x.json p) = .pass p := by simp [jsonMtcp, hj]
  simp [State.run, State.step, he, hfr, hit, hroom, capacity]

/-- C126 fails: so a stranger can stop all external convergence layers of the node. They have the program send an announcement with a service
block that cannot be read; when the node handles it, no bundle is accepted from or sent to any module any more. -/
theorem C126_json_stops_node_violated (x : Codec) (y : ConnectN.Ext) (s : Bridge.State) (addr : String) (eid : EID) (a : String) (block : Bytes)
    (he : s.ended = false) (hroom : s.ctx.length < 100) (hj : x.fromJson (x.json (.beacon eid a block)) = some (.beacon eid a block))
    (hfit : Spec.EclaFrames.Fits (x.json (.beacon eid a block))) (hblock : y.classify block ≠ .fine)
    (n m u : Ecla.State) (c : Nat) (at_ : Ecla.Addr) (name : Bytes) (evs : List Ecla.Ev) (hc : Spec.Ecla.Connected n c at_) (ha : Spec.Ecla.ActiveAs n at_ name)
    (hl : at_.layer ∈ n.connectors) (hsound : Spec.Ecla.Sound n)
    (hst : Ecla.step n (.packet c (ConnectN.read y (.beacon eid a block))) = some m) (hr : Ecla.run m evs = some u) :
    (∃ t, s.run (jsonMtcp x) [.accept addr, .chunk s.ins.length (EclaFrames.frame (x.json (.beacon eid a block))), .next s.ins.length] = some t ∧
      t.ctx = s.ctx ++ [.beacon eid a block]) ∧
    u.received = n.received ∧ ∃ r, u.results = n.results ++ r ∧ ∀ z ∈ r, z.2 ≠ some true := by
  refine ⟨C126_json_foreign_violated x s _ addr he hroom hj hfit, ?_⟩
  obtain ⟨-, -, h3, -, h5⟩ := C74_bad_beacon_stops_all_modules_violated n m u c at_ name eid a (y.classify block) evs hc ha hl hblock hst hr hsound
  exact ⟨h3, h5⟩

example : brCodec.fromJson (brCodec.json (.beacon (.dtn "a" "") "" [7])) = some (.beacon (.dtn "a" "") "" [7]) ∧
    Spec.EclaFrames.Fits (brCodec.json (.beacon (.dtn "a" "") "" [7])) ∧
    ∃ y : ConnectN.Ext, y.classify [7] ≠ .fine ∧ (Ecla.step eclaTwoState (.packet 0 (ConnectN.read y (.beacon (.dtn "a" "") "" [7])))).isSome = true := by
  refine ⟨by decide, by unfold Spec.EclaFrames.Fits; decide, { host := fun _ => .none, nodeid := fun _ => "", bid := fun b => b.id, wire := fun _ => [], parse := fun _ => none, classify := fun _ => .undecodable }, by simp, ?_⟩
  decide +kernel

/-- C126 fails: the JSON program goes on without its node when the connection to it ends, for ever, and gets no packet any more. -/
theorem C126_json_stays_violated (x : Codec) (s t u : Bridge.State) (evs : List Bridge.Ev) (hs : s.step (jsonMtcp x) .clientEnds = some t)
    (hr : t.run (jsonMtcp x) evs = some u) :
    t.ended = false ∧ u.client = false ∧ passed evs = [] := by
  have hstep : t.ended = false ∧ t.client = false := by
    simp only [State.step] at hs
    split at hs
    · cases hs
    rename_i he
    split at hs
    · simp only [Option.some.injEq] at hs; subst hs; exact ⟨rfl, rfl⟩
    · cases hs
  refine ⟨hstep.1, ?_⟩
  have key : ∀ (evs : List Bridge.Ev) (t : Bridge.State), t.client = false → t.run (jsonMtcp x) evs = some u → u.client = false ∧ passed evs = [] := by
    intro evs
    induction evs with
    | nil =>
      intro t ht hr
      simp only [State.run, Option.some.injEq] at hr
      subst hr; exact ⟨ht, rfl⟩
    | cons e es ih =>
      intro t ht hr
      simp only [State.run, Option.bind_eq_some_iff] at hr
      obtain ⟨v, hv, hr⟩ := hr
      have hvc : v.client = false ∧ passed [e] = [] := by
        cases e with
        | packet p => simp [State.step, ht] at hv
        | clientEnds => simp [State.step, ht] at hv
        | _ =>
          simp only [State.step] at hv
          repeat' split at hv
          all_goals first | (cases hv; done) | (simp only [Option.some.injEq] at hv; subst hv; exact ⟨ht, rfl⟩)
      have := ih v hvc.1 hr
      exact ⟨this.1, by rw [← List.singleton_append, passed_append, hvc.2, this.2]; rfl⟩
  exact key evs t hstep.2 hr

end Dtn.Props
