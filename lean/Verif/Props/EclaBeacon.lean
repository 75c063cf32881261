import Verif.Lemmas.EclaBeacon
import Verif.Props.EclaJson
import Verif.Props.Announcer
/-! Property C145: nodes behind external convergence layers learn of each other. -/

namespace Dtn.Props
open EclaBeacon Spec.EclaBeacons Cbor
open Discovery (F32 ServiceBlock Service buildService writeBlock readBlock)
open ModuleClient (EclaPacket)
open Spec.Discovery (Allowed Readable Carries)

/-- C145: whatever lists convergence layers and services as the beacons of this protocol do, in any layout CBOR has for it, makes the receiving
node list the sender under its id and the address the module gave, with exactly these layers and services. -/
theorem C145_received (s : St) (now : Nat) (eid : EID) (addr n : String) (b : ServiceBlock) (indefinite : Bool) (bs : Bytes)
    (listed : Listed indefinite b bs)
    (clas : ∀ c ∈ b.clas, ∀ p, c.2 = some p → p < 2 ^ 16) (tags : ∀ kv ∈ b.services, kv.1 < 2 ^ 8) (keys : (b.services.map (·.1)).Nodup)
    (readable : ∀ kv ∈ b.services, Readable kv.1 kv.2) (named : eid.node = some n) :
    ∃ t, receive s now (.beacon eid addr bs) = some t ∧
      Learned s t n now eid addr b.clas fun tag v => ∃ p, (tag, p) ∈ b.services ∧ Carries tag p v := by
  have hread := blockOf_listed listed clas tags
  have hs : ∀ kv ∈ Discovery.collect b.services, Readable kv.1 kv.2 := fun kv hm => readable kv (mem_collect hm)
  obtain ⟨r, hr, hm⟩ := C53_decoding_partial _ hs
  unfold receive
  simp only [hread, hr, Peers.add, Peer.new, named]
  refine ⟨_, rfl, ⟨?_, ⟨r, ?_, ?_⟩, ?_, rfl, rfl, rfl, rfl⟩⟩
  · exact AList.get?_insert_self _ _ _
  · rw [Option.getD_some]; exact AList.get?_insert_self _ _ _
  · intro tag v
    rw [hm]
    have hw : AList.WF b.services := keys
    constructor
    · rintro ⟨p, hp, hc⟩
      exact ⟨p, mem_collect hp, hc⟩
    · rintro ⟨p, hp, hc⟩
      have := hw.get?_of_mem hp
      rw [← Discovery.get?_collect hw] at this
      exact ⟨p, AList.mem_of_get? this, hc⟩
  · intro m hm
    constructor
    · exact AList.get?_insert_of_ne _ _ hm
    · exact AList.get?_insert_of_ne _ _ hm

/-- C145: a node all of whose services are within the documented limits generates a beacon with its id, no address, and a block that lists
its convergence layers with their ports and its services. -/
theorem C145_generated_partial (pf : List Char → Option F32) (s : St) (typed : Typed s) (valid : Valid pf s) :
    ∃ b bs, generate pf s = some (.beacon s.host "" bs) ∧ Listed false b bs ∧ b.clas = s.clas.map (fun c => (c.1, some c.2)) ∧
      (b.services.map (·.1)).Nodup ∧
      (∀ kv ∈ b.services, kv.1 < 2 ^ 8 ∧ Readable kv.1 kv.2) ∧
      ∀ tag v, (∃ p, (tag, p) ∈ b.services ∧ Carries tag p v) ↔ ∃ text, (tag, text) ∈ s.services ∧ Allowed pf tag text v := by
  obtain ⟨c, hc⟩ := fold_some (pf := pf) s.services (fun kv hm => by
    obtain ⟨v, hv⟩ := valid kv hm
    obtain ⟨p, hp⟩ := C53_allowed_accepted pf _ _ v hv
    exact ⟨_, hp⟩) (pre s)
  have hb : block pf s = some c.block := by rw [block_eq, hc]; rfl
  obtain ⟨h1, h2, h3, h4⟩ := block_is typed hb
  refine ⟨c.block, _, by unfold generate; rw [hb]; rfl, listed_write ?_ ?_, h1, h2, ?_, ?_⟩
  · rw [h1]
    refine ⟨by rw [List.length_map]; exact typed.clas.1, ?_⟩
    intro x hx
    obtain ⟨y, hy, rfl⟩ := List.mem_map.mp hx
    refine ⟨(typed.clas.2 y hy).1, fun p hp => ?_⟩
    cases hp
    exact (typed.clas.2 y hy).2
  · refine ⟨Nat.lt_of_le_of_lt h3 typed.services.1, ?_⟩
    rintro ⟨tag, p⟩ hx
    obtain ⟨text, ht, hp⟩ := (h4 tag p).mp hx
    have := typed.services.2.2 _ ht
    exact ⟨this.1, payload_sized hp this.2⟩
  · rintro ⟨tag, p⟩ hx
    obtain ⟨text, ht, hp⟩ := (h4 tag p).mp hx
    refine ⟨(typed.services.2.2 _ ht).1, ?_⟩
    obtain ⟨_, v, _, hv⟩ := C53_accepted_decodes pf tag text tag p hp
    rw [← Discovery.carries_iff] at hv
    by_contra hr
    have := Discovery.convert_panic (l := [(tag, p)]) ⟨_, by simp, hr⟩
    unfold Discovery.convert at this
    simp [hv, Discovery.convert] at this
  · intro tag v
    constructor
    · rintro ⟨p, hp, hc⟩
      obtain ⟨text, g1, g2⟩ := (h4 tag p).mp hp
      obtain ⟨_, v', g3, g4⟩ := C53_accepted_decodes pf tag text tag p g2
      cases Discovery.carries_unique hc g4
      exact ⟨text, g1, g3⟩
    · rintro ⟨text, g1, g2⟩
      obtain ⟨p, hp⟩ := C53_allowed_accepted pf tag text v g2
      obtain ⟨_, v', g3, g4⟩ := C53_accepted_decodes pf tag text tag p hp
      rw [allowed_unique g3 g2] at g4
      exact ⟨p, (h4 tag p).mpr ⟨text, g1, hp⟩, g4⟩

/-- C145, missing: services outside the limits. Any node that gets the beacon of another one, as JSON text of a module that filled in the
address, lists that node with exactly its layers, ports and services. -/
theorem C145_learned_partial (pf : List Char → Option F32) (s : St) (typed : Typed s) (valid : Valid pf s) (n : String) (named : s.host.node = some n)
    (sized : ∀ a b, s.host = .ipn a b → a < 2 ^ 64 ∧ b < 2 ^ 64) (finite : List Char → Bool) (eid : Serde.Value → Option EID)
    (reads : ∀ v, Spec.EclaJson.Eid s.host v → eid v = some s.host) (r : St) (now : Nat) (addr : String) :
    ∃ bs t, (generate pf s).bind (fun p => EclaJson.read finite eid (EclaJson.write p)) = some (.beacon s.host "" bs) ∧
      (EclaJson.read finite eid (EclaJson.write (.beacon s.host addr bs))).bind (receive r now) = some t ∧
      Learned r t n now s.host addr (s.clas.map fun c => (c.1, some c.2)) fun tag v => ∃ text, (tag, text) ∈ s.services ∧ Allowed pf tag text v := by
  obtain ⟨b, bs, h1, h2, h3, h4, h5, h6⟩ := C145_generated_partial pf s typed valid
  have hsz : ∀ a, Spec.EclaJson.Sized (.beacon s.host a bs) := by
    intro a
    cases hh : s.host with
    | ipn x y => exact sized x y hh
    | none => trivial
    | dtn x y => trivial
  have hrt := fun a => C142_round_trip finite eid (.beacon s.host a bs) (hsz a) (fun e v he hv => by cases he; exact reads v hv)
  obtain ⟨t, h7, h8⟩ := C145_received r now s.host addr n b false bs h2 (by
    rw [h3]
    intro c hc p hp
    obtain ⟨y, hy, rfl⟩ := List.mem_map.mp hc
    cases hp
    exact (typed.clas.2 y hy).2) (fun kv hm => (h5 kv hm).1) h4 (fun kv hm => (h5 kv hm).2) named
  refine ⟨bs, t, by rw [h1]; exact hrt "", by rw [hrt]; exact h7, ?_⟩
  obtain ⟨g1, ⟨l, g2, g3⟩, g4, g5, g6⟩ := h8
  rw [h3] at g1
  exact ⟨g1, ⟨l, g2, fun tag v => (g3 tag v).trans (h6 tag v)⟩, g4, g5, g6⟩

/-- C145 fails: a node with a service outside the limits, which nothing checks when it is registered, panics instead of generating a beacon. -/
theorem C145_no_beacon_violated (pf : List Char → Option F32) (s : St) (tag : Nat) (text : String) (has : (tag, text) ∈ s.services)
    (bad : ∀ v, ¬Allowed pf tag text v) : generate pf s = none := by
  unfold generate
  rw [block_eq, fold_none s.services ⟨_, has, fun r hr => ?_⟩]
  · rfl
  · obtain ⟨t, p⟩ := r
    obtain ⟨_, v, hv, _⟩ := C53_accepted_decodes pf tag text t p hr
    exact bad v hv

/-- C145 fails: a beacon of the node itself, which a module heard and passed on, makes the node list itself as a peer. Beacons that come by
UDP are ignored in this case. -/
theorem C145_own_beacon_violated (pf : List Char → Option F32) (s : St) (typed : Typed s) (valid : Valid pf s) (n : String) (named : s.host.node = some n)
    (now : Nat) (addr : String) :
    ∃ bs t, generate pf s = some (.beacon s.host "" bs) ∧ receive s now (.beacon s.host addr bs) = some t ∧
      ∃ p, AList.get? t.peers n = some p ∧ p.eid = t.host := by
  obtain ⟨b, bs, h1, h2, h3, h4, h5, h6⟩ := C145_generated_partial pf s typed valid
  obtain ⟨t, h7, h8⟩ := C145_received s now s.host addr n b false bs h2 (by
    rw [h3]
    intro c hc p hp
    obtain ⟨y, hy, rfl⟩ := List.mem_map.mp hc
    cases hp
    exact (typed.clas.2 y hy).2) (fun kv hm => (h5 kv hm).1) h4 (fun kv hm => (h5 kv hm).2) named
  exact ⟨bs, t, h1, h7, _, h8.peer, h8.node.1.symm⟩

/-- A node for the examples. -/
def exEclaNode : St := { host := .dtn "n1" "", clas := [("mtcp", 16162), ("lora", 0)], services := [(63, "hi"), (191, "75")] }

/-- Its neighbour. -/
def exEclaOther : St := { host := .dtn "n2" "", clas := [("lora", 0)], peers := [("n3", Peer.new 1 (.dtn "n3" "") (.generic "x") .static none [])] }

theorem exEclaNode_typed : Typed exEclaNode :=
  ⟨⟨by unfold Spec.Discovery.Sized; decide, by unfold Spec.Discovery.Sized; decide +kernel⟩,
    ⟨by unfold Spec.Discovery.Sized; decide, by decide, by unfold Spec.Discovery.Sized; decide +kernel⟩⟩

theorem exEclaNode_valid (pf : List Char → Option F32) : Valid pf exEclaNode := by
  intro kv hm
  simp only [exEclaNode, List.mem_cons, List.not_mem_nil, or_false] at hm
  rcases hm with rfl | rfl
  · exact ⟨_, .str (by decide +kernel)⟩
  · exact ⟨_, .battery (i := 75) ⟨[], ['7', '5'], by decide +kernel, by simp, by decide, .inl ⟨.inl rfl, by decide⟩⟩ (by decide) (by decide)⟩

/-- The neighbour after it got the beacon from a module. -/
def exEclaMet : Option St := (generate (fun _ => none) exEclaNode).bind fun p => match p with
  | .beacon e _ bs => receive exEclaOther 7 (.beacon e "AA:BB" bs)
  | _ => none

example : Typed exEclaNode ∧ Valid (fun _ => none) exEclaNode ∧ exEclaNode.host.node = some "n1" :=
  ⟨exEclaNode_typed, exEclaNode_valid _, rfl⟩

example : exEclaMet.map (·.peers) =
    some (("n1", Peer.new 7 (.dtn "n1" "") (.generic "AA:BB") .dynamic none [("mtcp", some 16162), ("lora", some 0)]) :: exEclaOther.peers) := by decide +kernel

example : exEclaMet.map (fun t => (t.peerServices.map (·.1), t.notified)) = some (["n1"], [.dtn "n1" ""]) := by decide +kernel

example : exEclaMet.bind (fun t => AList.get? t.peerServices "n1") = some [(63, .str "hi"), (191, .battery 75)] := by decide +kernel

/-- A block of another program, with lists and maps of indefinite length. -/
example : Listed true { clas := [("a", none)], services := [] } [0x82, 0x9f, 0x82, 0x61, 0x61, 0xf6, 0xff, 0xbf, 0xff] ∧
    blockOf [0x82, 0x9f, 0x82, 0x61, 0x61, 0xf6, 0xff, 0xbf, 0xff] = some { clas := [("a", none)], services := [] } := by
  have short : ∀ (m n : Nat) (b : UInt8), b.toNat / 32 = m → b.toNat % 32 = n → n < 24 → Spec.Beacons.Head m n [b] := by
    intro m n b h1 h2 h3
    exact ⟨b, [], rfl, h1, .inl ⟨by omega, rfl, h2.symm⟩⟩
  refine ⟨?_, by decide +kernel⟩
  unfold Listed
  rw [if_neg (by simp)]
  refine ⟨[0x82], [_, _], short _ _ _ rfl rfl (by decide), .cons (.inr ⟨rfl, [[0x82, 0x61, 0x61, 0xf6]], .cons ?_ .nil, rfl⟩) (.cons (.inr ⟨rfl, [], .nil, rfl⟩) .nil), ?_⟩
  · exact ⟨[0x82], [[0x61, 0x61], [0xf6]], short _ _ _ rfl rfl (by decide),
      .cons ⟨[0x61], short _ _ _ (by decide) (by decide +kernel) (by decide +kernel), by decide +kernel⟩ (.cons rfl .nil), rfl⟩
  · rfl

example : generate (fun _ => none) { exEclaNode with services := [(191, "101")] } = none := by decide +kernel

end Dtn.Props
