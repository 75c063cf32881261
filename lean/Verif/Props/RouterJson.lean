import Verif.Lemmas.RouterJson
/-!
C143: the JSON text of the packets between a node and an external router.
-/

namespace Dtn.Props
open Spec.RouterJson RouterJson
open Spec.EclaJson (Has)
open Spec.Rfc8259 (Gram Text)
open Serde (Value)

/-- Readers for the examples. -/
def exRouterExt : Ext where
  bundle b := .str b.id
  readBundle _ := none
  readEid
    | .list [.num 1, .num 0] => some .none
    | .list [.num 1, .str s] => Discovery.parseDtn s.toList
    | .list [.num 2, .list [.num n, .num s]] => some (.ipn n s)
    | _ => none
  readIp s := if s = "10.0.0.1" then some (.ipv4 s) else none
  order s := [.dispatchPending, .forwardPending, .reassemblyPending, .contraindicated, .localEndpoint, .deleted].filter s.has
  finite _ := true

/-- A record for the examples. -/
def exJsonPack : Pack :=
  { source := .dtn "a" "x", destination := .ipn 3 4, receivedTime := 5, creationTime := 6, lifetime := 7, id := "dtn://a/x-6-0", administrative := false,
    size := 8, constraints := CSet.empty.set true .forwardPending }

/-- A peer for the examples, with some services. -/
def exJsonPeer (s : List (Nat × String)) : PeerInfo :=
  { eid := .dtn "b" "", addr := .ipv4 "10.0.0.1", conType := .dynamic, period := some (2, 500000000), claList := [("mtcp", some 4556), ("udp", none)],
    services := s, lastContact := 9, fails := 1 }

/-- C143: a packet is written as a JSON object with the type and the fields of the packet. -/
theorem C143_written (x : Ext) (complete : Complete x) (p : Packet) (sized : Sized p)
    (bundle : ∀ b, p = .incoming b → Gram 126 (.value (x.bundle b)) (Serde.chars (x.bundle b))) :
    ∃ l, Text 127 (.obj l) (write x p) ∧ Means (written x) l p := by
  obtain ⟨l, -, h⟩ := write_spec complete sized (written x) (fun e _ => EclaJson.eid_spec e) (fun _ _ _ h => h) fun b hb => ⟨rfl, bundle b hb⟩
  exact ⟨l, h⟩

example : Complete exRouterExt ∧ Sized (.request ["mtcp"] exJsonPack) ∧ Sized (.peerState [("b", exJsonPeer [(7, "gps")])]) ∧
    write exRouterExt (.request ["mtcp"] exJsonPack) =
      ("{\"type\":\"RequestSenderForBundle\",\"clas\":[\"mtcp\"],\"bp\":{\"source\":[1,\"//a/x\"],\"destination\":[2,[3,4]],\"received_time\":5," ++
       "\"creation_time\":6,\"lifetime\":7,\"id\":\"dtn://a/x-6-0\",\"administrative\":false,\"size\":8,\"constraints\":[\"ForwardPending\"]}}").toList ∧
    write exRouterExt (.encountered "b" (.dtn "b" "") (exJsonPeer [(7, "gps")])) =
      ("{\"type\":\"EncounteredPeer\",\"name\":\"b\",\"eid\":[1,\"//b/\"],\"peer\":{\"eid\":[1,\"//b/\"],\"addr\":{\"Ip\":\"10.0.0.1\"}," ++
       "\"con_type\":\"Dynamic\",\"period\":{\"secs\":2,\"nanos\":500000000},\"cla_list\":[[\"mtcp\",4556],[\"udp\",null]],\"services\":{\"7\":\"gps\"}," ++
       "\"last_contact\":9,\"fails\":1}}").toList := by
  refine ⟨?_, ⟨?_, ?_, ?_, ?_, ?_, ?_⟩, ⟨?_, ?_, ?_, ?_, ?_, ?_⟩, by decide +kernel, by decide +kernel⟩
  · intro s c; cases c <;> simp [exRouterExt]
  all_goals simp [eids, packs, hops, peers, services, exJsonPack, exJsonPeer]
  rintro a b (⟨rfl, rfl⟩ | ⟨rfl, rfl⟩) n h <;> cases h
  decide

/-- C143, the part of reading that holds: a text is understood as a packet exactly if it is JSON in up to 127 levels of an object that is that packet,
whatever its white space, order of fields, further fields and escapes, no number in it is out of range, and the packet names no services. Missing:
packets with services, which are not understood at all, see `C143_services_violated`. Not modelled: structures written as lists, which serde reads too. -/
theorem C143_read_partial (x : Ext) (cs : List Char) (p : Packet) : RouterJson.read x cs = some p ↔
    ∃ l, Text 127 (.obj l) cs ∧ (∀ t, Spec.Rfc8259.Other (.obj l) t → x.finite t = true) ∧ Means (taken x) l p ∧ services p = [] := by
  unfold RouterJson.read
  rw [Option.bind_eq_some_iff]
  constructor
  · rintro ⟨v, h1, h2⟩
    obtain ⟨h3, h4⟩ := (Serde.parse_iff _ _ _).1 h1
    cases v with
    | obj l => exact ⟨l, h3, h4, (fromValue_iff x l p).1 h2⟩
    | _ => simp [fromValue] at h2
  · rintro ⟨l, h3, h4, h⟩
    exact ⟨.obj l, (Serde.parse_iff _ _ _).2 ⟨h3, h4⟩, (fromValue_iff x l p).2 h⟩

example : RouterJson.read exRouterExt
    (" {\"clas\":[{\"agent\":\"mtcp\", \"next_hop\":[1,\"//b/\"],\"remote\":{\"Generic\":\"q\"},\"more\":{}}],\"delete_afterwards\": true," ++
     "\"bp\":{\"constraints\":[\"ForwardPending\",\"ForwardPending\"],\"source\":[1,\"//a/x\"],\"destination\":[2,[3,4]],\"received_time\":5," ++
     "\"creation_time\":6,\"lifetime\":7,\"id\":\"dtn://a/x-6-0\",\"administrative\":false,\"size\":8},\"type\":\"ResponseSenderFor\\u0042undle\"}").toList =
    some (.response exJsonPack [{ remote := .generic "q", port := none, agent := "mtcp", nextHop := .dtn "b" "" }] true) := by decide +kernel

/-- With a number out of range, a comma too many or a service in it, a text is not understood. -/
example : (∀ s ∈ ["{\"type\":\"Error\",\"reason\":\"a\",\"x\":-1.5E+3}", "{\"type\":\"ServiceState\",\"service_list\":{}}"],
      RouterJson.read exRouterExt s.toList ≠ none) ∧
    RouterJson.read { exRouterExt with finite := fun _ => false } "{\"type\":\"Error\",\"reason\":\"a\",\"x\":-1.5E+3}".toList = none ∧
    (∀ s ∈ ["{\"type\":\"Error\",\"reason\":\"a\",}", "{\"type\":\"Error\",\"reason\":\"a\",\"x\":-01}", "{\"type\":\"ServiceState\",\"service_list\":{\"7\":\"gps\"}}"],
      RouterJson.read exRouterExt s.toList = none) := by decide +kernel

/-- C143, the part of the round trip that holds: what one side writes the other reads, if the packet names no services and the readers of other crates
read the endpoint ids, addresses and bundles of the packet. -/
theorem C143_round_trip_partial (x : Ext) (complete : Complete x) (p : Packet) (sized : Sized p)
    (bundle : ∀ b, p = .incoming b → Gram 126 (.value (x.bundle b)) (Serde.chars (x.bundle b)) ∧ x.readBundle (x.bundle b) = some b ∧
      ∀ t, Spec.Rfc8259.Other (x.bundle b) t → x.finite t = true)
    (readsEid : ∀ e ∈ eids p, ∀ v, Spec.EclaJson.Eid e v → x.readEid v = some e)
    (readsIp : ∀ a ∈ addresses p, ∀ s, IsIp a s → x.readIp s = some a) (noServices : services p = []) :
    RouterJson.read x (write x p) = some p := by
  obtain ⟨l, h0, h1, h2⟩ := write_spec complete sized (taken x) (fun e he => readsEid e he _ (EclaJson.eid_spec e)) readsIp
    fun b hb => ⟨(bundle b hb).2.1, (bundle b hb).1⟩
  refine (C143_read_partial x _ p).2 ⟨l, h1, fun t ht => ?_, h2, noServices⟩
  obtain ⟨b, e, hb⟩ := no_others x p t (h0 ▸ ht)
  exact (bundle b e).2.2 t hb

example : let p : Packet := .encountered "b" (.dtn "b" "") (exJsonPeer [])
    (∀ e ∈ eids p, ∀ v, Spec.EclaJson.Eid e v → exRouterExt.readEid v = some e) ∧
    (∀ a ∈ addresses p, ∀ s, IsIp a s → exRouterExt.readIp s = some a) ∧ services p = [] ∧ RouterJson.read exRouterExt (write exRouterExt p) = some p := by
  refine ⟨?_, ?_, rfl, by decide +kernel⟩
  · intro e he v hv
    have : e = .dtn "b" "" := by simpa [eids, packs, hops, peers, exJsonPeer] using he
    subst this
    have hv : v = .list [.num 1, .str "//b/"] := hv
    subst hv; decide +kernel
  · intro a ha s hs
    have : a = .ipv4 "10.0.0.1" := by simpa [addresses, hops, peers, exJsonPeer] using ha
    subst this
    rcases hs with h | h
    · cases h; rfl
    · cases h

/-- C143 is false for packets that name services: the client library of external routers drops them. In particular the state of all peers is lost if a
single peer announces a service, and a peer with services is never reported. -/
theorem C143_services_violated (x : Ext) (complete : Complete x) (p : Packet) (sized : Sized p)
    (bundle : ∀ b, p ≠ .incoming b) (named : services p ≠ []) : RouterJson.read x (write x p) = none := by
  obtain ⟨l, h1, h2⟩ := C143_written x complete p sized fun b hb => (bundle b hb).elim
  cases h : RouterJson.read x (write x p) with
  | none => rfl
  | some q =>
    obtain ⟨l', h5, -, h3, h4⟩ := (C143_read_partial x _ q).1 h
    cases (Serde.machine_text h5).symm.trans (Serde.machine_text h1)
    have ty : ∀ {t u}, Has l "type" (.str t) → Has l "type" (.str u) → t = u := fun a b => by
      have := EclaJson.has_unique a b; simpa using this
    refine absurd ?_ named
    have fu : ∀ {k K K'}, Field l k K → Field l k K' → ∃ v, K v ∧ K' v := by
      rintro k K K' ⟨v, a, b⟩ ⟨w, c, d⟩
      have := EclaJson.has_unique a c; subst this; exact ⟨v, b, d⟩
    have noS : ∀ {s v}, Services s v → Services [] v → s = [] := by
      rintro s v ⟨l1, rfl, e1⟩ ⟨l2, e, e2⟩
      cases e; cases e2; cases e1; rfl
    have noP : ∀ {a b : PeerInfo} {F G v}, PeerObj F a v → PeerObj G b v → b.services = [] → a.services = [] := by
      rintro a b F G v ⟨l1, rfl, -, -, -, -, -, ⟨w, a1, a2⟩, -, -⟩ ⟨l2, e, -, -, -, -, -, ⟨u, b1, b2⟩, -, -⟩ hb
      cases e
      have := EclaJson.has_unique a1 b1; subst this
      rw [hb] at b2
      exact noS a2 b2
    cases p with
    | encountered n e a =>
      cases q with
      | encountered n' e' b =>
        obtain ⟨v, c, d⟩ := fu h2.2.2.2 h3.2.2.2
        have := noP c d (by simpa [services, peers] using h4)
        simp [services, peers, this]
      | _ => exact absurd (ty h2.1 h3.1) (by decide)
    | peerState ps =>
      cases q with
      | peerState qs =>
        obtain ⟨v, ⟨l1, rfl, c⟩, l2, e, d⟩ := fu h2.2 h3.2
        cases e
        have key : ∀ {ps qs : List (String × PeerInfo)} {l : List (String × Value)}, Each (fun p f => f.1 = p.1 ∧ PeerObj (written x) p.2 f.2) ps l →
            Each (fun p f => f.1 = p.1 ∧ PeerObj (taken x) p.2 f.2) qs l → (∀ q ∈ qs, q.2.services = []) → ∀ p ∈ ps, p.2.services = [] := by
          intro ps qs l c
          induction c generalizing qs with
          | nil => intro _ _ p hp; cases hp
          | cons h c ih =>
            intro d hq p hp
            cases d with
            | cons h' d =>
              rcases List.mem_cons.1 hp with rfl | hp
              · exact noP h.2 h'.2 (hq _ (by simp))
              · exact ih d (fun q hq' => hq q (by simp [hq'])) p hp
        simp only [services, peers, List.flatMap_eq_nil_iff] at h4 ⊢
        intro a ha
        obtain ⟨r, hr, rfl⟩ := List.mem_map.1 ha
        exact key c d (fun q hq => h4 _ (List.mem_map_of_mem hq)) r hr
      | _ => exact absurd (ty h2.1 h3.1) (by decide)
    | serviceState s =>
      cases q with
      | serviceState t =>
        obtain ⟨v, c, d⟩ := fu h2.2 h3.2
        have ht : t = [] := h4
        subst ht
        exact noS c d
      | _ => exact absurd (ty h2.1 h3.1) (by decide)
    | _ => rfl

example : let p : Packet := .peerState [("b", exJsonPeer [(7, "gps")]), ("c", exJsonPeer [])]
    services p ≠ [] ∧ RouterJson.read exRouterExt (write exRouterExt p) = none ∧
    RouterJson.read exRouterExt (write exRouterExt (.peerState [("b", exJsonPeer []), ("c", exJsonPeer [])])) ≠ none := by decide +kernel

/-- C143 is false for the documented packet that registers a service, of type `AddService`: it is not understood. -/
theorem C143_add_service_violated (x : Ext) (l : List (String × Value)) (cs : List Char) (text : Text 127 (.obj l) cs)
    (type : Has l "type" (.str "AddService")) : RouterJson.read x cs = none := by
  cases h : RouterJson.read x cs with
  | none => rfl
  | some q =>
    obtain ⟨l', h5, -, h3, -⟩ := (C143_read_partial x _ q).1 h
    cases (Serde.machine_text h5).symm.trans (Serde.machine_text text)
    cases q <;> exact absurd (EclaJson.has_unique type h3.1) (by simp)

example : RouterJson.read exRouterExt "{\"type\":\"AddService\",\"tag\":10,\"service\":\"name\"}".toList = none ∧
    RouterJson.read exRouterExt "{\"type\":\"ServiceAdd\",\"tag\":10,\"service\":\"name\"}".toList = some (.serviceAdd 10 "name") := by decide +kernel

/-- C143 is false for incoming bundles and the state of the services: they are not written with the documented fields `bundle` and `services`. -/
theorem C143_field_names_violated (x : Ext) (b : Bundle) (s : List (Nat × String)) :
    (∃ l, toValue x (.incoming b) = .obj l ∧ Has l "type" (.str "IncomingBundle") ∧ ∀ f ∈ l, f.1 ≠ "bundle") ∧
    ∃ l, toValue x (.serviceState s) = .obj l ∧ Has l "type" (.str "ServiceState") ∧ ∀ f ∈ l, f.1 ≠ "services" :=
  ⟨⟨_, rfl, rfl, by simp⟩, ⟨_, rfl, rfl, by simp⟩⟩

end Dtn.Props
