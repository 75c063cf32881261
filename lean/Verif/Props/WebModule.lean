import Verif.Props.WebPages
import Verif.Props.EclaBeacon
/-! Property C154: what modules of external convergence layers can put on the page of neighbours. -/

namespace Dtn.Props
open Spec Spec.Html WebPages Spec.EclaBeacons EclaBeacon Discovery

/-- C154 fails for every node that a module of an external convergence layer is connected to: one beacon, with any name and any readable
services, makes the page of neighbours contain a script, whatever the other neighbours are and however the table is walked. -/
theorem C154_module_markup_violated (w : Web) (s : St) (now : Nat) (eid : EID) (n : String) (b : ServiceBlock) (indefinite : Bool) (bs : Bytes)
    (listed : Listed indefinite b bs)
    (clas : ∀ c ∈ b.clas, ∀ p, c.2 = some p → p < 2 ^ 16) (tags : ∀ kv ∈ b.services, kv.1 < 2 ^ 8) (keys : (b.services.map (·.1)).Nodup)
    (readable : ∀ kv ∈ b.services, Spec.Discovery.Readable kv.1 kv.2) (named : eid.node = some n)
    (others : ∀ m p, AList.get? s.peers m = some p → HarmlessAddress p.addr) :
    ∃ t, receive s now (.beacon eid "<script>alert(1)</script>" bs) = some t ∧
      ∀ v : Status.View, (∀ m p, (∃ q ∈ v.peers, q.1 = m ∧ q.2.peer = p) ↔ AList.get? t.peers m = some p) →
        ∃ tags, HasTags (render (peers w v)) tags ∧ "script" ∈ tags := by
  obtain ⟨t, h1, h2⟩ := C145_received s now eid "<script>alert(1)</script>" n b indefinite bs listed clas tags keys readable named
  refine ⟨t, h1, fun v hv => ?_⟩
  have hraw : Goes ⟨none, some []⟩ (Serde.chars (RouterJson.addrValue (.generic "<script>alert(1)</script>")))
      ⟨none, some "{\"Generic\":\"alert(1)\"}".toList⟩ [.tag "script".toList, .tag "/script".toList] := by
    decide +kernel
  have hrow : ∀ q ∈ v.peers, ∃ o, Goes {} (render [.text "\n                <tr>\n                    <td>", .value q.2.peer.eid.print,
      .text "</td>\n                    <td>", .value (typeName q.2.peer.conType), .text "</td>\n                    <td>",
      .raw (Serde.chars (RouterJson.addrValue q.2.peer.addr)), .text "</td>\n                    <td>", .value (lastSeen w q.2.peer),
      .text "</td>\n                </tr>\n                "]) {} o ∧ (q.1 = n → Seen.tag "script".toList ∈ o) := by
    intro q hq
    have hg := (hv q.1 q.2.peer).mp ⟨q, hq, rfl, rfl⟩
    by_cases hn : q.1 = n
    · rw [hn, h2.peer] at hg
      have ha : q.2.peer.addr = .generic "<script>alert(1)</script>" := by rw [← Option.some.inj hg]
      rw [ha]
      exact ⟨_, goes_peer_raw _ _ _ _ hraw, fun _ => by simp⟩
    · rw [(h2.others _ hn).1] at hg
      have hh := others _ _ hg
      exact ⟨_, goes_peer _ _ _ _ fun hc => by
        rw [address_chars] at hc
        exact (address_harmless hh hc).1 rfl, fun h => absurd h hn⟩
  have hlist : ∀ l : List (String × Status.ShownPeer), (∀ q ∈ l, q ∈ v.peers) →
      ∃ o, Goes {} (l.flatMap fun q => render [.text "\n                <tr>\n                    <td>", .value q.2.peer.eid.print,
      .text "</td>\n                    <td>", .value (typeName q.2.peer.conType), .text "</td>\n                    <td>",
      .raw (Serde.chars (RouterJson.addrValue q.2.peer.addr)), .text "</td>\n                    <td>", .value (lastSeen w q.2.peer),
      .text "</td>\n                </tr>\n                "]) {} o ∧ ((∃ q ∈ l, q.1 = n) → Seen.tag "script".toList ∈ o) := by
    intro l
    induction l with
    | nil => exact fun _ => ⟨[], Goes.nil _, fun ⟨_, h, _⟩ => nomatch h⟩
    | cons q l ih =>
      intro hl
      obtain ⟨o1, g1, i1⟩ := hrow q (hl q (List.mem_cons_self ..))
      obtain ⟨o2, g2, i2⟩ := ih fun x hx => hl x (List.mem_cons_of_mem _ hx)
      refine ⟨o1 ++ o2, by rw [List.flatMap_cons]; exact g1.append g2, fun ⟨x, hx, hxn⟩ => List.mem_append.mpr ?_⟩
      rcases List.mem_cons.mp hx with rfl | hx
      · exact .inl (i1 hxn)
      · exact .inr (i2 ⟨x, hx, hxn⟩)
  obtain ⟨o, ho, hi⟩ := hlist v.peers fun _ h => h
  obtain ⟨q, hq, hqn, _⟩ := (hv n _).mpr h2.peer
  have hin := hi ⟨q, hq, hqn⟩
  have h := goes_around w v ho
  unfold Goes at h
  refine ⟨_, ⟨by rw [h], rfl⟩, ?_⟩
  rw [h]
  refine List.mem_filterMap.mpr ⟨.tag "script".toList, List.mem_append_left _ (List.mem_append_right _ hin), ?_⟩
  simp

example : ∃ (s t : St) (bs : Bytes), (∀ m p, AList.get? s.peers m = some p → HarmlessAddress p.addr) ∧ Listed false {} bs ∧
    receive s 5 (.beacon (.dtn "n2" "") "<script>alert(1)</script>" bs) = some t ∧ t.peers.length = 2 := by
  refine ⟨{ host := .dtn "n1" "", peers := [("n3", Peer.new 4 (.dtn "n3" "") (.ipv4 "10.0.0.3") .dynamic none [])] }, _, [0x80], ?_, ?_, rfl, rfl⟩
  · intro m p h
    have := AList.mem_of_get? h
    simp only [List.mem_singleton, Prod.mk.injEq] at this
    obtain ⟨_, rfl⟩ := this
    intro x hx
    simp only [Peer.new, addressParts, List.mem_singleton] at hx
    subst hx
    decide
  · unfold Listed
    rw [if_pos ⟨rfl, rfl⟩]
    exact ⟨[0x80], [], ⟨0x80, [], rfl, by decide, .inl ⟨by decide, rfl, by decide⟩⟩, .nil, rfl⟩

end Dtn.Props
