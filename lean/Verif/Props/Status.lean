import Verif.Lemmas.Status
/-! C108: what `dtnquery` shows of a running daemon. -/

namespace Dtn.Props
open Spec Tools

/-- C108 (part). `dtnquery bundles -a ADDR` lists, in the order of the store, the ids of exactly the bundles in the store that
are not marked as deleted and whose source or destination contains ADDR; with `-d` it prints the digest of this list. Missing:
the option `-v`, and texts a URL changes (`C108_verbose_violated`, `C108_text_violated`). -/
theorem C108_filter_partial (x : Status.Ext) (v : Status.View) (ad : String) (utf8 : ReadsUtf8 x) (text : QueryText ad) :
    ∃ ids, Listing (fun p => p.has .deleted = false ∧ Mentions ad p) v.packs ids ∧
      Status.query x v (.bundles false false (some ad)) =
        ⟨[.line "Listing of bundles in store:", .line (Status.jsonList ids)], none, 0⟩ ∧
      Status.query x v (.bundles false true (some ad)) =
        ⟨[.line "Listing of bundles in store:", .line (x.sha1 (ids.flatMap String.toList))], none, 0⟩ := by
  have hp : Status.addrParam x (some (urlQuery ("addr=" ++ ad))) = some ad := by
    simp only [Status.addrParam, Status.addr_arrives text, Option.map_some]
    rw [utf8 ad]
  refine ⟨_, Status.listing_addr ad v.packs, ?_, ?_⟩
  · simp [Status.query, QueryCmd.asks, QueryCmd.url, Status.page, dtnquery, hp]
  · simp [Status.query, QueryCmd.asks, QueryCmd.url, Status.page, dtnquery, hp, Digest.ofBids, Digest.textOfBids]

/-- C108. `dtnquery bundles` lists the ids of exactly the bundles in the store that are not marked as deleted, `dtnquery eids`
the registered endpoints, and `dtnquery nodeid` prints the id of the node. -/
theorem C108_listings (x : Status.Ext) (v : Status.View) :
    (∃ ids, Listing (fun p => p.has .deleted = false) v.packs ids ∧
      Status.query x v (.bundles false false none) =
        ⟨[.line "Listing of bundles in store:", .line (Status.jsonList ids)], none, 0⟩) ∧
    Status.query x v .eids = ⟨[.line "Listing registered endpoint IDs:", .line (Status.jsonList (v.eids.map EID.print))], none, 0⟩ ∧
    Status.query x v .nodeid = ⟨[.line "Local node ID:", .line v.hostEid.print], none, 0⟩ := by
  refine ⟨⟨_, Status.listing_filter (p := fun p => !p.has .deleted) (by simp) v.packs, ?_⟩, ?_, ?_⟩
  · simp [Status.query, QueryCmd.asks, QueryCmd.url, Status.page, dtnquery]
  · simp [Status.query, QueryCmd.asks, QueryCmd.url, Status.page, dtnquery]
  · simp [Status.query, QueryCmd.asks, QueryCmd.url, Status.page, dtnquery]

/-- The text of a listing is JSON, and whoever reads it gets exactly what is listed, whatever characters occur in it. -/
theorem C108_json (l : List String) : Json.strings (Status.jsonList l) = some l := JsonText.strings_pretty l

example : Status.jsonList ["a\"b", "c\n"] = "[\n  \"a\\\"b\",\n  \"c\\n\"\n]" := by decide +kernel

/-- A bundle from n2 to n1. -/
def exStatusPack (id : String) (gone : Bool) : Pack :=
  { source := .dtn "n2" "", destination := .dtn "n1" "in", receivedTime := 0, creationTime := 0, lifetime := 0, id := id,
    administrative := false, size := 0, constraints := { deleted := gone } }

/-- A node with two bundles, one of which is marked as deleted. -/
def exStatusView : Status.View :=
  { hostEid := .dtn "n1" "", eids := [.dtn "n1" "", .dtn "n1" "in"],
    packs := [exStatusPack "a-1" false, exStatusPack "b-2" true] }

/-- Reads exactly the bytes that some text is written as. -/
noncomputable def exStatusExt : Status.Ext :=
  { sha1 := fun cs => .ofList cs
    lossy := fun bs =>
      open Classical in if h : ∃ s : String, s.toList.flatMap String.utf8EncodeChar = bs then h.choose else ""
    walk := fun p => [.dispatchPending, .forwardPending, .reassemblyPending, .contraindicated, .localEndpoint, .deleted].filter p.has
    eid := fun e => .str e.print }

theorem exStatusExt_reads : ReadsUtf8 exStatusExt := by
  intro s
  have h : ∃ s' : String, s'.toList.flatMap String.utf8EncodeChar = s.toList.flatMap String.utf8EncodeChar := ⟨s, rfl⟩
  have e : exStatusExt.lossy (s.toList.flatMap String.utf8EncodeChar) = h.choose := by
    simp only [exStatusExt]
    rw [dif_pos h]
  rw [e]
  have hc := h.choose_spec
  have : String.ofList h.choose.toList = String.ofList s.toList := by
    apply String.toByteArray_inj.mp
    rw [String.toByteArray_ofList, String.toByteArray_ofList]
    simp only [List.utf8Encode]
    rw [hc]
  simpa using this

example : ReadsUtf8 exStatusExt ∧ QueryText "dtn://n2" ∧
    Listing (fun p => p.has .deleted = false ∧ Mentions "dtn://n2" p) exStatusView.packs ["a-1"] ∧
    Status.query exStatusExt exStatusView (.bundles false false (some "dtn://n2")) =
      ⟨[.line "Listing of bundles in store:", .line "[\n  \"a-1\"\n]"], none, 0⟩ := by
  have hq : QueryText "dtn://n2" := by unfold QueryText; decide
  have hl : Listing (fun p => p.has .deleted = false ∧ Mentions "dtn://n2" p) exStatusView.packs ["a-1"] := by
    have := Status.listing_addr "dtn://n2" exStatusView.packs
    have e : Digest.filterAddr "dtn://n2" exStatusView.packs = ["a-1"] := by decide +kernel
    rwa [e] at this
  refine ⟨exStatusExt_reads, hq, hl, ?_⟩
  obtain ⟨ids, h1, h2, -⟩ := C108_filter_partial exStatusExt exStatusView "dtn://n2" exStatusExt_reads hq
  rw [h2, Status.Listing.unique h1 hl]
  congr 1

/-- C108. `dtnquery store` prints a JSON list with one line per bundle the store knows, in the order of the store, and each line
tells the id of its bundle and exactly the states of processing it is in. -/
theorem C108_store (x : Status.Ext) (v : Status.View) (walks : ∀ p ∈ v.packs, WalksOnce x p) :
    ∃ t lines, Status.query x v .store = ⟨[.line "Listing of bundles status in store:", .line t], none, 0⟩ ∧
      Json.strings t = some lines ∧ lines.length = v.packs.length ∧
      ∀ (i : Nat) p, v.packs[i]? = some p → ∃ line, lines[i]? = some line ∧ StoreLine line p.id (fun c => p.has c = true) := by
  refine ⟨_, Status.bundlesStatus x v.packs, ?_, JsonText.strings_pretty _, by simp [Status.bundlesStatus], ?_⟩
  · simp [Status.query, QueryCmd.asks, QueryCmd.url, Status.page, dtnquery, Status.jsonList]
  · intro i p h
    refine ⟨Status.showPack x p, by simp [Status.bundlesStatus, h], Status.showPack_line (walks p ?_)⟩
    exact List.mem_of_getElem? h

/-- Such a line tells no other id and no other states, whatever characters occur in the id. -/
theorem C108_store_told {line id id' : String} {a b : Constraint → Prop} (one : StoreLine line id a) (other : StoreLine line id' b) :
    id = id' ∧ ∀ c, a c ↔ b c := Status.storeLine_unique one other

/-- C108. `dtnquery peers` prints a JSON object with one record per neighbour, under the names and in the order of the node's
table, and each record tells everything the node knows of this neighbour. -/
theorem C108_peers (x : Status.Ext) (v : Status.View) :
    ∃ t l, Status.query x v .peers = ⟨[.line "Listing of known peers:", .line t], none, 0⟩ ∧
      Json.value t = some (.obj l) ∧ l.length = v.peers.length ∧
      ∀ (i : Nat) name p, v.peers[i]? = some (name, p) → ∃ r, l[i]? = some (name, r) ∧ PeerRecord x r p := by
  refine ⟨_, v.peers.map fun p => (p.1, Status.peerValue x p.2), ?_, JsonText.read_pretty _, by simp, ?_⟩
  · simp [Status.query, QueryCmd.asks, QueryCmd.url, Status.page, dtnquery]
  · intro i name p h
    exact ⟨Status.peerValue x p, by simp [h], Status.peerValue_record x p⟩

/-- C108. `dtnquery info` prints a JSON object with the six counters of the node. -/
theorem C108_info (x : Status.Ext) (v : Status.View) :
    ∃ t r, Status.query x v .info = ⟨[.line "Daemon info:", .line t], none, 0⟩ ∧ Json.value t = some r ∧
      Json.field r "incoming" = some (.num v.stats.incoming) ∧ Json.field r "dups" = some (.num v.stats.dups) ∧
      Json.field r "outgoing" = some (.num v.stats.outgoing) ∧ Json.field r "delivered" = some (.num v.stats.delivered) ∧
      Json.field r "failed" = some (.num v.stats.failed) ∧ Json.field r "broken" = some (.num v.broken) := by
  refine ⟨_, Status.statsValue v.stats v.broken, ?_, JsonText.read_pretty _, rfl, rfl, rfl, rfl, rfl, rfl⟩
  simp [Status.query, QueryCmd.asks, QueryCmd.url, Status.page, dtnquery]

/-- A JSON value is read back from its text, whatever it contains. -/
theorem C108_json_values (v : JsonText.Value) : Json.value (JsonText.pretty v) = some v := JsonText.read_pretty v

/-- A node with a neighbour and a bundle that waits to be forwarded. -/
def exStatusBusy : Status.View :=
  { hostEid := .dtn "n1" "", eids := [],
    packs := [{ exStatusPack "a-1 {x" false with constraints := { forwardPending := true, localEndpoint := true } }],
    peers := [("n2", ⟨⟨.dtn "n2" "", .ipv4 "10.0.0.2", .dynamic, some 2500, [("mtcp", some 4556)], 7, 1⟩, [(5, "x")]⟩)],
    stats := { incoming := 3 }, broken := 2 }

example : (∀ p ∈ exStatusBusy.packs, WalksOnce exStatusExt p) ∧
    Status.bundlesStatus exStatusExt exStatusBusy.packs = ["a-1 {x {ForwardPending, LocalEndpoint}"] ∧
    JsonText.pretty (Status.statsValue exStatusBusy.stats exStatusBusy.broken) =
      "{\n  \"incoming\": 3,\n  \"dups\": 0,\n  \"outgoing\": 0,\n  \"delivered\": 0,\n  \"failed\": 0,\n  \"broken\": 2\n}" := by
  refine ⟨?_, by rfl, by rfl⟩
  intro p hp
  simp only [exStatusBusy, List.mem_singleton] at hp
  subst hp
  exact ⟨by decide, by intro c; cases c <;> decide⟩

/-- C108 is false as it stands: with `-v` the filter is ignored; a bundle is listed although no bundle mentions the address. -/
theorem C108_verbose_violated (x : Status.Ext) : ∃ v ad, QueryText ad ∧ (∀ p ∈ v.packs, ¬ Mentions ad p) ∧
    Status.query x v (.bundles true false (some ad)) =
      ⟨[.line "Listing of bundles in store:", .line "[\n  \"dtn://n2/ dtn://n1/in 0 0\"\n]"], none, 0⟩ := by
  refine ⟨{ exStatusView with packs := [exStatusPack "a-1" false] }, "n3", by unfold QueryText; decide, ?_, ?_⟩
  · intro p hp
    simp only [List.mem_singleton] at hp
    subst hp
    unfold Mentions
    rw [← Status.containsText_iff, ← Status.containsText_iff]
    decide +kernel
  · rw [Status.query_verbose]
    decide +kernel

/-- C108 is false as it stands: for the text `n3&addr=n2`, which no bundle mentions, a bundle is listed. -/
theorem C108_text_violated (x : Status.Ext) (utf8 : ReadsUtf8 x) : ∃ v ad, (∀ p ∈ v.packs, ¬ Mentions ad p) ∧
    Status.query x v (.bundles false false (some ad)) =
      ⟨[.line "Listing of bundles in store:", .line "[\n  \"a-1\"\n]"], none, 0⟩ := by
  refine ⟨{ exStatusView with packs := [exStatusPack "a-1" false] }, "n3&addr=n2", ?_, ?_⟩
  · intro p hp
    simp only [List.mem_singleton] at hp
    subst hp
    unfold Mentions
    rw [← Status.containsText_iff, ← Status.containsText_iff]
    decide +kernel
  · have hv : formValue "addr" (urlQuery ("addr=" ++ "n3&addr=n2")) = some ("n2".toList.flatMap String.utf8EncodeChar) := by
      decide +kernel
    have hp : Status.addrParam x (some (urlQuery ("addr=" ++ "n3&addr=n2"))) = some "n2" := by
      simp only [Status.addrParam, hv, Option.map_some]
      rw [utf8 "n2"]
    rw [Status.query_filtered x _ _ _ hp]
    decide +kernel

/-- The digest of `dtnquery bundles -d` covers bundles that `dtnquery bundles` does not list: here none is listed, but the
digest is not that of an empty node (unless the hash collides). -/
theorem C108_digest_violated (x : Status.Ext) (nocollision : x.sha1 [] ≠ x.sha1 "b-2".toList) : ∃ v v',
    Status.query x v (.bundles false false none) = Status.query x v' (.bundles false false none) ∧
    Status.query x v (.bundles false true none) ≠ Status.query x v' (.bundles false true none) := by
  refine ⟨{ exStatusView with packs := [] }, { exStatusView with packs := [exStatusPack "b-2" true] }, ?_, ?_⟩
  · rw [Status.query_bundles, Status.query_bundles]
    decide +kernel
  · rw [Status.query_digest, Status.query_digest]
    intro h
    apply nocollision
    simpa [Digest.complete, Digest.ofBids, Digest.sortIds, Digest.textOfBids, exStatusPack] using h

example : ReadsUtf8 exStatusExt ∧ exStatusExt.sha1 [] ≠ exStatusExt.sha1 "b-2".toList :=
  ⟨exStatusExt_reads, by simp [exStatusExt]⟩

/-- C108 (codes). Every status page is answered with 200, a listing with a filter if and only if the filter is given and can be read, and
with 400 otherwise; there are no other status pages. -/
theorem C108_codes (x : Status.Ext) (v : Status.View) (path : String) (query : Option String) :
    (path ∈ ["/status/nodeid", "/status/eids", "/status/bundles", "/status/bundles/verbose", "/status/bundles/digest", "/status/store",
        "/status/peers", "/status/info"] → (Status.page x v path query).map (·.1) = some 200) ∧
    (path ∈ ["/status/bundles/filtered", "/status/bundles/filtered/digest"] →
      (Status.page x v path query).map (·.1) = some (if Status.addrParam x query = none then 400 else 200)) ∧
    (path ∉ ["/status/nodeid", "/status/eids", "/status/bundles", "/status/bundles/verbose", "/status/bundles/digest", "/status/store",
        "/status/peers", "/status/info", "/status/bundles/filtered", "/status/bundles/filtered/digest"] → Status.page x v path query = none) := by
  refine ⟨fun h => ?_, fun h => ?_, fun h => ?_⟩
  · simp only [List.mem_cons, List.not_mem_nil, or_false] at h
    rcases h with rfl | rfl | rfl | rfl | rfl | rfl | rfl | rfl <;> simp [Status.page]
  · simp only [List.mem_cons, List.not_mem_nil, or_false] at h
    rcases h with rfl | rfl <;> cases hq : Status.addrParam x query <;> simp [Status.page, hq]
  · simp only [List.mem_cons, List.not_mem_nil, or_false, not_or] at h
    obtain ⟨h1, h2, h3, h4, h5, h6, h7, h8, h9, h10⟩ := h
    simp [Status.page, h1, h2, h3, h4, h5, h6, h7, h8, h9, h10]

/-- A page, a listing without a filter, and no page. -/
example : (Status.page exStatusExt exStatusView "/status/peers" none).map (·.1) = some 200 ∧
    (Status.page exStatusExt exStatusView "/status/bundles/filtered" none).map (·.1) = some 400 ∧
    Status.page exStatusExt exStatusView "/status" none = none :=
  ⟨(C108_codes _ _ _ _).1 (by decide), ((C108_codes _ _ _ _).2.1 (by decide)).trans (by simp [Status.addrParam]),
    (C108_codes _ _ _ _).2.2 (by decide)⟩

end Dtn.Props
