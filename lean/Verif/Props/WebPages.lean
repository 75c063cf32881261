import Verif.Lemmas.WebShown
import Verif.Props.Httpd
import Verif.Props.Status
/-! Property C154: the web pages. -/

namespace Dtn.Props
open Spec Spec.Html WebPages

/-- C154, the page of bundles. It lists every bundle that is not marked as deleted, once and in order, with its size and a link to download
it, below the name of the node and the digest of the store. Whatever ids and names contain, nothing of it is taken for markup. -/
theorem C154_bundles (x : Status.Ext) (w : Web) (v : Status.View) :
    let listed := v.packs.filter fun p => !p.has .deleted
    Shows (render (bundles x w v))
      (["dtn7: " ++ w.nodeid, "dtn7 local node: " ++ w.nodeid, "Bundles (" ++ Digest.complete x.sha1 v.packs ++ ")", "Bundle ID", "Size"] ++
        listed.flatMap fun p => [p.id, w.size p.size]) ∧
    Links (render (bundles x w v)) ("/" :: listed.map fun p => "/download?" ++ p.id) ∧
    HasTags (render (bundles x w v))
      (["html", "head", "style", "/style", "title", "/title", "/head", "body", "h1", "a", "/a", "/h1", "div", "h2", "/h2", "div", "table", "tr",
          "th", "/th", "th", "/th", "/tr"] ++
        listed.flatMap (fun _ => ["tr", "td", "a", "/a", "/td", "td", "/td", "/tr"]) ++ ["/table", "/div", "/div", "/body", "/html"]) := by
  intro listed
  have h := goes_bundles x w v
  unfold Goes at h
  refine ⟨?_, ?_, ?_⟩
  · unfold Shows
    rw [h]
    simp only [List.filterMap_append, List.filterMap_flatMap, bundleSeen, List.filterMap_cons, List.filterMap_nil, List.append_nil,
      shown_prefixed "dtn7: " _ (by decide +kernel), shown_prefixed "dtn7 local node: " _ (by decide +kernel),
      shown_between "Bundles (" _ ")" (by decide +kernel) (by decide +kernel), shown_plain "Bundle ID" (by decide +kernel), shown_plain "Size" (by decide +kernel), shown_value]
    rfl
  · unfold Links
    rw [h]
    simp only [List.filterMap_append, List.filterMap_flatMap, bundleSeen, List.filterMap_cons, List.filterMap_nil, List.append_nil,
      shown_prefixed "/download?" _ (by decide +kernel), shown_plain "/" (by decide +kernel), List.singleton_append, List.map_eq_flatMap]
    rfl
  · refine ⟨by rw [h], ?_⟩
    rw [h]
    simp only [List.filterMap_append, List.filterMap_flatMap, bundleSeen, List.filterMap_cons, List.filterMap_nil, String.ofList_toList]
    rfl

/-- C154, the page of neighbours, the part that holds. It lists every neighbour in the table once with its name, kind, address and, unless it
is a static one, the time since the last contact, and nothing of it is taken for markup. Missing: addresses that contain markup
(`C154_markup_violated`), and neighbours whose last contact lies in the future because the clock was set back
(`C154_last_seen_violated`). -/
theorem C154_peers_partial (w : Web) (v : Status.View) (ha : ∀ p ∈ v.peers, HarmlessAddress p.2.peer.addr)
    (ht : ∀ p ∈ v.peers, p.2.peer.conType = .dynamic → p.2.peer.lastContact ≤ w.now) :
    Shows (render (peers w v))
      (["dtn7: " ++ w.nodeid, "dtn7 local node: " ++ w.nodeid, "Peers", "Name", "Type", "Addr", "Last Seen"] ++
        v.peers.flatMap fun p => [p.2.peer.eid.print, if p.2.peer.conType = .static then "Static" else "Dynamic", addressText p.2.peer.addr,
          if p.2.peer.conType = .static then "n/a" else w.duration (w.now - p.2.peer.lastContact)]) ∧
    Links (render (peers w v)) ["/"] ∧
    HasTags (render (peers w v))
      (["html", "head", "style", "/style", "title", "/title", "/head", "body", "h1", "a", "/a", "/h1", "div", "h2", "/h2", "div", "table", "tr",
          "th", "/th", "th", "/th", "th", "/th", "th", "/th", "/tr"] ++
        v.peers.flatMap (fun _ => ["tr", "td", "/td", "td", "/td", "td", "/td", "td", "/td", "/tr"]) ++
        ["/table", "/div", "/div", "/body", "/html"]) := by
  have h := goes_peers w v fun p hp hc => by
    rw [address_chars] at hc
    exact (address_harmless (ha p hp) hc).1 rfl
  unfold Goes at h
  refine ⟨?_, ?_, ?_⟩
  · unfold Shows
    rw [h]
    simp only [List.filterMap_append, List.filterMap_flatMap, peerSeen, List.filterMap_cons, List.filterMap_nil, List.append_nil,
      shown_prefixed "dtn7: " _ (by decide +kernel), shown_prefixed "dtn7 local node: " _ (by decide +kernel), shown_plain "Peers" (by decide +kernel),
      shown_plain "Name" (by decide +kernel), shown_plain "Type" (by decide +kernel), shown_plain "Addr" (by decide +kernel), shown_plain "Last Seen" (by decide +kernel),
      shown_value]
    refine congrArg _ (flatMap_same fun p hp => ?_)
    have h1 : String.ofList (text (Serde.chars (RouterJson.addrValue p.2.peer.addr))) = addressText p.2.peer.addr := by
      rw [address_chars]
      exact shown_plain _ fun hc => (address_harmless (ha p hp) hc).2 rfl
    rw [h1]
    cases hc : p.2.peer.conType with
    | static => simp [typeName, lastSeen, hc]
    | dynamic => simp [typeName, lastSeen, hc, Peer.sinceContact, Nat.not_lt.mpr (ht p hp hc)]
  · unfold Links
    rw [h]
    simp only [List.filterMap_append, List.filterMap_flatMap, peerSeen, List.filterMap_cons, List.filterMap_nil, List.append_nil,
      shown_plain "/" (by decide +kernel)]
    simp
  · refine ⟨by rw [h], ?_⟩
    rw [h]
    simp only [List.filterMap_append, List.filterMap_flatMap, peerSeen, List.filterMap_cons, List.filterMap_nil, String.ofList_toList]

/-- C154, the first page. It tells the name of the node, the settings, the number of neighbours, the number of bundles and the digest of the
store, and leads to the other two pages; nothing of it is taken for markup. -/
theorem C154_index (x : Status.Ext) (w : Web) (v : Status.View) :
    Shows (render (index x w v))
      ["dtn7: " ++ w.nodeid, "dtn7 local node: " ++ w.nodeid, "Configuration", "Routing: " ++ w.routing,
        "CLAs: " ++ String.join (w.clas.map fun cla => " " ++ cla ++ " "), "Janitor Interval: " ++ w.janitor,
        "Announcement Interval: " ++ w.announcement, "Peer-Timeout: " ++ w.timeout, "Peers", "Recent neighbours: " ++ toString v.peers.length,
        "Bundles", "Stored: " ++ toString w.count, "Hash: " ++ Digest.complete x.sha1 v.packs] ∧
    Links (render (index x w v)) ["/", "/peers", "/bundles"] ∧
    HasTags (render (index x w v))
      ["html", "head", "style", "/style", "title", "/title", "/head", "body", "h1", "a", "/a", "/h1", "div", "h2", "/h2", "div", "p", "/p", "p",
        "/p", "p", "/p", "p", "/p", "p", "/p", "/div", "/div", "div", "h2", "a", "/a", "/h2", "div", "p", "/p", "/div", "/div", "div", "h2", "a",
        "/a", "/h2", "div", "p", "/p", "p", "/p", "/div", "/div", "/body", "/html"] := by
  have h := goes_index x w v
  unfold Goes at h
  refine ⟨?_, ?_, ?_⟩
  · unfold Shows
    rw [h]
    simp only [List.filterMap_cons, List.filterMap_nil, shown_clas,
      shown_prefixed "dtn7: " _ (by decide +kernel), shown_prefixed "dtn7 local node: " _ (by decide +kernel), shown_prefixed "Routing: " _ (by decide +kernel),
      shown_prefixed "Janitor Interval: " _ (by decide +kernel), shown_prefixed "Announcement Interval: " _ (by decide +kernel),
      shown_prefixed "Peer-Timeout: " _ (by decide +kernel), shown_prefixed "Recent neighbours: " _ (by decide +kernel), shown_prefixed "Stored: " _ (by decide +kernel),
      shown_prefixed "Hash: " _ (by decide +kernel), shown_plain "Configuration" (by decide +kernel), shown_plain "Peers" (by decide +kernel),
      shown_plain "Bundles" (by decide +kernel)]
  · unfold Links
    rw [h]
    simp only [List.filterMap_cons, List.filterMap_nil, shown_plain "/" (by decide +kernel), shown_plain "/peers" (by decide +kernel),
      shown_plain "/bundles" (by decide +kernel)]
  · refine ⟨by rw [h], ?_⟩
    rw [h]
    simp only [List.filterMap_cons, List.filterMap_nil, String.ofList_toList]

/-- What a browser asks for when the link of a bundle is followed. -/
theorem asks_download {id : String} (h : Plain id) : asksFor ("/download?" ++ id) = ("/download", some id) := by
  have e : "/download?".toList = "/download".toList ++ ['?'] := by decide +kernel
  have hid : ∀ c ∈ id.toList, (c != '#') = true := by
    intro c hc
    have := (h c hc).2.2
    simp only [bne_iff_ne]
    intro he
    exact this (by rw [he]; decide)
  have hall : ("/download?" ++ id).toList.takeWhile (· != '#') = "/download".toList ++ '?' :: id.toList := by
    rw [String.toList_append, e]
    rw [takeWhile_all]
    · simp
    · intro c hc
      rcases List.mem_append.mp hc with hc | hc
      · exact (by decide +kernel : ∀ c ∈ "/download".toList ++ ['?'], (c != '#') = true) c hc
      · exact hid c hc
  have hd : ("/download".toList ++ '?' :: id.toList).dropWhile (· != '?') = '?' :: id.toList := by
    rw [List.dropWhile_append_of_pos (by decide +kernel)]
    simp
  have ht : ("/download".toList ++ '?' :: id.toList).takeWhile (· != '?') = "/download".toList := by
    rw [List.takeWhile_append_of_pos (by decide +kernel)]
    simp
  unfold asksFor
  dsimp only
  rw [hall, hd]
  dsimp only
  rw [ht, String.ofList_toList, String.ofList_toList]

/-- C154, following the link of a bundle, the part that holds: whoever follows it gets the bundle. Missing: ids with characters that browsers
do not send as they are, see `C154_link_violated`. -/
theorem C154_download_partial (x : Httpd.Ext) (cfg : Httpd.Cfg) (w : Httpd.World) (host : Httpd.IpAddr) (b : Bundle) (h : Plain b.id)
    (hb : w.apps.store.getBundle b.id = some b) :
    let asked := asksFor ("/download?" ++ b.id)
    Httpd.serve x cfg w { addr := host, method := .get, path := asked.1, raw := asked.2 } = (w, .data (x.toCbor b)) := by
  intro asked
  have ha : asked = ("/download", some b.id) := asks_download h
  rw [C83_download x cfg w _ b.id (by rw [ha]) rfl (by rw [ha]), hb]

/-- A node with two bundles, one of them marked as deleted, and two neighbours. -/
def exWebView : Status.View :=
  { hostEid := .dtn "n1" "", eids := [.dtn "n1" ""],
    packs := [exStatusPack "dtn://<b>/-1-0" false, exStatusPack "b-2" true],
    peers := [("n2", { peer := Peer.new 5 (.dtn "n2" "") (.ipv4 "10.0.0.2") .dynamic none [], services := [] }),
      ("n3", { peer := Peer.new 5 (.dtn "n3" "") (.generic "h") .static none [], services := [] })] }

/-- A daemon with simple formats. -/
def exWeb : Web :=
  { nodeid := "n1", routing := "epidemic", clas := ["mtcp", "http"], janitor := "10s", announcement := "2s", timeout := "20s", count := 1,
    now := 9, size := fun n => toString n ++ " B", duration := fun n => toString n ++ "s" }

example : (∀ p ∈ exWebView.peers, HarmlessAddress p.2.peer.addr) ∧
    (∀ p ∈ exWebView.peers, p.2.peer.conType = .dynamic → p.2.peer.lastContact ≤ exWeb.now) ∧
    (exWebView.packs.filter fun p => !p.has .deleted).map (·.id) = ["dtn://<b>/-1-0"] := by
  refine ⟨?_, by decide, by decide⟩
  intro p hp s hs
  simp only [exWebView, List.mem_cons, List.not_mem_nil, or_false] at hp
  rcases hp with rfl | rfl <;> (simp only [Peer.new, addressParts, List.mem_singleton] at hs; subst hs; decide)

example : Plain (exBundle "a-1").id ∧ exHttpWorld.apps.store.getBundle (exBundle "a-1").id = some (exBundle "a-1") := by
  refine ⟨?_, by decide⟩
  unfold Plain
  decide

/-- C154 fails for addresses given by modules of external convergence layers: the address of a neighbour they announce is put on the page as
it is, and markup in it becomes part of the page, here a script. -/
theorem C154_markup_violated (w : Web) (v : Status.View) (p : String × Status.ShownPeer) (hv : v.peers = [p])
    (ha : p.2.peer.addr = .generic "<script>alert(1)</script>") :
    ∃ tags, HasTags (render (peers w v)) tags ∧ "script" ∈ tags := by
  have hraw : Goes ⟨none, some []⟩ (Serde.chars (RouterJson.addrValue p.2.peer.addr)) ⟨none, some "{\"Generic\":\"alert(1)\"}".toList⟩
      [.tag "script".toList, .tag "/script".toList] := by
    rw [ha]; decide +kernel
  have h := goes_around w v (by
    rw [hv, List.flatMap_cons, List.flatMap_nil, List.append_nil]
    exact goes_peer_raw p.2.peer.eid.print (typeName p.2.peer.conType) _ (lastSeen w p.2.peer) hraw)
  unfold Goes at h
  refine ⟨_, ⟨by rw [h], rfl⟩, ?_⟩
  rw [h]
  simp only [List.filterMap_append, List.mem_append, List.filterMap_cons, List.filterMap_nil, String.ofList_toList]
  simp

example : ∃ (v : Status.View) (p : String × Status.ShownPeer), v.peers = [p] ∧ p.2.peer.addr = .generic "<script>alert(1)</script>" := by
  let p := Peer.new 5 (.dtn "n2" "") (.generic "<script>alert(1)</script>") .dynamic none []
  exact ⟨{ exWebView with peers := [("n2", { peer := p, services := [] })] }, _, rfl, rfl⟩

/-- C154 fails after the clock was set back: if the last contact with a neighbour is a second ahead of the clock, the page says that it was
2^64 - 1 seconds ago. -/
theorem C154_last_seen_violated (w : Web) (v : Status.View) (p : String × Status.ShownPeer) (hv : v.peers = [p])
    (ha : HarmlessAddress p.2.peer.addr) (hd : p.2.peer.conType = .dynamic) (hl : p.2.peer.lastContact = w.now + 1) :
    ∃ texts, Shows (render (peers w v)) texts ∧ w.duration (2 ^ 64 - 1) ∈ texts := by
  have h := goes_peers w v fun q hq hc => by
    rw [hv, List.mem_singleton] at hq
    subst hq
    rw [address_chars] at hc
    exact (address_harmless ha hc).1 rfl
  unfold Goes at h
  refine ⟨_, rfl, ?_⟩
  have hs : lastSeen w p.2.peer = w.duration (2 ^ 64 - 1) := by
    have e : w.now + 2 ^ 64 - (w.now + 1) = 2 ^ 64 - 1 := by omega
    rw [lastSeen, if_pos hd, Peer.sinceContact, hl, if_pos (Nat.lt_succ_self _), e]
  rw [h, hv]
  simp only [List.filterMap_append, List.flatMap_cons, List.flatMap_nil, List.append_nil, peerSeen, List.mem_append, List.filterMap_cons,
    List.filterMap_nil, shown_value, hs]
  simp

example : let p : Peer := Peer.new 10 (.dtn "n2" "") (.ipv4 "10.0.0.2") .dynamic none []
    HarmlessAddress p.addr ∧ p.conType = .dynamic ∧ p.lastContact = exWeb.now + 1 := by
  refine ⟨?_, rfl, rfl⟩
  intro s hs
  simp only [Peer.new, addressParts, List.mem_singleton] at hs
  subst hs
  decide

/-- C154 fails for bundles whose id contains a `#`: following the link asks for something else, and the bundle is not found. -/
theorem C154_link_violated :
    ∃ (x : Httpd.Ext) (cfg : Httpd.Cfg) (w : Httpd.World) (host : Httpd.IpAddr) (b : Bundle), w.apps.store.getBundle b.id = some b ∧
      let asked := asksFor ("/download?" ++ b.id)
      Httpd.serve x cfg w { addr := host, method := .get, path := asked.1, raw := asked.2 } = (w, .error 404) :=
  ⟨exHttpExt, exHttpCfg, { apps := { store := MemStore.new.run [.push 5 (exBundle "dtn://n1/a#b-1-0")], agents := [] } }, .v4 127 0 0 1,
    exBundle "dtn://n1/a#b-1-0", by decide +kernel, by decide +kernel⟩

end Dtn.Props
