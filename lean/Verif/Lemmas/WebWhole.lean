import Verif.Lemmas.WebPages
/-! What is seen on each page as a whole. -/

namespace Dtn.WebPages
open Spec.Html

theorem Goes.to {p q q' : Place} {cs : List Char} {o o' : List Seen} (h : Goes p cs q o) (hq : q = q') (ho : o = o') : Goes p cs q' o' := by
  subst hq; subst ho; exact h

/-- The end of the tag of a link. -/
theorem goes_link (v : List Char) : Goes ⟨some ("a href=\"/download?".toList ++ v), some []⟩ "\">".toList ⟨none, some []⟩
    [.tag "a".toList, .link ("/download?".toList ++ v)] := by
  have hn : name ("a href=\"/download?".toList ++ v ++ ['"']) = ['a'] := rfl
  have hp : linkStart.isPrefixOf ("a href=\"/download?".toList ++ v ++ ['"']) = true := rfl
  have hd : ("a href=\"/download?".toList ++ v ++ ['"']).drop linkStart.length = "/download?".toList ++ v ++ ['"'] := rfl
  have h1 : blocks.any (fun b => '/' :: b == ['a']) = false := by decide
  have h2 : blocks.any (fun b => b == ['a']) = false := by decide
  have hs : "\">".toList = ['"', '>'] := by decide
  unfold Goes
  rw [hs]
  simp only [Spec.Html.read, look, if_neg (by decide +kernel : '"' ≠ '>'), if_true, List.append_nil, List.nil_append]
  simp only [within, ended, hn, hp, hd, h1, h2, if_true, List.dropLast_concat, Bool.false_eq_true, if_false, List.append_nil]
  rfl

/-- What is seen of a bundle. -/
def bundleSeen (id size : String) : List Seen :=
  [.tag "tr".toList, .tag "td".toList, .tag "a".toList, .link ("/download?".toList ++ escape id), .tag "/a".toList, .tag "/td".toList,
    .block (escape id), .tag "td".toList, .tag "/td".toList, .block (escape size), .tag "/tr".toList]

theorem goes_list {α : Type} (l : List α) (f : α → List Char) (o : α → List Seen) (p : Place) (h : ∀ x ∈ l, Goes p (f x) p (o x)) :
    Goes p (l.flatMap f) p (l.flatMap o) := by
  induction l with
  | nil => exact Goes.nil _
  | cons x l ih =>
    rw [List.flatMap_cons, List.flatMap_cons]
    exact (h x List.mem_cons_self).append (ih fun y hy => h y (List.mem_cons_of_mem _ hy))

theorem render_append (a b : List Part) : render (a ++ b) = render a ++ render b := List.flatMap_append

theorem render_flatMap {α : Type} (l : List α) (f : α → List Part) : render (l.flatMap f) = l.flatMap fun x => render (f x) := by
  induction l with
  | nil => rfl
  | cons x l ih => rw [List.flatMap_cons, List.flatMap_cons, render_append, ih]

theorem render_cons (a : Part) (b : List Part) : render (a :: b) = a.chars ++ render b := List.flatMap_cons

theorem render_nil : render [] = [] := rfl

theorem goes_bundle (id size : String) :
    Goes {} (render [.text "\n                <tr>\n                    <td><a href=\"/download?", .value id, .text "\">", .value id,
      .text "</a></td>\n                    <td>", .value size, .text "</td>\n                </tr>\n                "]) {}
      (bundleSeen id size) := by
  simp only [render_cons, render_nil, Part.chars, List.append_nil]
  refine (part5.append ((goes_tag _ _ _ fun h => (mem_escape h).2.1 rfl).append ((goes_link _).append ((goes_value _ _).append
    ((part6.close _ rfl).append ((goes_value _ _).append (part7.close _ rfl))))))).to rfl ?_
  simp [pre, bundleSeen]

theorem goes_bundles (x : Status.Ext) (w : Web) (v : Status.View) :
    Goes {} (render (bundles x w v)) {}
      ([.tag "html".toList, .tag "head".toList, .tag "style".toList, .tag "/style".toList, .tag "title".toList, .tag "/title".toList,
        .block ("dtn7: ".toList ++ escape w.nodeid), .tag "/head".toList, .tag "body".toList, .tag "h1".toList, .tag "a".toList,
        .link "/".toList, .tag "/a".toList, .tag "/h1".toList, .block ("dtn7 local node: ".toList ++ escape w.nodeid), .tag "div".toList,
        .tag "h2".toList, .tag "/h2".toList, .block ("Bundles (".toList ++ escape (Digest.complete x.sha1 v.packs) ++ ")".toList),
        .tag "div".toList, .tag "table".toList, .tag "tr".toList, .tag "th".toList, .tag "/th".toList, .block "Bundle ID".toList,
        .tag "th".toList, .tag "/th".toList, .block "Size".toList, .tag "/tr".toList] ++
      (v.packs.filter fun b => !b.has .deleted).flatMap (fun b => bundleSeen b.id (w.size b.size)) ++
      [.tag "/table".toList, .tag "/div".toList, .tag "/div".toList, .tag "/body".toList, .tag "/html".toList]) := by
  unfold bundles
  rw [render_append, render_append, render_flatMap]
  refine Goes.append (Goes.append ?_ (goes_list _ _ _ _ fun b _ => goes_bundle b.id (w.size b.size))) ?_
  · simp only [render_cons, render_nil, Part.chars, List.append_nil]
    refine (part1.append ((goes_value _ _).append ((part2.close _ rfl).append ((goes_value _ _).append ((part3.close _ rfl).append
      ((goes_value _ _).append (part4.close _ rfl))))))).to rfl ?_
    simp [pre]
  · simp only [render_cons, render_nil, Part.chars, List.append_nil]
    exact part8

/-- What is seen of a neighbour. -/
def peerSeen (nm kind : String) (addr : List Char) (last : String) : List Seen :=
  [.tag "tr".toList, .tag "td".toList, .tag "/td".toList, .block (escape nm), .tag "td".toList, .tag "/td".toList, .block (escape kind),
    .tag "td".toList, .tag "/td".toList, .block addr, .tag "td".toList, .tag "/td".toList, .block (escape last), .tag "/tr".toList]

theorem goes_peer_raw (nm kind : String) (addr : List Char) (last : String) {t : List Char} {o : List Seen}
    (h : Goes ⟨none, some []⟩ addr ⟨none, some t⟩ o) :
    Goes {} (render [.text "\n                <tr>\n                    <td>", .value nm, .text "</td>\n                    <td>", .value kind,
      .text "</td>\n                    <td>", .raw addr, .text "</td>\n                    <td>", .value last,
      .text "</td>\n                </tr>\n                "]) {}
      ([.tag "tr".toList, .tag "td".toList, .tag "/td".toList, .block (escape nm), .tag "td".toList, .tag "/td".toList, .block (escape kind),
        .tag "td".toList] ++ o ++
        [.tag "/td".toList, .block t, .tag "td".toList, .tag "/td".toList, .block (escape last), .tag "/tr".toList]) := by
  simp only [render_cons, render_nil, Part.chars, List.append_nil]
  refine (part10.append ((goes_value _ _).append ((part11.close _ rfl).append ((goes_value _ _).append ((part11.close _ rfl).append
    (h.append ((part11.close _ rfl).append ((goes_value _ _).append (part7.close _ rfl))))))))).to rfl ?_
  simp [pre]

theorem goes_peer (nm kind : String) (addr : List Char) (last : String) (h : '<' ∉ addr) :
    Goes {} (render [.text "\n                <tr>\n                    <td>", .value nm, .text "</td>\n                    <td>", .value kind,
      .text "</td>\n                    <td>", .raw addr, .text "</td>\n                    <td>", .value last,
      .text "</td>\n                </tr>\n                "]) {} (peerSeen nm kind addr last) :=
  (goes_peer_raw nm kind addr last (goes_text _ _ h)).to rfl (by simp [peerSeen])

/-- The page of neighbours up to the list, and behind it. -/
theorem goes_around (w : Web) (v : Status.View) {o : List Seen}
    (h : Goes {} (v.peers.flatMap fun p => render [.text "\n                <tr>\n                    <td>", .value p.2.peer.eid.print,
      .text "</td>\n                    <td>", .value (typeName p.2.peer.conType), .text "</td>\n                    <td>",
      .raw (Serde.chars (RouterJson.addrValue p.2.peer.addr)), .text "</td>\n                    <td>", .value (lastSeen w p.2.peer),
      .text "</td>\n                </tr>\n                "]) {} o) :
    Goes {} (render (peers w v)) {}
      ([.tag "html".toList, .tag "head".toList, .tag "style".toList, .tag "/style".toList, .tag "title".toList, .tag "/title".toList,
        .block ("dtn7: ".toList ++ escape w.nodeid), .tag "/head".toList, .tag "body".toList, .tag "h1".toList, .tag "a".toList,
        .link "/".toList, .tag "/a".toList, .tag "/h1".toList, .block ("dtn7 local node: ".toList ++ escape w.nodeid), .tag "div".toList,
        .tag "h2".toList, .tag "/h2".toList, .block "Peers".toList, .tag "div".toList, .tag "table".toList, .tag "tr".toList,
        .tag "th".toList, .tag "/th".toList, .block "Name".toList, .tag "th".toList, .tag "/th".toList, .block "Type".toList,
        .tag "th".toList, .tag "/th".toList, .block "Addr".toList, .tag "th".toList, .tag "/th".toList, .block "Last Seen".toList,
        .tag "/tr".toList] ++ o ++
      [.tag "/table".toList, .tag "/div".toList, .tag "/div".toList, .tag "/body".toList, .tag "/html".toList]) := by
  unfold peers
  rw [render_append, render_append, render_flatMap]
  refine Goes.append (Goes.append ?_ h) ?_
  · simp only [render_cons, render_nil, Part.chars, List.append_nil]
    refine (part1.append ((goes_value _ _).append ((part2.close _ rfl).append ((goes_value _ _).append (part9.close _ rfl))))).to rfl ?_
    simp [pre]
  · simp only [render_cons, render_nil, Part.chars, List.append_nil]
    exact part8

theorem goes_peers (w : Web) (v : Status.View) (h : ∀ p ∈ v.peers, '<' ∉ Serde.chars (RouterJson.addrValue p.2.peer.addr)) :
    Goes {} (render (peers w v)) {}
      ([.tag "html".toList, .tag "head".toList, .tag "style".toList, .tag "/style".toList, .tag "title".toList, .tag "/title".toList,
        .block ("dtn7: ".toList ++ escape w.nodeid), .tag "/head".toList, .tag "body".toList, .tag "h1".toList, .tag "a".toList,
        .link "/".toList, .tag "/a".toList, .tag "/h1".toList, .block ("dtn7 local node: ".toList ++ escape w.nodeid), .tag "div".toList,
        .tag "h2".toList, .tag "/h2".toList, .block "Peers".toList, .tag "div".toList, .tag "table".toList, .tag "tr".toList,
        .tag "th".toList, .tag "/th".toList, .block "Name".toList, .tag "th".toList, .tag "/th".toList, .block "Type".toList,
        .tag "th".toList, .tag "/th".toList, .block "Addr".toList, .tag "th".toList, .tag "/th".toList, .block "Last Seen".toList,
        .tag "/tr".toList] ++
      v.peers.flatMap (fun p => peerSeen p.2.peer.eid.print (typeName p.2.peer.conType) (Serde.chars (RouterJson.addrValue p.2.peer.addr))
        (lastSeen w p.2.peer)) ++
      [.tag "/table".toList, .tag "/div".toList, .tag "/div".toList, .tag "/body".toList, .tag "/html".toList]) := by
  exact goes_around w v (goes_list _ _ _ _ fun p hp => goes_peer _ _ _ _ (h p hp))

theorem goes_clas (clas : List String) (b : List Char) :
    Goes ⟨none, some b⟩ (clas.flatMap fun cla => render [.text " ", .value cla, .text " "])
      ⟨none, some (b ++ clas.flatMap fun cla => ' ' :: (escape cla ++ [' ']))⟩ [] := by
  induction clas generalizing b with
  | nil => exact (Goes.nil _).to (by simp) rfl
  | cons c l ih =>
    rw [List.flatMap_cons]
    simp only [render_cons, render_nil, Part.chars, List.append_nil]
    refine (Goes.append ((goes_text b " ".toList (by decide +kernel)).append ((goes_value _ c).append (goes_text _ " ".toList (by decide +kernel))))
      (ih _)).to ?_ rfl
    simp

theorem goes_index (x : Status.Ext) (w : Web) (v : Status.View) :
    Goes {} (render (index x w v)) {}
      [.tag "html".toList, .tag "head".toList, .tag "style".toList, .tag "/style".toList, .tag "title".toList, .tag "/title".toList,
        .block ("dtn7: ".toList ++ escape w.nodeid), .tag "/head".toList, .tag "body".toList, .tag "h1".toList, .tag "a".toList,
        .link "/".toList, .tag "/a".toList, .tag "/h1".toList, .block ("dtn7 local node: ".toList ++ escape w.nodeid), .tag "div".toList,
        .tag "h2".toList, .tag "/h2".toList, .block "Configuration".toList, .tag "div".toList, .tag "p".toList, .tag "/p".toList,
        .block ("Routing: ".toList ++ escape w.routing), .tag "p".toList, .tag "/p".toList,
        .block ("CLAs: ".toList ++ w.clas.flatMap fun cla => ' ' :: (escape cla ++ [' '])), .tag "p".toList, .tag "/p".toList,
        .block ("Janitor Interval: ".toList ++ escape w.janitor), .tag "p".toList, .tag "/p".toList,
        .block ("Announcement Interval: ".toList ++ escape w.announcement), .tag "p".toList, .tag "/p".toList,
        .block ("Peer-Timeout: ".toList ++ escape w.timeout), .tag "/div".toList, .tag "/div".toList, .tag "div".toList, .tag "h2".toList,
        .tag "a".toList, .link "/peers".toList, .tag "/a".toList, .tag "/h2".toList, .block "Peers".toList, .tag "div".toList,
        .tag "p".toList, .tag "/p".toList, .block ("Recent neighbours: ".toList ++ escape (toString v.peers.length)), .tag "/div".toList,
        .tag "/div".toList, .tag "div".toList, .tag "h2".toList, .tag "a".toList, .link "/bundles".toList, .tag "/a".toList,
        .tag "/h2".toList, .block "Bundles".toList, .tag "div".toList, .tag "p".toList, .tag "/p".toList,
        .block ("Stored: ".toList ++ escape (toString w.count)), .tag "p".toList, .tag "/p".toList,
        .block ("Hash: ".toList ++ escape (Digest.complete x.sha1 v.packs)), .tag "/div".toList, .tag "/div".toList, .tag "/body".toList,
        .tag "/html".toList] := by
  unfold index
  rw [render_append, render_append, render_flatMap]
  simp only [render_cons, render_nil, Part.chars, List.append_nil]
  have hc := fun b => goes_clas w.clas b
  simp only [render_cons, render_nil, Part.chars, List.append_nil] at hc
  refine (((part1.append ((goes_value _ _).append ((part2.close _ rfl).append ((goes_value _ _).append ((part12.close _ rfl).append
    ((goes_value _ _).append (part13.close _ rfl))))))).append (hc _)).append
    ((part15.close _ rfl).append ((goes_value _ _).append ((part16.close _ rfl).append ((goes_value _ _).append
    ((part17.close _ rfl).append ((goes_value _ _).append ((part18.close _ rfl).append ((goes_value _ _).append ((part19.close _ rfl).append
    ((goes_value _ _).append ((part20.close _ rfl).append ((goes_value _ _).append (part21.close _ rfl)))))))))))))).to rfl ?_
  simp [pre]

end Dtn.WebPages
