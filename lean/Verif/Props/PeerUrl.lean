import Verif.Lemmas.PeerUrlIp
/-! C61: peer URLs are parsed faithfully. -/

namespace Dtn.Props
open PeerUrl Spec.PeerUrlSpec

private theorem meant_host {scheme host addr} (h : Meant scheme host addr) :
    HostText host ∧ (scheme = "http".toList → host.map Char.toLower = host) ∧
    addr = (if isIpv4 host then PeerAddress.ipv4 (String.ofList host) else .generic (String.ofList host)) := by
  cases h with
  | ip a b c d =>
    have hc : ∀ x ∈ ip4 a b c d, x = '.' ∨ ('0' ≤ x ∧ x ≤ '9') := by
      intro x hx
      simp only [ip4, List.mem_append, List.mem_cons] at hx
      rcases hx with ((hx | rfl | hx) | rfl | hx) | rfl | hx <;> first | exact Or.inl rfl | exact Or.inr (digit_of_mem hx)
    refine ⟨Or.inl ⟨by simp [ip4], ?_⟩, fun _ => map_toLower_of_lower ?_, by rw [isIpv4_ip4]; rfl⟩
    · apply plain_not_delim
      intro x hx
      rcases hc x hx with rfl | h
      · simp
      · exact Or.inr (Or.inr (Or.inl h))
    · intro x hx hu
      rcases hc x hx with rfl | h
      · revert hu; decide
      · have : x < 'A' := Nat.lt_of_le_of_lt h.2 (by decide : '9'.toNat < 'A'.toNat)
        exact absurd hu.1 (Nat.not_le_of_lt this)
  | name host hp hex hl =>
    refine ⟨Or.inl ⟨?_, plain_not_delim hp⟩, fun hs => map_toLower_of_lower ?_, by rw [isIpv4_false hex]; rfl⟩
    · rintro rfl
      obtain ⟨c, hc, _⟩ := hex
      cases hc
    · intro x hx hu
      rcases hl hs x hx with h | rfl
      · have : 'Z' < x := Nat.lt_of_lt_of_le (by decide : 'Z'.toNat < 'a'.toNat) h.1
        exact absurd hu.2 (Nat.not_le_of_lt this)
      · revert hu; decide

private theorem meant_node {parseEid n eid} (hr : ReadsNodes parseEid) (h : MeantNode n eid) :
    n ≠ [] ∧ (∀ c ∈ n, c ∉ delims) ∧
    parseEid (String.ofList (if n.all isDigit then "ipn:".toList ++ n ++ ".0".toList else "dtn://".toList ++ n ++ "/".toList)) =
      some eid := by
  cases h with
  | name n hp hex =>
    have hne : n ≠ [] := by
      rintro rfl
      obtain ⟨c, hc, _⟩ := hex
      cases hc
    refine ⟨hne, plain_not_delim hp, ?_⟩
    have : n.all isDigit = false := by
      rw [Bool.eq_false_iff]
      intro hall
      obtain ⟨c, hc, _, hnd⟩ := hex
      have := List.all_eq_true.mp hall c hc
      simp only [isDigit, Bool.and_eq_true, decide_eq_true_eq] at this
      exact hnd this
    rw [this]
    exact hr.name n hne hp
  | number n hn =>
    have hc : ∀ c ∈ (toString n).toList, '0' ≤ c ∧ c ≤ '9' := fun c hc => digit_of_mem hc
    refine ⟨toString_ne_nil n, plain_not_delim fun c h => Or.inr (Or.inr (Or.inl (hc c h))), ?_⟩
    have : (toString n).toList.all isDigit = true := by
      rw [List.all_eq_true]
      intro c h
      simp only [isDigit, Bool.and_eq_true, decide_eq_true_eq]
      exact hc c h
    rw [this]
    exact hr.number n hn

private theorem filter_slash {n : List Char} (n2 : ∀ c ∈ n, c ∉ delims) : ('/' :: n).filter (· ≠ '/') = n := by
  rw [List.filter_cons]
  simp only [ne_eq, not_true_eq_false, decide_false, Bool.false_eq_true, if_false]
  rw [List.filter_eq_self]
  intro c hc
  have := n2 c hc
  simp only [delims, List.mem_cons, not_or] at this
  simp [this.2.1]

private theorem of_written {parseEid now ext scheme host port n addr eid} (hr : ReadsNodes parseEid)
    (hext : ext = true ∨ isCla scheme = true) (hs : ∀ c ∈ scheme, schemeChar c = true) (hl : scheme.map Char.toLower = scheme)
    (ha : ∃ c, scheme.head? = some c ∧ isAlpha c = true) (hd : defaultPort scheme = if scheme = "http".toList then some 80 else none)
    (hh : Meant scheme host addr) (hn : MeantNode n eid) (hp : ∀ p, port = some p → p ≤ 65535)
    (h80 : ¬ (scheme = "http".toList ∧ port = some 80)) :
    ∃ u, Url.parse (url scheme host port ('/' :: n)) = some u ∧
      ofUrl parseEid now ext u = .ok (Peer.new now eid addr .static none [(String.ofList scheme, port)]) := by
  obtain ⟨h1, h2, h3⟩ := meant_host hh
  obtain ⟨n1, n2, n3⟩ := meant_node hr hn
  refine ⟨_, parse_url scheme host ('/' :: n) port hs ha h1 hp (Or.inr ⟨n, rfl⟩) ?_, ?_⟩
  · intro c hc
    rcases List.mem_cons.mp hc with rfl | hc
    · decide
    · have := n2 c hc
      simp only [delims, List.mem_cons, not_or] at this
      exact ⟨this.2.2.1, this.2.2.2.1⟩
  · rw [hl]
    have e1 : (if (defaultPort scheme).isSome then host.map Char.toLower else host) = host := by
      split
      · apply h2
        rw [hd] at *
        by_cases h : scheme = "http".toList
        · exact h
        · rw [if_neg h] at *; simp at *
      · rfl
    have e2 : (if port = defaultPort scheme then none else port) = port := by
      rw [hd]
      by_cases h : scheme = "http".toList
      · rw [if_pos h, if_neg fun hp => h80 ⟨h, hp⟩]
      · rw [if_neg h]
        split
        · rename_i h; exact h.symm
        · rfl
    have e3 : (if ((defaultPort scheme).isSome && ('/' :: n).isEmpty) = true then ['/'] else '/' :: n) = '/' :: n := by simp
    rw [e1, e2, e3]
    unfold ofUrl
    have e4 : (!ext && !isCla scheme) = false := by rcases hext with h | h <;> simp [h]
    have e5 := filter_slash n2
    dsimp only
    rw [e4, e5]
    simp only [Bool.false_eq_true, if_false]
    rw [if_neg (by simp [n1]), n3, ← h3]

/-- Every URL `layer://host:port/node` is read as a static peer with this layer, host, port and node: IPv4 hosts as addresses and
others by name, node numbers as `ipn` nodes and others as `dtn` nodes. Missing: port 80 of `http`
(`C61_default_port_violated`), IPv6 hosts (`C61_ipv6_violated`) and texts with characters the URL standard encodes. -/
theorem C61_roundtrip_partial (parseEid : String → Option EID) (hr : ReadsNodes parseEid) (now : Nat) (scheme host name : List Char)
    (port : Option Nat) (addr : PeerAddress) (eid : EID) (hs : scheme ∈ layers) (hh : Meant scheme host addr)
    (hp : ∀ p, port = some p → p ≤ 65535) (h80 : ¬ (scheme = "http".toList ∧ port = some 80)) (hn : MeantNode name eid) :
    parsePeerUrl parseEid now (url scheme host port ('/' :: name)) =
      .ok { eid := eid, addr := addr, conType := .static, period := none, claList := [(String.ofList scheme, port)]
            lastContact := now, fails := 0 } := by
  obtain ⟨l1, l2, l3, l4, l5, l6⟩ := layer_facts hs
  obtain ⟨u, h1, h2⟩ := of_written (now := now) (ext := false) hr (Or.inr l1) l2 l4 l3 l6 hh hn hp h80
  have e : "ecla+".toList.isPrefixOf (url scheme host port ('/' :: name)) = false := by
    have : url scheme host port ('/' :: name) = scheme ++ ':' :: ("//".toList ++ host ++ portPart port ++ '/' :: name) := by
      unfold url
      have : "://".toList = ':' :: "//".toList := rfl
      rw [this]; simp
    rw [this]
    exact not_external hs _
  unfold parsePeerUrl
  dsimp only
  rw [e]
  simp only [Bool.false_eq_true, if_false]
  rw [h1]
  exact h2

/-- A colon behind the host without a number is read as if it were not there. -/
theorem C61_bare_colon (parseEid : String → Option EID) (now : Nat) (scheme host path : List Char) (addr : PeerAddress) (hs : scheme ∈ layers)
    (hh : Meant scheme host addr) (hpath : path = [] ∨ ∃ t, path = '/' :: t) :
    parsePeerUrl parseEid now (scheme ++ "://".toList ++ host ++ ":".toList ++ path) = parsePeerUrl parseEid now (url scheme host none path) := by
  obtain ⟨-, l2, l3, -, -, -⟩ := layer_facts hs
  obtain ⟨h1, -, -⟩ := meant_host hh
  have e0 : "://".toList = ':' :: "//".toList := rfl
  have e1 : scheme ++ "://".toList ++ host ++ ":".toList ++ path = scheme ++ ':' :: ("//".toList ++ host ++ ":".toList ++ path) := by
    rw [e0]; simp
  have e2 : url scheme host none path = scheme ++ ':' :: ("//".toList ++ host ++ path) := by
    unfold url; rw [e0]; simp [portPart]
  have p1 := parse_text scheme host path ":".toList l2 l3 h1 hpath (.inr ⟨[], rfl⟩) (by decide)
  have p2 := parse_written scheme host path none l2 l3 h1 hpath
  have p3 : portText ":".toList = some none := rfl
  have p4 : portText (portPart none) = some none := rfl
  rw [p3] at p1
  rw [p4] at p2
  unfold parsePeerUrl
  dsimp only
  rw [e1, e2, not_external hs, not_external hs, ← e1, ← e2]
  simp only [Bool.false_eq_true, if_false]
  rw [p1, p2]

/-- A concrete parser for the examples. -/
private def sampleEid (s : String) : Option EID :=
  if s = "dtn://node1/" then some (.dtn "node1" "") else if s = "ipn:23.0" then some (.ipn 23 0) else none

/-- A parser as required exists. -/
private theorem reads_exists : ∃ parseEid, ReadsNodes parseEid := by
  classical
  refine ⟨fun s => if h : ∃ n : Nat, n < 2 ^ 64 ∧ s = String.ofList ("ipn:".toList ++ (toString n).toList ++ ".0".toList) then
      some (.ipn h.choose 0)
    else if h : ∃ n : List Char, s = String.ofList ("dtn://".toList ++ n ++ "/".toList) then some (.dtn (String.ofList h.choose) "")
    else none, ?_, ?_⟩
  · intro n _ _
    have h0 : ¬ ∃ m : Nat, m < 2 ^ 64 ∧ String.ofList ("dtn://".toList ++ n ++ "/".toList) =
        String.ofList ("ipn:".toList ++ (toString m).toList ++ ".0".toList) := by
      rintro ⟨m, _, h⟩
      have h := String.ofList_injective h
      exact absurd (congrArg List.head? h) (by simp)
    have h1 : ∃ m : List Char, String.ofList ("dtn://".toList ++ n ++ "/".toList) = String.ofList ("dtn://".toList ++ m ++ "/".toList) :=
      ⟨n, rfl⟩
    rw [dif_neg h0, dif_pos h1]
    have := String.ofList_injective h1.choose_spec
    rw [List.append_cancel_right_eq, List.append_cancel_left_eq] at this
    rw [← this]
  · intro n hn
    have h1 : ∃ m : Nat, m < 2 ^ 64 ∧ String.ofList ("ipn:".toList ++ (toString n).toList ++ ".0".toList) =
        String.ofList ("ipn:".toList ++ (toString m).toList ++ ".0".toList) := ⟨n, hn, rfl⟩
    rw [dif_pos h1]
    have := String.ofList_injective h1.choose_spec.2
    rw [List.append_cancel_right_eq, List.append_cancel_left_eq] at this
    have a := digits_toString n
    rw [this, digits_toString] at a
    exact congrArg (fun k => some (EID.ipn k 0)) (Option.some.inj a)

example : ∃ parseEid, parsePeerUrl parseEid 7 "mtcp://192.168.2.1:2342/node1".toList =
    .ok { eid := .dtn "node1" "", addr := .ipv4 "192.168.2.1", conType := .static, period := none, claList := [("mtcp", some 2342)]
          lastContact := 7, fails := 0 } := by
  obtain ⟨parseEid, hr⟩ := reads_exists
  have e : url "mtcp".toList (ip4 192 168 2 1) (some 2342) ('/' :: "node1".toList) = "mtcp://192.168.2.1:2342/node1".toList := by decide +kernel
  exact ⟨parseEid, e ▸ C61_roundtrip_partial parseEid hr 7 "mtcp".toList (ip4 192 168 2 1) "node1".toList (some 2342) _ _ (by decide)
    (.ip 192 168 2 1) (by simp) (by decide) (.name _ (by unfold Plain; decide) (by decide))⟩

example : ∃ parseEid, parsePeerUrl parseEid 7 "http://router.local/23".toList =
    .ok { eid := .ipn 23 0, addr := .generic "router.local", conType := .static, period := none, claList := [("http", none)]
          lastContact := 7, fails := 0 } := by
  obtain ⟨parseEid, hr⟩ := reads_exists
  have e : url "http".toList "router.local".toList none ('/' :: (toString 23).toList) = "http://router.local/23".toList := by decide +kernel
  exact ⟨parseEid, e ▸ C61_roundtrip_partial parseEid hr 7 "http".toList "router.local".toList (toString 23).toList none _ _ (by decide)
    (.name _ (by unfold Plain; decide) (by decide) (by decide)) (by simp) (by decide) (.number 23 (by decide))⟩

/-- With the prefix `ecla+` the layer may have any name (in lower case): it is one of an external program. -/
theorem C61_external (parseEid : String → Option EID) (hr : ReadsNodes parseEid) (now : Nat) (scheme host name : List Char)
    (port : Option Nat) (addr : PeerAddress) (eid : EID)
    (hs : ∀ c ∈ scheme, ('a' ≤ c ∧ c ≤ 'z') ∨ ('0' ≤ c ∧ c ≤ '9') ∨ c = '+' ∨ c = '-' ∨ c = '.')
    (ha : ∃ c, scheme.head? = some c ∧ 'a' ≤ c ∧ c ≤ 'z')
    (hd : scheme ∉ ["http".toList, "https".toList, "ws".toList, "wss".toList, "ftp".toList])
    (hh : Meant scheme host addr) (hp : ∀ p, port = some p → p ≤ 65535) (hn : MeantNode name eid) :
    parsePeerUrl parseEid now ("ecla+".toList ++ url scheme host port ('/' :: name)) =
      .ok { eid := eid, addr := addr, conType := .static, period := none, claList := [(String.ofList scheme, port)]
            lastContact := now, fails := 0 } := by
  simp only [List.mem_cons, List.not_mem_nil, or_false, not_or] at hd
  have hl : scheme.map Char.toLower = scheme := by
    apply map_toLower_of_lower
    intro c hc hu
    rcases hs c hc with h | h | rfl | rfl | rfl
    · have : 'Z' < c := Nat.lt_of_lt_of_le (by decide : 'Z'.toNat < 'a'.toNat) h.1
      exact absurd hu.2 (Nat.not_le_of_lt this)
    · have : c < 'A' := Nat.lt_of_le_of_lt h.2 (by decide : '9'.toNat < 'A'.toNat)
      exact absurd hu.1 (Nat.not_le_of_lt this)
    all_goals revert hu; decide
  obtain ⟨u, h1, h2⟩ := of_written (now := now) (ext := true) (scheme := scheme) hr (Or.inl rfl)
    (by intro c hc
        unfold schemeChar isAlpha isDigit
        rcases hs c hc with h | h | rfl | rfl | rfl
        · simp [h.1, h.2]
        · simp [h.1, h.2]
        all_goals simp)
    hl (by obtain ⟨c, h1, h2⟩ := ha; exact ⟨c, h1, by simp [isAlpha, h2.1, h2.2]⟩)
    (by unfold defaultPort
        rw [if_neg (by simp only [hd.1, hd.2.2.1, or_self, not_false_eq_true]), if_neg (by simp only [hd.2.1, hd.2.2.2.1, or_self, not_false_eq_true]),
          if_neg hd.2.2.2.2, if_neg hd.1])
    hh hn hp (fun h => hd.1 h.1)
  have e : "ecla+".toList.isPrefixOf ("ecla+".toList ++ url scheme host port ('/' :: name)) = true := by
    rw [List.isPrefixOf_iff_prefix]; exact List.prefix_append _ _
  unfold parsePeerUrl
  dsimp only
  rw [e]
  simp only [if_true]
  have : ("ecla+".toList ++ url scheme host port ('/' :: name)).drop 5 = url scheme host port ('/' :: name) := rfl
  rw [this, h1]
  exact h2

example : ∃ parseEid, parsePeerUrl parseEid 7 "ecla+lora://gw-7/node1".toList =
    .ok { eid := .dtn "node1" "", addr := .generic "gw-7", conType := .static, period := none, claList := [("lora", none)]
          lastContact := 7, fails := 0 } := by
  obtain ⟨parseEid, hr⟩ := reads_exists
  exact ⟨parseEid, C61_external parseEid hr 7 "lora".toList "gw-7".toList "node1".toList none _ _ (by decide)
    ⟨'l', rfl, by decide⟩ (by decide) (.name _ (by unfold Plain; decide) (by decide) (by decide)) (by simp)
    (.name _ (by unfold Plain; decide) (by decide))⟩

/-- Whatever the text, a peer read from it is static, was never tried before, has no period, and has one layer; without the prefix
`ecla+` this is a layer of this program. Its port fits into 16 bits. -/
theorem C61_accepted (parseEid : String → Option EID) (now : Nat) (s : List Char) (p : Peer)
    (h : parsePeerUrl parseEid now s = .ok p) :
    p.conType = .static ∧ p.period = none ∧ p.lastContact = now ∧ p.fails = 0 ∧
    ∃ scheme port, p.claList = [(String.ofList scheme, port)] ∧ (¬ "ecla+".toList <+: s → scheme ∈ layers) ∧
      ∀ n, port = some n → n ≤ 65535 := by
  unfold parsePeerUrl at h
  dsimp only at h
  split at h
  · cases h
  · rename_i u hu
    have hport : ∀ n, u.port = some n → n ≤ 65535 := by
      intro n hn
      have auth : ∀ sch rest u, Url.authority sch rest = some u → u.port = some n → n ≤ 65535 := by
        intro sch rest u hu hn
        unfold Url.authority at hu
        dsimp only at hu
        split at hu
        · cases hu
        · rename_i port hp
          split at hu
          · split at hu
            · cases hu
            · cases hu; cases hn
          · cases hu
            dsimp only at hn
            split at hn
            · cases hn
            · subst hn
              unfold portText at hp
              split at hp
              · cases hp
              · split at hp
                · split at hp
                  · cases hp
                  · split at hp
                    · split at hp
                      · rename_i hle; cases hp; exact hle
                      · cases hp
                    · cases hp
                · cases hp
      generalize (if "ecla+".toList.isPrefixOf s then s.drop 5 else s) = t at hu
      unfold Url.parse at hu
      dsimp only at hu
      split at hu
      · split at hu
        · split at hu
          · exact auth _ _ _ hu hn
          · split at hu
            · exact auth _ _ _ hu hn
            · cases hu; cases hn
        · cases hu
      · cases hu
    unfold ofUrl at h
    split at h
    · cases h
    · rename_i hc
      split at h
      · cases h
      · split at h
        · cases h
        · dsimp only at h
          split at h
          · cases h
            refine ⟨rfl, rfl, rfl, rfl, u.scheme, u.port, rfl, ?_, hport⟩
            intro hnp
            have : "ecla+".toList.isPrefixOf s = false := by
              rw [Bool.eq_false_iff]
              intro h
              exact hnp (List.isPrefixOf_iff_prefix.mp h)
            rw [this] at hc
            simp only [Bool.not_false, Bool.true_and, Bool.not_eq_true', Bool.not_eq_false] at hc
            exact decide_eq_true_eq.mp hc
          · cases h

example : parsePeerUrl sampleEid 3 "tcp://[::1]:4556/node1".toList =
    .ok (Peer.new 3 (.dtn "node1" "") (.generic "[::1]") .static none [("tcp", some 4556)]) := by decide +kernel

/-- Whatever the text, the address of a peer read from it is an IP address exactly if it is the printed form of one. -/
theorem C61_address_kind (parseEid : String → Option EID) (now : Nat) (s : List Char) (p : Peer)
    (h : parsePeerUrl parseEid now s = .ok p) :
    (∃ a b c d, p.addr = .ipv4 (String.ofList (ip4 a b c d))) ∨
    (∃ host : List Char, p.addr = .generic (String.ofList host) ∧ ∀ a b c d, host ≠ ip4 a b c d) := by
  unfold parsePeerUrl at h
  dsimp only at h
  split at h
  · cases h
  · rename_i u hu
    unfold ofUrl at h
    split at h
    · cases h
    · split at h
      · cases h
      · rename_i host hh
        split at h
        · cases h
        · dsimp only at h
          split at h
          · cases h
            by_cases hi : isIpv4 host = true
            · obtain ⟨a, b, c, d, rfl⟩ := ip4_of_isIpv4 hi
              exact .inl ⟨a, b, c, d, if_pos hi⟩
            · refine .inr ⟨host, if_neg hi, ?_⟩
              rintro a b c d rfl
              exact hi (isIpv4_ip4 a b c d)
          · cases h

example : parsePeerUrl sampleEid 3 "mtcp://10.0.0.256/node1".toList =
      .ok (Peer.new 3 (.dtn "node1" "") (.generic "10.0.0.256") .static none [("mtcp", none)]) ∧
    parsePeerUrl sampleEid 3 "mtcp://10.0.0.25/node1".toList =
      .ok (Peer.new 3 (.dtn "node1" "") (.ipv4 "10.0.0.25") .static none [("mtcp", none)]) := by decide +kernel

/-- Malformed URLs are rejected: without a scheme, with an unknown layer, without a host, with a port that is no number of 16 bits,
and without a node. -/
theorem C61_rejected (parseEid : String → Option EID) (now : Nat) :
    (∀ s : List Char, ':' ∉ s → parsePeerUrl parseEid now s = .invalidUrl) ∧
    (∀ scheme host port path addr, (∀ c ∈ scheme, ('a' ≤ c ∧ c ≤ 'z') ∨ ('0' ≤ c ∧ c ≤ '9')) → (∃ c, scheme.head? = some c ∧ 'a' ≤ c ∧ c ≤ 'z') →
      scheme ∉ layers → Meant scheme host addr → (∀ p, port = some p → p ≤ 65535) → Plain path →
      parsePeerUrl parseEid now (url scheme host port ('/' :: path)) = .noSuchCla (String.ofList scheme)) ∧
    (∀ scheme path, scheme ∈ layers → scheme ≠ "http".toList →
      parsePeerUrl parseEid now (url scheme [] none ('/' :: path)) = .invalidUrl) ∧
    (∀ scheme host addr path n, scheme ∈ layers → Meant scheme host addr → 65535 < n → (path = [] ∨ ∃ t, path = '/' :: t) →
      parsePeerUrl parseEid now (url scheme host (some n) path) = .invalidUrl) ∧
    (∀ scheme host port addr, scheme ∈ layers → Meant scheme host addr → (∀ p, port = some p → p ≤ 65535) →
      parsePeerUrl parseEid now (url scheme host port []) = .invalidNodeId ∧
      parsePeerUrl parseEid now (url scheme host port ['/']) = .invalidNodeId) := by
  have eu : ∀ scheme host port path, url scheme host port path = scheme ++ ':' :: ('/' :: '/' :: (host ++ portPart port ++ path)) := by
    intro scheme host port path
    unfold url
    have : "://".toList = [':', '/', '/'] := rfl
    rw [this]; simp
  refine ⟨?_, ?_, ?_, ?_, ?_⟩
  · intro s hs
    have key : ∀ t : List Char, ':' ∉ t → Url.parse t = none := by
      intro t ht
      unfold Url.parse
      dsimp only
      have : ∀ rest, t.dropWhile schemeChar ≠ ':' :: rest := by
        intro rest hr
        apply ht
        have h : ':' ∈ t.dropWhile schemeChar := by rw [hr]; simp
        exact (List.dropWhile_suffix _).subset h
      split
      · rename_i rest hr; exact absurd hr (this rest)
      · rfl
    unfold parsePeerUrl
    dsimp only
    rw [key]
    split
    · intro h; exact hs (List.mem_of_mem_drop h)
    · exact hs
  · intro scheme host port path addr hs ha hnl hh hp hpl
    have hl : scheme.map Char.toLower = scheme := by
      apply map_toLower_of_lower
      intro c hc hu
      rcases hs c hc with h | h
      · have : 'Z' < c := Nat.lt_of_lt_of_le (by decide : 'Z'.toNat < 'a'.toNat) h.1
        exact absurd hu.2 (Nat.not_le_of_lt this)
      · have : c < 'A' := Nat.lt_of_le_of_lt h.2 (by decide : '9'.toNat < 'A'.toNat)
        exact absurd hu.1 (Nat.not_le_of_lt this)
    have hsc : ∀ c ∈ scheme, schemeChar c = true := by
      intro c hc
      unfold schemeChar isAlpha isDigit
      rcases hs c hc with h | h <;> simp [h.1, h.2]
    have hal : ∃ c, scheme.head? = some c ∧ isAlpha c = true := by
      obtain ⟨c, h1, h2⟩ := ha; exact ⟨c, h1, by simp [isAlpha, h2.1, h2.2]⟩
    have hext : "ecla+".toList.isPrefixOf (url scheme host port ('/' :: path)) = false := by
      rw [eu, Bool.eq_false_iff]
      intro h
      have h := List.isPrefixOf_iff_prefix.mp h
      obtain ⟨t, ht⟩ := h
      have hplus : '+' ∉ scheme := by
        intro hm
        have := hs _ hm
        revert this; decide
      have hcol : ':' ∉ "ecla+".toList := by decide
      rcases List.append_eq_append_iff.mp ht with ⟨a, h1, _⟩ | ⟨a, h1, h2⟩
      · exact hplus (by rw [h1]; simp)
      · cases a with
        | nil => exact hplus (by rw [List.append_nil] at h1; rw [← h1]; decide)
        | cons x a =>
          have : x = ':' := by simpa using congrArg List.head? h2.symm
          subst this
          exact hcol (by rw [h1]; simp)
    unfold parsePeerUrl
    dsimp only
    rw [hext]
    simp only [Bool.false_eq_true, if_false]
    rw [parse_url scheme host ('/' :: path) port hsc hal (meant_host hh).1 hp (Or.inr ⟨path, rfl⟩)
      (by intro c hc
          rcases List.mem_cons.mp hc with rfl | hc
          · decide
          · have := plain_not_delim hpl c hc
            simp [delims] at this
            exact ⟨this.2.2.1, this.2.2.2.1⟩)]
    unfold ofUrl
    dsimp only
    have : isCla scheme = false := by
      unfold isCla
      rw [decide_eq_false_iff_not]
      exact hnl
    rw [hl, this]
    simp
  · intro scheme path hs hne
    obtain ⟨l1, l2, l3, l4, l5, l6⟩ := layer_facts hs
    have he : "ecla+".toList.isPrefixOf (url scheme [] none ('/' :: path)) = false := by rw [eu]; exact not_external hs _
    obtain ⟨e1, e2, e3⟩ := parse_auth scheme ('/' :: '/' :: ([] ++ portPart none ++ '/' :: path)) l2 l3
    unfold parsePeerUrl
    dsimp only
    rw [he, eu]
    simp only [Bool.false_eq_true, if_false]
    unfold Url.parse
    dsimp only
    rw [e1, e2]
    simp only
    rw [if_pos e3, l4, l6, if_neg hne]
    simp only [Option.isSome_none, Bool.false_eq_true, if_false]
    have : Url.authority scheme ([] ++ portPart none ++ '/' :: path) =
        some { scheme, host := none, port := none, path := ('/' :: path).takeWhile fun c => c ≠ '?' && c ≠ '#' } := by
      unfold Url.authority
      have hne' : scheme ≠ ['h', 't', 't', 'p'] := hne
      simp [portPart, splitHost, portText, l6, hne']
    rw [this]
    simp only [ofUrl, l1, Bool.not_true, Bool.and_false, Bool.false_eq_true, if_false]
  · intro scheme host addr path n hs hh hn hpath
    obtain ⟨l1, l2, l3, l4, l5, l6⟩ := layer_facts hs
    have he : "ecla+".toList.isPrefixOf (url scheme host (some n) path) = false := by rw [eu]; exact not_external hs _
    unfold parsePeerUrl
    dsimp only
    rw [he]
    simp only [Bool.false_eq_true, if_false]
    rw [parse_url_badport scheme host path n l2 l3 (meant_host hh).1 hn hpath]
  · intro scheme host port addr hs hh hp
    obtain ⟨l1, l2, l3, l4, l5, l6⟩ := layer_facts hs
    have key : ∀ path, path = [] ∨ path = ['/'] → parsePeerUrl parseEid now (url scheme host port path) = .invalidNodeId := by
      intro path hpath
      have he : "ecla+".toList.isPrefixOf (url scheme host port path) = false := by rw [eu]; exact not_external hs _
      unfold parsePeerUrl
      dsimp only
      rw [he]
      simp only [Bool.false_eq_true, if_false]
      rw [parse_url scheme host path port l2 l3 (meant_host hh).1 hp (by rcases hpath with rfl | rfl <;> simp)
        (by rcases hpath with rfl | rfl <;> simp)]
      unfold ofUrl
      dsimp only
      rw [l4, l1]
      rcases hpath with rfl | rfl <;> cases (defaultPort scheme).isSome <;> simp
    exact ⟨key _ (Or.inl rfl), key _ (Or.inr rfl)⟩

example : parsePeerUrl sampleEid 0 "nosuchcla://192.168.2.1/node1".toList = .noSuchCla "nosuchcla" ∧
    parsePeerUrl sampleEid 0 "mtcp://192.168.2.1".toList = .invalidNodeId ∧
    parsePeerUrl sampleEid 0 "mtcp://192.168.2.1:65536/node1".toList = .invalidUrl ∧
    parsePeerUrl sampleEid 0 "mtcp:///node1".toList = .invalidUrl ∧
    parsePeerUrl sampleEid 0 "node1".toList = .invalidUrl ∧
    parsePeerUrl sampleEid 0 "mtcp://192.168.2.1:/node1".toList =
      .ok (Peer.new 0 (.dtn "node1" "") (.ipv4 "192.168.2.1") .static none [("mtcp", none)]) := by decide +kernel

/-- The statement of C61 for the port is false: port 80 given in an `http` URL is lost, so the peer is contacted on the port of
the layer instead. -/
theorem C61_default_port_violated (parseEid : String → Option EID) (now : Nat) :
    parsePeerUrl parseEid now "http://h:80/n".toList = parsePeerUrl parseEid now "http://h/n".toList := by
  have e1 : "ecla+".toList.isPrefixOf "http://h:80/n".toList = false := by decide
  have e2 : "ecla+".toList.isPrefixOf "http://h/n".toList = false := by decide
  have e3 : Url.parse "http://h:80/n".toList = Url.parse "http://h/n".toList := by decide +kernel
  unfold parsePeerUrl
  dsimp only
  rw [e1, e2]
  simp only [Bool.false_eq_true, if_false]
  rw [e3]

/-- The statement of C61 for the host is false: an IPv6 address is kept as a name, with its brackets. -/
theorem C61_ipv6_violated (parseEid : String → Option EID) (hr : ReadsNodes parseEid) (now : Nat) :
    ∃ p, parsePeerUrl parseEid now "mtcp://[fe80::1]:2342/n".toList = .ok p ∧ p.addr = .generic "[fe80::1]" := by
  have e1 : "ecla+".toList.isPrefixOf "mtcp://[fe80::1]:2342/n".toList = false := by decide
  have e2 : Url.parse "mtcp://[fe80::1]:2342/n".toList =
      some { scheme := "mtcp".toList, host := some "[fe80::1]".toList, port := some 2342, path := "/n".toList } := by decide +kernel
  have e3 := hr.name "n".toList (by decide) (by unfold Plain; decide)
  refine ⟨Peer.new now (.dtn "n" "") (.generic "[fe80::1]") .static none [("mtcp", some 2342)], ?_, rfl⟩
  unfold parsePeerUrl
  dsimp only
  rw [e1]
  simp only [Bool.false_eq_true, if_false]
  rw [e2]
  unfold ofUrl
  have f1 : isCla "mtcp".toList = true := by decide
  have f2 : isIpv4 "[fe80::1]".toList = false := by decide +kernel
  have f3 : (("/n".toList = ['/'] || "/n".toList = []) : Bool) = false := by decide
  have f4 : "/n".toList.filter (· ≠ '/') = "n".toList := by decide
  have f5 : "n".toList.all isDigit = false := by decide
  dsimp only
  rw [f1, f2, f4, f5]
  simp only [Bool.not_true, Bool.and_false, Bool.false_eq_true, if_false]
  rw [if_neg (by decide), e3]
  rfl

/-- The statement of C61 for the node is false: slashes are dropped, so different URLs name the same peer. -/
theorem C61_slashes_violated (parseEid : String → Option EID) (now : Nat) :
    parsePeerUrl parseEid now "mtcp://h/a/b".toList = parsePeerUrl parseEid now "mtcp://h/ab".toList := by
  have e1 : "ecla+".toList.isPrefixOf "mtcp://h/a/b".toList = false := by decide
  have e2 : "ecla+".toList.isPrefixOf "mtcp://h/ab".toList = false := by decide
  have e3 : Url.parse "mtcp://h/a/b".toList = some { scheme := "mtcp".toList, host := some ['h'], port := none, path := "/a/b".toList } := by
    decide +kernel
  have e4 : Url.parse "mtcp://h/ab".toList = some { scheme := "mtcp".toList, host := some ['h'], port := none, path := "/ab".toList } := by
    decide +kernel
  have f1 : isCla "mtcp".toList = true := by decide
  have f4 : "/a/b".toList.filter (· ≠ '/') = "ab".toList := by decide
  have f5 : "/ab".toList.filter (· ≠ '/') = "ab".toList := by decide
  unfold parsePeerUrl
  dsimp only
  rw [e1, e2]
  simp only [Bool.false_eq_true, if_false]
  rw [e3, e4]
  unfold ofUrl
  dsimp only
  rw [f1, f4, f5]
  simp only [Bool.not_true, Bool.and_false, Bool.false_eq_true, if_false]
  have g1 : ¬ (decide ("/a/b".toList = ['/']) || decide ("/a/b".toList = [])) = true := by decide
  have g2 : ¬ (decide ("/ab".toList = ['/']) || decide ("/ab".toList = [])) = true := by decide
  rw [if_neg g1, if_neg g2]

end Dtn.Props
