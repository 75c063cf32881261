import Verif.Lemmas.ClasStream
import Verif.Lemmas.ClasAlive
import Verif.Props.Mtcp
/-! # Convergence layers: C96 to C99 -/

namespace Dtn.Props
open Dtn.Clas Dtn.Spec Dtn.Spec.ClasSpec

namespace ClasEx

/-- Two IPv4 addresses and an IPv6 address. -/
def net : Sock Nat where
  parse s := if s = "10.0.0.1:16162" then some 1 else if s = "10.0.0.2:16162" then some 2 else if s = "[fe80::1]:16162" then some 100 else none
  isV4 a := a < 100

/-- A bundle, as far as framing is concerned. -/
def b1 : Bytes := [0x9f, 1, 1, 1, 1, 1, 1, 1, 1, 0xff]
def b2 : Bytes := [0x9f, 2, 2, 2, 2, 2, 2, 2, 2, 2, 0xff]

theorem net_text : SockText net := by
  intro s a h
  unfold net at h
  dsimp only at h
  split at h
  · rename_i hs
    subst hs
    exact .inr (by decide +kernel)
  · split at h
    · rename_i hs
      subst hs
      exact .inr (by decide +kernel)
    · split at h
      · rename_i hs
        subst hs
        exact .inl (by decide +kernel)
      · cases h

end ClasEx

set_option linter.unusedSectionVars false

variable {A : Type} [DecidableEq A]

theorem answer_iff (s : State A) (i : Nat) (ans : Answer) : answer s i = some ans ↔ ∃ r, s.reqs[i]? = some r ∧ r.pc = .done ans := by
  unfold answer
  cases h : s.reqs[i]? with
  | none => simp
  | some r =>
    obtain ⟨dest, data, pc⟩ := r
    cases pc <;> simp

/-! ### C96 -/

/-- C96: whoever asks a convergence layer to transfer a bundle gets at most one answer: an answer never changes. -/
theorem C96_answer_final {k : Kind} {net : Sock A} {evs more : List Ev} {s t : State A} (h : After k net evs s)
    (hr : run k net s more = some t) {i : Nat} {ans : Answer} (ha : answer s i = some ans) : answer t i = some ans := by
  obtain ⟨r, h1, h2⟩ := (answer_iff s i ans).mp ha
  obtain ⟨q, h3, h4⟩ := run_later (inv_after h) hr h1
  exact (answer_iff t i ans).mpr ⟨q, h3, h4.final ans h2⟩

/-- C96: without new transfers the work ends after finitely many steps, whatever the network does, -/
theorem C96_work_ends {k : Kind} {net : Sock A} {evs : List Ev} {s : State A} (h : After k net evs s) :
    ∃ n, ∀ more t, (∀ e ∈ more, Internal e) → run k net s more = some t → more.length ≤ n := by
  refine ⟨work s, fun more t hi hr => ?_⟩
  have := work_run (inv_after h) hi hr
  omega

/-- C96: and it does not end before everybody has an answer, also if the layer was shut down or its task has crashed. Together:
every transfer is answered exactly once. -/
theorem C96_all_answered {k : Kind} {net : Sock A} {evs : List Ev} {s : State A} (h : After k net evs s) (hq : Quiet k net s)
    {i : Nat} {dest : String} {data : Bytes} (ha : Asked s i dest data) : ∃ ans, answer s i = some ans := by
  obtain ⟨r, hr, _, _⟩ := ha
  by_cases hd : ∃ ans, r.pc = .done ans
  · obtain ⟨ans, hd⟩ := hd
    exact ⟨ans, (answer_iff s i ans).mpr ⟨r, hr, hd⟩⟩
  · obtain ⟨e, t, he, hs⟩ := progress (inv_after h) hr (fun ans h => hd ⟨ans, h⟩)
    rw [hq e he] at hs
    cases hs

/-- C96: transfers are neither forgotten nor changed. -/
theorem C96_transfers_kept {k : Kind} {net : Sock A} {evs more : List Ev} {s t : State A} (h : After k net evs s)
    (hr : run k net s more = some t) {i : Nat} {dest : String} {data : Bytes} (ha : Asked s i dest data) : Asked t i dest data := by
  obtain ⟨r, h1, h2, h3⟩ := ha
  obtain ⟨q, h4, h5⟩ := run_later (inv_after h) hr h1
  exact ⟨q, h4, h5.dest.trans h2, h5.data.trans h3⟩

/-- Two transfers, one of them through a new connection, in a layer that is then shut down: quiet, and all answered. -/
def clasEvs : List Ev := [.request "10.0.0.1:16162" ClasEx.b1, .take, .go 0 .ok, .go 0 .ok, .go 0 .ok, .go 0 .ok, .go 0 (.wrote 4),
  .request "10.0.0.1:16162" ClasEx.b2, .shutdown, .request "10.0.0.2:16162" ClasEx.b1, .go 0 (.wrote 7), .take, .go 1 .ok, .go 1 .ok,
  .take, .go 1 (.wrote 12)]

theorem clas_run : ∃ s, After .mtcp ClasEx.net clasEvs s ∧ answer s 0 = some (.replied .successful) ∧
    answer s 1 = some (.replied .successful) ∧ answer s 2 = some .lost ∧ s.streams = [(1, Mtcp.sendBuffer [ClasEx.b1, ClasEx.b2])] := by
  refine ⟨(run .mtcp ClasEx.net {} clasEvs).get (by decide +kernel), ?_⟩
  unfold After
  decide +kernel

example : ∃ s i ans, After .mtcp ClasEx.net clasEvs s ∧ answer s i = some ans := by
  obtain ⟨s, h, h0, _⟩ := clas_run
  exact ⟨s, 0, _, h, h0⟩

/-- C96: a caller has to wait, before a transfer is taken over, exactly while the layer runs and its channel is full: with 100 commands, in the layers
`dummy` and `httppull` with one. -/
theorem C96_waits {k : Kind} {net : Sock A} {evs : List Ev} {s : State A} (h : After k net evs s) (room : Nat)
    (hroom : room = if k = .dummy ∨ k = .httppull then 1 else 100) :
    s.queue.length ≤ room ∧ ∀ dest data, step k net s (.request dest data) = none ↔ s.alive = true ∧ s.queue.length = room := by
  have e : k.capacity = room := by subst hroom; cases k <;> simp [Kind.capacity]
  have hq := queue_after h
  rw [e] at hq
  refine ⟨hq, fun dest data => ?_⟩
  simp only [step, e]
  cases ha : s.alive with
  | false => simp
  | true =>
    simp only [Bool.not_true, Bool.false_eq_true, if_false, true_and]
    split
    · simp; omega
    · simp; omega

example : ∃ s, After .dummy ClasEx.net [.request "x" []] s ∧ s.alive = true ∧ step .dummy ClasEx.net s (.request "y" []) = none :=
  ⟨_, rfl, rfl, rfl⟩

/-! ### C97 -/

/-- C97 for UDP: a transfer of data succeeds exactly if the data was sent in one datagram to the address; -/
theorem C97_udp_success {net : Sock A} {evs : List Ev} {s : State A} (h : After .udp net evs s) {i : Nat} {dest : String} {data : Bytes}
    (ha : Asked s i dest data) (hne : data ≠ []) :
    answer s i = some (.replied .successful) ↔ ∃ a, net.parse dest = some a ∧ (i, a, data) ∈ s.datagrams := by
  obtain ⟨r, hr, rfl, rfl⟩ := ha
  have hi := inv_after h
  constructor
  · intro hans
    obtain ⟨q, h1, h2⟩ := (answer_iff _ _ _).mp hans
    rw [hr] at h1
    cases h1
    have hok := hi.ok i r hr
    unfold Ok at hok
    rw [h2] at hok
    rcases hok with hok | ⟨a, hm⟩
    · exact absurd hok hne
    · obtain ⟨q, h3, _, _, _, h4, _⟩ := hi.logs.datagrams i a _ hm
      rw [hr] at h3
      cases h3
      exact ⟨a, h4, hm⟩
  · rintro ⟨a, _, hm⟩
    obtain ⟨q, h1, h2, _⟩ := hi.logs.datagrams i a _ hm
    exact (answer_iff _ _ _).mpr ⟨q, h1, h2⟩

/-- C97 for UDP: no transfer causes two datagrams, and each datagram holds the data of a transfer, has at most 65535 bytes and goes
to an IPv4 address. -/
theorem C97_udp_datagrams {net : Sock A} {evs : List Ev} {s : State A} (h : After .udp net evs s) :
    (s.datagrams.map (·.1)).Nodup ∧ ∀ i a d, (i, a, d) ∈ s.datagrams → ∃ dest, Asked s i dest d ∧ net.parse dest = some a ∧
      net.isV4 a = true ∧ d ≠ [] ∧ d.length ≤ 65535 ∧ answer s i = some (.replied .successful) := by
  have hi := inv_after h
  refine ⟨hi.logs.once.1, fun i a d hm => ?_⟩
  obtain ⟨r, h1, h2, h3, h4, h5, h6, h7⟩ := hi.logs.datagrams i a d hm
  exact ⟨r.dest, ⟨r, h1, rfl, h3⟩, h5, h6, h4, h7, (answer_iff _ _ _).mpr ⟨r, h1, h2⟩⟩

/-- A datagram that is sent, one that is not yet sent and one to an IPv6 address. -/
def clasUdp : List Ev := [.request "10.0.0.1:16162" ClasEx.b1, .request "10.0.0.2:16162" ClasEx.b2, .request "[fe80::1]:16162" ClasEx.b2,
  .take, .take, .take, .go 0 .ok, .go 1 .ok, .go 2 .ok, .go 1 .ok, .go 0 .ok, .go 2 .err, .go 0 .ok]

example : ∃ s, After .udp ClasEx.net clasUdp s ∧ answer s 0 = some (.replied .successful) ∧ s.datagrams = [(0, 1, ClasEx.b1)] ∧
    answer s 1 = none ∧ answer s 2 = some (.replied .failure) ∧ ClasEx.net.parse "[fe80::1]:16162" = some 100 := by
  refine ⟨(run .udp ClasEx.net {} clasUdp).get (by decide +kernel), ?_⟩
  unfold After
  decide +kernel

/-- C97 fails for UDP and HTTP to IPv6 addresses: a transfer of data never succeeds. -/
theorem C97_ipv6_never_violated {k : Kind} (hk : k = .udp ∨ k = .http) {net : Sock A} {evs : List Ev} {s : State A} (h : After k net evs s)
    {i : Nat} {dest : String} {data : Bytes} (ha : Asked s i dest data) (hne : data ≠ []) {a : A} (hp : net.parse dest = some a)
    (h6 : net.isV4 a = false) : answer s i ≠ some (.replied .successful) := by
  obtain ⟨r, hr, rfl, rfl⟩ := ha
  have hi := inv_after h
  intro hans
  obtain ⟨q, h1, h2⟩ := (answer_iff _ _ _).mp hans
  rw [hr] at h1
  cases h1
  have hok := hi.ok i r hr
  unfold Ok at hok
  rw [h2] at hok
  rcases hk with rfl | rfl
  · rcases hok with hok | ⟨b, hm⟩
    · exact absurd hok hne
    · obtain ⟨q, h3, _, _, _, h4, h5, _⟩ := hi.logs.datagrams i b _ hm
      rw [hr] at h3
      cases h3
      rw [hp] at h4
      cases h4
      rw [h5] at h6
      cases h6
  · rcases hok with hok | ⟨b, code, hm⟩
    · exact absurd hok hne
    · obtain ⟨q, h3, _, _, _, h4, h5⟩ := hi.logs.posts i b _ code hm
      rw [hr] at h3
      cases h3
      rw [hp] at h4
      cases h4
      rw [h5] at h6
      cases h6

/-- C97 for HTTP, in part: a transfer of data succeeds exactly if a POST with the data got some response, and there is at most one
for each transfer. Missing: a success does not mean that the peer accepted the bundle, see `C97_http_status_violated`. -/
theorem C97_http_success_partial {net : Sock A} {evs : List Ev} {s : State A} (h : After .http net evs s) :
    (s.posts.map (·.1)).Nodup ∧ ∀ i dest data, Asked s i dest data → data ≠ [] →
      (answer s i = some (.replied .successful) ↔ ∃ a code, net.parse dest = some a ∧ (i, a, data, code) ∈ s.posts) := by
  have hi := inv_after h
  refine ⟨hi.logs.once.2.1, ?_⟩
  rintro i dest data ⟨r, hr, rfl, rfl⟩ hne
  constructor
  · intro hans
    obtain ⟨q, h1, h2⟩ := (answer_iff _ _ _).mp hans
    rw [hr] at h1
    cases h1
    have hok := hi.ok i r hr
    unfold Ok at hok
    rw [h2] at hok
    rcases hok with hok | ⟨a, code, hm⟩
    · exact absurd hok hne
    · obtain ⟨q, h3, _, _, _, h4, _⟩ := hi.logs.posts i a _ code hm
      rw [hr] at h3
      cases h3
      exact ⟨a, code, h4, hm⟩
  · rintro ⟨a, code, _, hm⟩
    obtain ⟨q, h1, h2, _⟩ := hi.logs.posts i a _ code hm
    exact (answer_iff _ _ _).mpr ⟨q, h1, h2⟩

/-- C97 fails for HTTP: whatever the status of the response, also `400 Bad Request` from a peer that could not read the bundle, the
transfer counts as successful. -/
theorem C97_http_status_violated (net : Sock A) (dest : String) (data : Bytes) (a : A) (hne : data ≠ []) (hp : net.parse dest = some a)
    (h4 : net.isV4 a = true) (code : Nat) :
    ∃ s, After .http net [.request dest data, .take, .go 0 .ok, .go 0 (.status code)] s ∧ s.posts = [(0, a, data, code)] ∧
      answer s 0 = some (.replied .successful) := by
  refine ⟨{ reqs := [{ dest, data, pc := .done (.replied .successful) }], posts := [(0, a, data, code)] }, ?_, rfl, rfl⟩
  simp [After, run, step, State.take, State.handle, State.go, State.goto, State.finish, Kind.capacity, hne, hp, h4]

example : ∃ s, After .http ClasEx.net [.request "10.0.0.1:16162" ClasEx.b1, .take, .go 0 .ok, .go 0 (.status 400)] s ∧
    answer s 0 = some (.replied .successful) := by
  obtain ⟨s, h1, _, h2⟩ := C97_http_status_violated ClasEx.net "10.0.0.1:16162" ClasEx.b1 1 (by decide) (by decide +kernel) (by decide) 400
  exact ⟨s, h1, h2⟩

/-- C97 for external layers: the answer is the one of the module, for which at most one submission was made per transfer; -/
theorem C97_external_success {net : Sock A} {evs : List Ev} {s : State A} (h : After (.external false) net evs s) :
    (s.submitted.map (·.1)).Nodup ∧ ∀ i dest data, Asked s i dest data →
      (answer s i = some (.replied .successful) ↔ (i, dest, data, .successful) ∈ s.submitted) := by
  have hi := inv_after h
  refine ⟨hi.logs.once.2.2.1, ?_⟩
  rintro i dest data ⟨r, hr, rfl, rfl⟩
  constructor
  · intro hans
    obtain ⟨q, h1, h2⟩ := (answer_iff _ _ _).mp hans
    rw [hr] at h1
    cases h1
    have hok := hi.ok i r hr
    unfold Ok at hok
    rw [h2] at hok
    exact hok
  · intro hm
    obtain ⟨q, h1, h2, _⟩ := hi.logs.submitted i _ _ _ hm
    exact (answer_iff _ _ _).mpr ⟨q, h1, h2⟩

example : ∃ s, After (.external false) ClasEx.net [.request "module-1" ClasEx.b1, .take, .go 0 (.result (some .successful))] s ∧
    answer s 0 = some (.replied .successful) := by
  refine ⟨(run (.external false) ClasEx.net {} [.request "module-1" ClasEx.b1, .take, .go 0 (.result (some .successful))]).get (by decide +kernel), ?_⟩
  unfold After
  decide +kernel

/-- C97: the layer `httppull` and external layers that are only for discovery never report success. -/
theorem C97_passive_layers {k : Kind} (hk : k = .httppull ∨ k = .external true) {net : Sock A} {evs : List Ev} {s : State A}
    (h : After k net evs s) (i : Nat) : answer s i ≠ some (.replied .successful) := by
  intro hans
  obtain ⟨r, h1, h2⟩ := (answer_iff _ _ _).mp hans
  have hok := (inv_after h).ok i r h1
  unfold Ok at hok
  rw [h2] at hok
  rcases hk with rfl | rfl <;> exact hok

/-- C97 fails for the layer `dummy`, which is meant for tests: every transfer succeeds and nothing is sent. -/
theorem C97_dummy_violated (net : Sock A) (dest : String) (data : Bytes) :
    ∃ s, After .dummy net [.request dest data, .take] s ∧ answer s 0 = some (.replied .successful) ∧ s.streams = [] ∧ s.datagrams = [] ∧
      s.posts = [] ∧ s.submitted = [] := by
  refine ⟨{ reqs := [{ dest, data, pc := .done (.replied .successful) }] }, ?_, rfl, rfl, rfl, rfl, rfl⟩
  simp [After, run, step, State.take, State.handle, State.goto, State.finish, Kind.capacity]

/-- C97 for MTCP: a transfer of data succeeds exactly if it was handed to exactly one connection to the address. -/
theorem C97_mtcp_success {net : Sock A} {evs : List Ev} {s : State A} (h : After .mtcp net evs s) :
    (∀ i dest data, Asked s i dest data → data ≠ [] → (answer s i = some (.replied .successful) ↔
      ∃ a c b, net.parse dest = some a ∧ s.streams[c]? = some (a, b) ∧ i ∈ handedTo s c)) ∧
    (∀ c, (handedTo s c).Nodup) ∧ ∀ i c c', i ∈ handedTo s c → i ∈ handedTo s c' → c = c' := by
  have hi := inv_after h
  have hmem : ∀ i c, i ∈ handedTo s c ↔ (i, c) ∈ s.handed := by
    intro i c
    unfold handedTo
    rw [List.mem_map]
    constructor
    · rintro ⟨⟨j, c'⟩, hm, rfl⟩
      rw [List.mem_filter] at hm
      have : c' = c := by simpa using hm.2
      subst this
      exact hm.1
    · intro hm
      exact ⟨(i, c), List.mem_filter.mpr ⟨hm, by simp⟩, rfl⟩
  refine ⟨?_, ?_, ?_⟩
  · rintro i dest data ⟨r, hr, rfl, rfl⟩ hne
    constructor
    · intro hans
      obtain ⟨q, h1, h2⟩ := (answer_iff _ _ _).mp hans
      rw [hr] at h1
      cases h1
      have hok := hi.ok i r hr
      unfold Ok at hok
      rw [h2] at hok
      rcases hok with hok | ⟨c, hm⟩
      · exact absurd hok hne
      · obtain ⟨q, a, b, h3, _, _, h4, h5⟩ := hi.logs.handed i c hm
        rw [hr] at h3
        cases h3
        exact ⟨a, c, b, h4, h5, (hmem i c).mpr hm⟩
    · rintro ⟨a, c, b, _, _, hm⟩
      obtain ⟨q, _, _, h1, h2, _⟩ := hi.logs.handed i c ((hmem i c).mp hm)
      exact (answer_iff _ _ _).mpr ⟨q, h1, h2⟩
  · intro c
    unfold handedTo
    exact List.Pairwise.sublist (List.Sublist.map _ List.filter_sublist) hi.logs.once.2.2.2
  · intro i c c' h1 h2
    have h1 := (hmem i c).mp h1
    have h2 := (hmem i c').mp h2
    have hn := hi.logs.once.2.2.2
    revert h1 h2 hn
    generalize s.handed = l
    intro h1 h2 hn
    induction l with
    | nil => cases h1
    | cons x l ih =>
      rw [List.map_cons, List.nodup_cons] at hn
      rcases List.mem_cons.mp h1 with e1 | m1
      · rcases List.mem_cons.mp h2 with e2 | m2
        · rw [← e1] at e2
          cases e2
          rfl
        · exact absurd (List.mem_map.mpr ⟨_, m2, by rw [← e1]⟩) hn.1
      · rcases List.mem_cons.mp h2 with e2 | m2
        · exact absurd (List.mem_map.mpr ⟨_, m1, by rw [← e2]⟩) hn.1
        · exact ih m1 m2 hn.2

/-- C97 for MTCP, in part: if transfers to the same address do not overlap, every connection, however its bytes are cut into pieces on
the way, delivers exactly the bundles of the transfers that were handed to it, in order, also when transfers before or after failed. -/
theorem C97_mtcp_delivers_partial {net : Sock A} {evs : List Ev} {s : State A} (h : After .mtcp net evs s) (ho : OneByOne .mtcp net evs)
    (hb : ∀ i dest data, Asked s i dest data → data = [] ∨ BundleBytes data) {c : Nat} {a : A} {b : Bytes}
    (hc : s.streams[c]? = some (a, b)) (chunks : List Bytes) (hch : chunks.flatten = b) :
    (Mtcp.receive chunks).frames = contents s (handedTo s c) ∧ (Mtcp.receive chunks).failed = false := by
  obtain ⟨p, hp⟩ := str_after ho h c a b hc
  have hi := inv_after h
  have hall : ∀ d ∈ contents s (handedTo s c), BundleBytes d := by
    intro d hd
    unfold contents handedTo at hd
    obtain ⟨i, hm, rfl⟩ := List.mem_map.mp hd
    obtain ⟨⟨j, c'⟩, hm', rfl⟩ := List.mem_map.mp hm
    obtain ⟨r, _, _, h1, _, h2, _⟩ := hi.logs.handed j c' (List.mem_filter.mp hm').1
    rw [h1]
    rcases hb j r.dest r.data ⟨r, h1, rfl, rfl⟩ with he | he
    · exact absurd he h2
    · exact he
  have hw := hp.whole
  rcases hp.part with rfl | ⟨i, r, rest, h1, h2, h3⟩
  · have hex : BundleBytes ClasEx.b1 := ⟨by decide, by decide, by decide⟩
    rw [C41_mtcp_stream_delivers_sent_bundles (contents s (handedTo s c)) ClasEx.b1 [] (Mtcp.encode ClasEx.b1) chunks hall hex rfl
      (encode_ne_nil _) (by rw [hch]; exact hw)]
    exact ⟨rfl, rfl⟩
  · rcases hb i r.dest r.data ⟨r, h1, rfl, rfl⟩ with he | he
    · have hlen : (p ++ rest).length = 1 := by rw [← h2, he]; rfl
      have : p = [] := by
        cases p with
        | nil => rfl
        | cons x p =>
          cases rest with
          | nil => exact absurd rfl h3
          | cons y rest => simp at hlen
      subst this
      have hex : BundleBytes ClasEx.b1 := ⟨by decide, by decide, by decide⟩
      rw [C41_mtcp_stream_delivers_sent_bundles (contents s (handedTo s c)) ClasEx.b1 [] (Mtcp.encode ClasEx.b1) chunks hall hex rfl
        (encode_ne_nil _) (by rw [hch]; exact hw)]
      exact ⟨rfl, rfl⟩
    · rw [C41_mtcp_stream_delivers_sent_bundles (contents s (handedTo s c)) r.data p rest chunks hall he h2 h3 (by rw [hch]; exact hw)]
      exact ⟨rfl, rfl⟩

/-- The transfers of `clasEvs` do not overlap. -/
theorem clas_one : OneByOne .mtcp ClasEx.net clasEvs := by
  have hrep : ∀ n ≤ clasEvs.length, ∀ s, run .mtcp ClasEx.net {} (clasEvs.take n) = some s →
      ∀ i, i < 3 → ∀ j, j < 3 → (∃ r, s.reqs[i]? = some r ∧ r.pc ≠ .queued ∧ r.pc ≠ .done .lost ∧ r.pc ≠ .done (.replied .successful)) →
        (∃ r, s.reqs[j]? = some r ∧ r.pc ≠ .queued ∧ r.pc ≠ .done .lost ∧ r.pc ≠ .done (.replied .successful)) → i = j := by
    have : ∀ n, n < clasEvs.length + 1 → ((run .mtcp ClasEx.net {} (clasEvs.take n)).all fun s =>
        decide (∀ i, i < 3 → ∀ j, j < 3 → (s.reqs[i]?).any (fun r => r.pc ≠ .queued ∧ r.pc ≠ .done .lost ∧ r.pc ≠ .done (.replied .successful)) →
          (s.reqs[j]?).any (fun r => r.pc ≠ .queued ∧ r.pc ≠ .done .lost ∧ r.pc ≠ .done (.replied .successful)) → i = j)) = true := by
      decide +kernel
    intro n hn s hs i hi j hj ⟨r, h1, h2⟩ ⟨q, h3, h4⟩
    have := this n (by omega)
    rw [hs] at this
    have := of_decide_eq_true this i hi j hj
    rw [h1, h3] at this
    exact this (by simpa using h2) (by simpa using h4)
  have hlen : ∀ n, n < clasEvs.length + 1 → ((run .mtcp ClasEx.net {} (clasEvs.take n)).all fun s => decide (s.reqs.length ≤ 3)) = true := by
    decide +kernel
  intro pre s hpre hs i j a ⟨r, h1, h2, h3⟩ ⟨q, h4, h5, h6⟩ _ _
  have hpre' : pre = clasEvs.take pre.length := List.prefix_iff_eq_take.mp hpre
  have hle : pre.length ≤ clasEvs.length := hpre.length_le
  unfold After at hs
  rw [hpre'] at hs
  have hl := hlen pre.length (by omega)
  rw [hs] at hl
  have hl : s.reqs.length ≤ 3 := of_decide_eq_true hl
  have hi := (List.getElem?_eq_some_iff.mp h1).1
  have hj := (List.getElem?_eq_some_iff.mp h4).1
  exact hrep pre.length hle s hs i (by omega) j (by omega) ⟨r, h1, h2, h3 _, h3 _⟩ ⟨q, h4, h5, h6 _, h6 _⟩

example : ∃ s b, After .mtcp ClasEx.net clasEvs s ∧ OneByOne .mtcp ClasEx.net clasEvs ∧
    (∀ i dest data, Asked s i dest data → data = [] ∨ BundleBytes data) ∧ s.streams[0]? = some (1, b) := by
  refine ⟨(run .mtcp ClasEx.net {} clasEvs).get (by decide +kernel), Mtcp.sendBuffer [ClasEx.b1, ClasEx.b2], ?_, clas_one, ?_, ?_⟩
  · unfold After; decide +kernel
  · rintro i dest data ⟨r, hr, _, rfl⟩
    have := List.mem_of_getElem? hr
    have hall : ∀ r ∈ ((run .mtcp ClasEx.net {} clasEvs).get (by decide +kernel)).reqs, r.data = ClasEx.b1 ∨ r.data = ClasEx.b2 := by
      decide +kernel
    rcases hall r this with e | e <;> rw [e]
    · exact .inr ⟨by decide, by decide, by decide⟩
    · exact .inr ⟨by decide, by decide, by decide⟩
  · decide +kernel

/-- Two transfers to the same peer at the same time, whose writes are interleaved. -/
def clasMixed : List Ev := [.request "10.0.0.1:16162" ClasEx.b1, .request "10.0.0.1:16162" ClasEx.b2, .take, .take,
  .go 0 .ok, .go 0 .ok, .go 0 .ok, .go 0 .ok, .go 1 .ok, .go 1 .ok, .go 0 (.wrote 1), .go 1 (.wrote 12), .go 0 (.wrote 10)]

/-- C97 fails for MTCP if two transfers to the same peer overlap: both succeed, but the peer, which is sent both through one
connection, gets neither of them, however the bytes are cut, and drops the connection. -/
theorem C97_mtcp_overlap_violated : ∃ s b, After .mtcp ClasEx.net clasMixed s ∧ answer s 0 = some (.replied .successful) ∧
    answer s 1 = some (.replied .successful) ∧ s.streams = [(1, b)] ∧
    ∀ chunks : List Bytes, chunks.flatten = b → (Mtcp.receive chunks).frames = [] ∧ (Mtcp.receive chunks).failed = true := by
  refine ⟨(run .mtcp ClasEx.net {} clasMixed).get (by decide +kernel),
    (Mtcp.encode ClasEx.b1).take 1 ++ Mtcp.encode ClasEx.b2 ++ (Mtcp.encode ClasEx.b1).drop 1, ?_, ?_, ?_, ?_, ?_⟩
  · unfold After; decide +kernel
  · decide +kernel
  · decide +kernel
  · decide +kernel
  · intro chunks hc
    have h := C41_mtcp_chunking_irrelevant chunks
      [(Mtcp.encode ClasEx.b1).take 1 ++ Mtcp.encode ClasEx.b2 ++ (Mtcp.encode ClasEx.b1).drop 1] (by rw [hc]; simp)
    rw [h.1, h.2.1]
    decide +kernel

/-! ### C98 -/

/-- C98, in part: a layer that is not shut down keeps working, whatever it is asked to transfer and whatever the network does.
Missing: for MTCP and UDP the destinations must be IP addresses with port; see `C98_bad_destination_violated`. -/
theorem C98_layer_survives_partial {k : Kind} {net : Sock A} {evs : List Ev} {s : State A} (h : After k net evs s)
    (hs : .shutdown ∉ evs) (hd : k = .mtcp ∨ k = .udp → ∀ dest data, .request dest data ∈ evs → data ≠ [] → net.parse dest ≠ none) :
    s.alive = true :=
  (live_run (inv_start k net) ⟨rfl, by simp, fun _ _ h => by simp at h⟩ h hs (fun dest data hm hk => hd hk dest data hm)).alive

example : ∃ s, After .udp ClasEx.net [.request "10.0.0.1:16162" ClasEx.b1, .take, .go 0 .ok, .go 0 .err] s ∧ s.alive = true := by
  refine ⟨(run .udp ClasEx.net {} [.request "10.0.0.1:16162" ClasEx.b1, .take, .go 0 .ok, .go 0 .err]).get (by decide +kernel), ?_⟩
  unfold After
  decide +kernel

/-- C98 fails for MTCP and UDP: a destination that is no IP address with port ends the layer. That transfer, all transfers waiting
in its channel and all later ones are lost. -/
theorem C98_bad_destination_violated {k : Kind} (hk : k = .mtcp ∨ k = .udp) {net : Sock A} {evs : List Ev} {s : State A}
    (h : After k net evs s) (ha : s.alive = true) {i : Nat} {q : List (Option Nat)} (hq : s.queue = some i :: q) {dest : String} {data : Bytes}
    (hi : Asked s i dest data) (hne : data ≠ []) (hp : net.parse dest = none) :
    ∃ t, step k net s .take = some t ∧ t.alive = false ∧ ∀ more u, run k net t more = some u → u.alive = false ∧
      ∀ j dest' data', Asked u j dest' data' → ¬ Busy s j → answer s j = none → answer u j = some .lost := by
  obtain ⟨r, hr, rfl, rfl⟩ := hi
  have hinv := inv_after h
  have hstep : step k net s .take = some s.die := by
    simp only [step, State.take, ha, hq, hr]
    rcases hk with rfl | rfl
    · simp only [State.handle]
      rw [if_neg hne, hp]
      rfl
    · simp only [State.handle]
      rw [if_neg hne, hp]
      rfl
  refine ⟨s.die, hstep, rfl, fun more u hu => ?_⟩
  have hdie := inv_step hinv hstep
  have hlost : Lost s.die.reqs.length s.die := ⟨rfl, fun j r hle hj => by rw [List.getElem?_eq_none hle] at hj; cases hj⟩
  have hu' := lost_run hdie hlost (Nat.le_refl _) hu
  refine ⟨hu'.alive, ?_⟩
  rintro j dest' data' ⟨r', hr', _, _⟩ hb hn
  rw [answer_iff]
  refine ⟨r', hr', ?_⟩
  by_cases hle : s.die.reqs.length ≤ j
  · exact hu'.lost j r' hle hr'
  · have hlt : j < s.reqs.length := by
      have : s.die.reqs.length = s.reqs.length := by unfold State.die; simp
      omega
    have hj := List.getElem?_eq_getElem hlt
    have hpc : (s.reqs[j]).pc = .queued := by
      cases hd : (s.reqs[j]).pc with
      | queued => rfl
      | done ans =>
        have := (answer_iff s j ans).mpr ⟨_, hj, hd⟩
        rw [hn] at this
        cases this
      | _ => exact absurd ⟨_, hj, by rw [hd]; simp, by rw [hd]; simp⟩ hb
    have hdj : s.die.reqs[j]? = some { s.reqs[j] with pc := .done .lost } := by
      rw [die_get, hj, Option.map_some, Req.drop, if_pos hpc]
    obtain ⟨p, h1, h2⟩ := run_later hdie hu hdj
    rw [hr'] at h1
    cases h1
    exact h2.final .lost rfl

/-- C98: the destinations made of peers with an IPv6 address or a host name are no IP addresses with port. (An IPv6 address in text has
at least two colons.) -/
theorem C98_peer_destinations_violated {net : Sock A} (ht : SockText net) (p : Peer) (port : Option Nat) (c : Cla)
    (hp : (∃ a, p.addr = .ipv6 a ∧ 2 ≤ a.toList.count ':' ∧ a.toList.head? ≠ some '[') ∨
      (∃ a x, p.addr = .generic a ∧ a.toList.head? ≠ some '[' ∧ x ∈ a.toList ∧ x.isAlpha = true)) :
    net.parse (p.sender port c).dest = none := by
  have htext : (p.sender port c).dest.toList = p.addr.print.toList ++ ':' :: (toString (port.getD c.port)).toList := by
    unfold Peer.sender
    simp [String.toList_append]
  cases hn : net.parse (p.sender port c).dest with
  | none => rfl
  | some a =>
    have h := ht _ a hn
    rw [htext] at h
    rcases hp with ⟨x, hx, h2, h3⟩ | ⟨x, y, hx, h2, h3, h4⟩
    · rw [hx] at h
      have hpr : (PeerAddress.ipv6 x).print.toList = x.toList := rfl
      rw [hpr] at h
      rcases h with h | ⟨h, _⟩
      · cases hl : x.toList with
        | nil => rw [hl] at h2; simp at h2
        | cons z l => rw [hl] at h h3; exact absurd h h3
      · rw [List.count_append, List.count_cons_self] at h
        omega
    · rw [hx] at h
      have hpr : (PeerAddress.generic x).print.toList = x.toList := rfl
      rw [hpr] at h
      rcases h with h | ⟨_, h⟩
      · cases hl : x.toList with
        | nil => rw [hl] at h3; cases h3
        | cons z l => rw [hl] at h h2; exact absurd h h2
      · rcases h y (List.mem_append_left _ h3) with rfl | rfl | ⟨h5, h6⟩
        · exact absurd h4 (by decide)
        · exact absurd h4 (by decide)
        · exfalso
          have h5 : 48 ≤ y.val.toNat := h5
          have h6 : y.val.toNat ≤ 57 := h6
          simp only [Char.isAlpha, Char.isUpper, Char.isLower, Bool.or_eq_true, decide_eq_true_eq, ge_iff_le, Bool.and_eq_true] at h4
          rcases h4 with ⟨h7, h8⟩ | ⟨h7, h8⟩
          · have : (65 : UInt32).toNat ≤ y.val.toNat := h7
            have e : y.toNat = y.val.toNat := rfl
            simp at this
            omega
          · have : (97 : UInt32).toNat ≤ y.val.toNat := h7
            have e : y.toNat = y.val.toNat := rfl
            simp at this
            omega

/-- A node with an MTCP layer discovers a neighbour by IPv6 and sends it a bundle. -/
def clasV6 : Peer := { eid := .none, addr := .ipv6 "fe80::1", conType := .dynamic, period := none, claList := [("mtcp", some 16162)], lastContact := 0, fails := 0 }

example : ∃ s q dest, After .mtcp ClasEx.net [.request dest ClasEx.b1, .request "10.0.0.1:16162" ClasEx.b2] s ∧ s.alive = true ∧
    s.queue = some 0 :: q ∧ Asked s 0 dest ClasEx.b1 ∧ ClasEx.net.parse dest = none ∧ dest = (clasV6.sender (some 16162) ⟨"mtcp", 16162, true⟩).dest := by
  refine ⟨(run .mtcp ClasEx.net {} [.request (clasV6.sender (some 16162) ⟨"mtcp", 16162, true⟩).dest ClasEx.b1,
    .request "10.0.0.1:16162" ClasEx.b2]).get (by decide +kernel), [some 1], _, ?_, ?_, ?_, ?_, ?_, rfl⟩
  · unfold After; decide +kernel
  · decide +kernel
  · decide +kernel
  · exact ⟨{ dest := (clasV6.sender (some 16162) ⟨"mtcp", 16162, true⟩).dest, data := ClasEx.b1 }, by decide +kernel, rfl, rfl⟩
  · exact C98_peer_destinations_violated ClasEx.net_text clasV6 _ _ (.inl ⟨_, rfl, by decide +kernel, by decide +kernel⟩)

/-! ### C99 -/

theorem clas_udp_fold (parse : Bytes → Option Bundle) (ds : List Bytes) (l : Listener) (ha : l.alive = true) :
    (ds.map some).foldl (udpReceive parse) l =
      ⟨l.received ++ ds.filterMap parse, l.broken + (ds.filter fun d => (parse d).isNone).length, true⟩ := by
  induction ds generalizing l with
  | nil => obtain ⟨r, b, a⟩ := l; subst ha; simp
  | cons d ds ih =>
    rw [List.map_cons, List.foldl_cons]
    have : udpReceive parse l (some d) = match parse d with
        | some b => { l with received := l.received ++ [b] }
        | none => { l with broken := l.broken + 1 } := by
      unfold udpReceive
      rw [ha]
      rfl
    rw [this]
    cases hp : parse d with
    | some b =>
      dsimp only
      rw [ih { l with received := l.received ++ [b] } ha]
      simp [hp]
    | none =>
      dsimp only
      rw [ih { l with broken := l.broken + 1 } ha]
      simp [hp]
      omega

/-- C99 for UDP: every datagram that is a bundle is handed on once, in the order of arrival; the others only count as broken. -/
theorem C99_udp_receives (parse : Bytes → Option Bundle) (ds : List Bytes) :
    udpListen parse (ds.map some) = { received := ds.filterMap parse, broken := (ds.filter fun d => (parse d).isNone).length, alive := true } := by
  unfold udpListen
  rw [clas_udp_fold parse ds {} rfl]
  simp

/-- C99 fails for UDP if receiving fails once: nothing is received any more until the daemon is started again. -/
theorem C99_udp_error_violated (parse : Bytes → Option Bundle) (ds : List Bytes) (later : List (Option Bytes)) :
    (udpListen parse (ds.map some ++ none :: later)).received = ds.filterMap parse := by
  unfold udpListen
  rw [List.foldl_append, clas_udp_fold parse ds {} rfl, List.foldl_cons]
  have hd : ∀ (later : List (Option Bytes)) (l : Listener), l.alive = false → later.foldl (udpReceive parse) l = l := by
    intro later
    induction later with
    | nil => intro l _; rfl
    | cons x later ih =>
      intro l hl
      rw [List.foldl_cons]
      have : udpReceive parse l x = l := by unfold udpReceive; rw [hl]; rfl
      rw [this, ih l hl]
  rw [hd later _ rfl]
  simp [udpReceive]

theorem clas_mtcp_fold (parse : Bytes → Option Bundle) (fs : List Bytes) (bs : List Bundle) (l : Listener) (ha : l.alive = true)
    (h : fs.map parse = bs.map some) : fs.foldl (mtcpFrame parse) l = { l with received := l.received ++ bs } := by
  induction fs generalizing bs l with
  | nil =>
    cases bs with
    | nil => simp
    | cons b bs => cases h
  | cons f fs ih =>
    cases bs with
    | nil => cases h
    | cons b bs =>
      simp only [List.map_cons, List.cons.injEq] at h
      rw [List.foldl_cons]
      have : mtcpFrame parse l f = { l with received := l.received ++ [b] } := by
        unfold mtcpFrame
        rw [ha, h.1]
        rfl
      rw [this, ih bs { l with received := l.received ++ [b] } ha h.2]
      simp

theorem clas_mtcp_dead (parse : Bytes → Option Bundle) (fs : List Bytes) (l : Listener) (ha : l.alive = false) :
    fs.foldl (mtcpFrame parse) l = l := by
  induction fs with
  | nil => rfl
  | cons f fs ih =>
    rw [List.foldl_cons]
    have : mtcpFrame parse l f = l := by unfold mtcpFrame; rw [ha]; rfl
    rw [this]
    exact ih

/-- C99 for MTCP, in part: over a connection that carries bundles every one is handed on once, in order. From the first frame that is
no bundle on the connection is dead; everything after it is lost with it. Missing: bundles after a frame that is no bundle. -/
theorem C99_mtcp_receives_partial (parse : Bytes → Option Bundle) (chunks : List Bytes) (fs : List Bytes) (bs : List Bundle) (bad : List Bytes)
    (hf : (Mtcp.receive chunks).frames = fs ++ bad) (h : fs.map parse = bs.map some) (hbad : ∀ f, bad.head? = some f → parse f = none) :
    (mtcpConnection parse chunks).received = bs ∧ (mtcpConnection parse chunks).broken = (bad.take 1).length ∧
    ((mtcpConnection parse chunks).alive = true ↔ bad = [] ∧ (Mtcp.receive chunks).failed = false) := by
  have hfold : (fs ++ bad).foldl (mtcpFrame parse) {} = if bad = [] then { received := bs } else { received := bs, broken := 1, alive := false } := by
    rw [List.foldl_append, clas_mtcp_fold parse fs bs {} rfl h]
    cases bad with
    | nil => simp
    | cons f bad =>
      rw [List.foldl_cons]
      have : mtcpFrame parse { received := [] ++ bs } f = { received := bs, broken := 1, alive := false } := by
        unfold mtcpFrame
        rw [hbad f rfl]
        simp
      have this' : mtcpFrame parse { ({} : Listener) with received := ({} : Listener).received ++ bs } f = { received := bs, broken := 1, alive := false } := this
      rw [this', clas_mtcp_dead _ _ _ rfl]
      simp
  unfold mtcpConnection
  dsimp only
  rw [hf, hfold]
  cases bad with
  | nil => cases hfail : (Mtcp.receive chunks).failed <;> simp
  | cons f bad => cases hfail : (Mtcp.receive chunks).failed <;> simp

example : ∃ (fs bad : List Bytes), (Mtcp.receive [Mtcp.sendBuffer [ClasEx.b1, ClasEx.b2, ClasEx.b1]]).frames = fs ++ bad ∧ fs ≠ [] ∧ bad ≠ [] :=
  ⟨[ClasEx.b1], [ClasEx.b2, ClasEx.b1], by decide +kernel, by simp, by simp⟩

/-- C97 and C99 for two nodes: if transfers to the same address do not overlap, the node at the other end of an MTCP connection
hands on exactly the bundles of the transfers that were handed to this connection, in order. -/
theorem C99_mtcp_end_to_end_partial {net : Sock A} {evs : List Ev} {s : State A} (h : After .mtcp net evs s) (ho : OneByOne .mtcp net evs)
    (parse : Bytes → Option Bundle) (hb : ∀ i dest data, Asked s i dest data → BundleBytes data ∧ ∃ b, parse data = some b)
    {c : Nat} {a : A} {b : Bytes} (hc : s.streams[c]? = some (a, b)) (chunks : List Bytes) (hch : chunks.flatten = b) :
    (mtcpConnection parse chunks).received.map some = (contents s (handedTo s c)).map parse ∧
      (mtcpConnection parse chunks).broken = 0 ∧ (mtcpConnection parse chunks).alive = true := by
  obtain ⟨h1, h2⟩ := C97_mtcp_delivers_partial h ho (fun i dest data ha => .inr (hb i dest data ha).1) hc chunks hch
  have hi := inv_after h
  have hall : ∀ d ∈ contents s (handedTo s c), ∃ b, parse d = some b := by
    intro d hd
    unfold contents handedTo at hd
    obtain ⟨i, hm, rfl⟩ := List.mem_map.mp hd
    obtain ⟨⟨j, c'⟩, hm', rfl⟩ := List.mem_map.mp hm
    obtain ⟨r, _, _, h1, _, h2, _⟩ := hi.logs.handed j c' (List.mem_filter.mp hm').1
    rw [h1]
    exact (hb j r.dest r.data ⟨r, h1, rfl, rfl⟩).2
  obtain ⟨bs, hbs⟩ : ∃ bs : List Bundle, (contents s (handedTo s c)).map parse = bs.map some := by
    revert hall
    generalize contents s (handedTo s c) = l
    intro hall
    induction l with
    | nil => exact ⟨[], rfl⟩
    | cons d l ih =>
      obtain ⟨bs, hbs⟩ := ih (fun d h => hall d (List.mem_cons_of_mem _ h))
      obtain ⟨b, hb⟩ := hall d (List.mem_cons_self ..)
      exact ⟨b :: bs, by simp [hb, hbs]⟩
  have := C99_mtcp_receives_partial parse chunks (contents s (handedTo s c)) bs [] (by rw [h1]; simp) hbs (by simp)
  rw [this.1, this.2.1, hbs]
  exact ⟨rfl, rfl, this.2.2.mpr ⟨rfl, h2⟩⟩

end Dtn.Props
