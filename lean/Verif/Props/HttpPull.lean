import Verif.Spec.HttpPull
import Verif.Lemmas.Digest
import Verif.Props.Digest
/-!
Properties C58 and C85: pulling bundles over HTTP.
-/

namespace Dtn.Props
open Spec HttpPull

theorem missing_eq (has : String → Bool) (l : List String) : l.filter (fun bid => !has bid) = missing has l := by
  induction l with
  | nil => rfl
  | cons b l ih =>
    unfold missing
    cases h : has b <;> simp [h, ih]

theorem mem_missing {has : String → Bool} {l : List String} {bid : String} :
    bid ∈ missing has l ↔ bid ∈ l ∧ has bid = false := by
  rw [← missing_eq, List.mem_filter]; simp

/-- What the download loop asks for is a prefix of what is missing. -/
theorem asked_fetch (parse dl i l) : pullAsked (fetch parse dl i l) <+: l := by
  induction l generalizing i with
  | nil => exact List.prefix_rfl
  | cons bid rest ih =>
    unfold fetch
    cases h : dl i bid with
    | err => exact ⟨rest, by simp [pullAsked]⟩
    | garbled => exact ⟨rest, by simp [pullAsked]⟩
    | body bytes =>
      obtain ⟨t, ht⟩ := ih (i + 1)
      dsimp only
      cases parse bytes <;> exact ⟨t, by simpa [pullAsked] using ht⟩

/-- If every request is answered, all of it is asked for, and every answer is received or counted as broken. -/
theorem fetch_answered (parse dl i l) (h : ∀ j bid, bid ∈ l → ∃ bytes, dl j bid = .body bytes) :
    pullAsked (fetch parse dl i l) = l ∧ (fetch parse dl i l).result = .successful ∧
    (fetch parse dl i l).received.length + (fetch parse dl i l).broken = l.length := by
  induction l generalizing i with
  | nil => exact ⟨rfl, rfl, rfl⟩
  | cons bid rest ih =>
    obtain ⟨bytes, hb⟩ := h i bid List.mem_cons_self
    obtain ⟨h1, h2, h3⟩ := ih (i + 1) fun j b hb => h j b (List.mem_cons_of_mem _ hb)
    unfold fetch
    rw [hb]
    dsimp only
    cases parse bytes with
    | none => exact ⟨by simpa [pullAsked] using h1, h2, by simp; omega⟩
    | some b => exact ⟨by simpa [pullAsked] using h1, h2, by simp; omega⟩

theorem fetch_received (parse dl i l) (b) : b ∈ (fetch parse dl i l).received →
    ∃ j bid bytes, bid ∈ l ∧ dl j bid = .body bytes ∧ parse bytes = some b := by
  induction l generalizing i with
  | nil => intro h; simp [fetch] at h
  | cons bid rest ih =>
    unfold fetch
    cases hd : dl i bid with
    | err => intro h; simp at h
    | garbled => intro h; simp at h
    | body bytes =>
      have up : b ∈ (fetch parse dl (i + 1) rest).received → ∃ j bid' bytes, bid' ∈ bid :: rest ∧ dl j bid' = .body bytes ∧
          parse bytes = some b := by
        intro h
        obtain ⟨j, bid', bytes', h1, h2, h3⟩ := ih (i + 1) h
        exact ⟨j, bid', bytes', List.mem_cons_of_mem _ h1, h2, h3⟩
      dsimp only
      cases hp : parse bytes with
      | none => exact up
      | some b' =>
        intro h
        dsimp only at h
        rcases List.mem_cons.mp h with rfl | h
        · exact ⟨i, bid, bytes, List.mem_cons_self, hd, hp⟩
        · exact up h

theorem fetch_gets (parse dl i l) (h : ∀ j bid, bid ∈ l → ∃ bytes, dl j bid = .body bytes) (bid b)
    (hm : bid ∈ l) (hb : ∀ j, ∃ bytes, dl j bid = .body bytes ∧ parse bytes = some b) : b ∈ (fetch parse dl i l).received := by
  induction l generalizing i with
  | nil => cases hm
  | cons bid' rest ih =>
    unfold fetch
    obtain ⟨bytes', hb'⟩ := h i bid' List.mem_cons_self
    rw [hb']
    dsimp only
    have ih := fun hm => ih (i + 1) (fun j b hb => h j b (List.mem_cons_of_mem _ hb)) hm
    rcases List.mem_cons.mp hm with e | hm
    · subst e
      obtain ⟨bytes, h1, h2⟩ := hb i
      rw [hb'] at h1; cases h1
      rw [h2]; exact List.mem_cons_self
    · cases parse bytes' with
      | none => exact ih hm
      | some b' => exact List.mem_cons_of_mem _ (ih hm)

/-! ## C58 -/

/-- C58, always: nothing is asked for that the peer does not list or that is stored here; and if the digests are equal, the
digest is the only thing requested. -/
theorem C58_only_missing (parse : Bytes → Option Bundle) (has : String → Bool) (d : String) (r : Remote) :
    let t := pullFromNode parse has d r
    (∀ bid ∈ pullAsked t, has bid = false ∧ ∃ bids, r.list = .body (some bids) ∧ bid ∈ bids) ∧
    (r.digest = .body d → t = { requests := [.digest] }) := by
  dsimp only
  constructor
  · intro bid hb
    unfold pullFromNode at hb
    cases hd : r.digest with
    | err => rw [hd] at hb; simp [pullAsked] at hb
    | garbled => rw [hd] at hb; simp [pullAsked] at hb
    | body digest =>
      rw [hd] at hb
      dsimp only at hb
      split at hb
      · simp [pullAsked] at hb
      · cases hl : r.list with
        | err => rw [hl] at hb; simp [pullAsked] at hb
        | garbled => rw [hl] at hb; simp [pullAsked] at hb
        | body o =>
          cases o with
          | none => rw [hl] at hb; simp [pullAsked] at hb
          | some bids =>
            rw [hl] at hb
            dsimp only at hb
            have : bid ∈ pullAsked (fetch parse r.download 0 (bids.filter fun bid => !has bid)) := by
              simpa [pullAsked] using hb
            rw [missing_eq] at this
            have := (asked_fetch _ _ _ _).subset this
            rw [mem_missing] at this
            exact ⟨this.2, bids, rfl, this.1⟩
  · intro h
    unfold pullFromNode
    rw [h]
    simp

/-- C58, how a round ends early: a request that gets no answer ends it with a failure, an answer that cannot be read ends the
task itself; nothing is asked afterwards, and what was received before stays received. -/
theorem C58_early_end (parse : Bytes → Option Bundle) (has : String → Bool) (d : String) (r : Remote) :
    let t := pullFromNode parse has d r
    (r.digest = .err → t = { requests := [.digest], result := .failure }) ∧
    (r.digest = .garbled → t = { requests := [.digest], result := .panic }) ∧
    (∀ digest, r.digest = .body digest → digest ≠ d → digest.utf8ByteSize = 40 →
      (r.list = .err → t = { requests := [.digest, .list], result := .failure }) ∧
      (r.list = .garbled ∨ r.list = .body none → t = { requests := [.digest, .list], result := .panic }) ∧
      (∀ bids before bid after, r.list = .body (some bids) → missing has bids = before ++ bid :: after →
        (∀ j b, b ∈ before → ∃ bytes, r.download j b = .body bytes) →
        (r.download before.length bid = .err ∨ r.download before.length bid = .garbled) →
        pullAsked t = before ++ [bid] ∧ t.received.length + t.broken = before.length ∧
        t.result = if r.download before.length bid = .err then .failure else .panic)) := by
  dsimp only
  refine ⟨fun h => ?_, fun h => ?_, fun digest hd hne hlen => ⟨fun h => ?_, fun h => ?_, fun bids before bid after hl hmis hans hbad => ?_⟩⟩
  · unfold pullFromNode; rw [h]
  · unfold pullFromNode; rw [h]
  · unfold pullFromNode; rw [hd]; dsimp only
    rw [if_neg (fun h => h.elim hne fun h => h hlen), h]
  · unfold pullFromNode; rw [hd]; dsimp only
    rw [if_neg (fun h => h.elim hne fun h => h hlen)]
    rcases h with h | h <;> rw [h]
  · have key : ∀ (before : List String) (i : Nat), (∀ j b, b ∈ before → ∃ bytes, r.download j b = .body bytes) →
        (r.download (i + before.length) bid = .err ∨ r.download (i + before.length) bid = .garbled) →
        let t := fetch parse r.download i (before ++ bid :: after)
        pullAsked t = before ++ [bid] ∧ t.received.length + t.broken = before.length ∧
        t.result = if r.download (i + before.length) bid = .err then .failure else .panic := by
      intro before
      induction before with
      | nil =>
        intro i _ h
        simp only [List.length_nil, Nat.add_zero] at h
        dsimp only
        rw [List.nil_append]
        unfold fetch
        rcases h with h | h <;> simp [h, pullAsked]
      | cons b before ih =>
        intro i hans h
        obtain ⟨bytes, hb⟩ := hans i b List.mem_cons_self
        have e : i + (b :: before).length = i + 1 + before.length := by simp only [List.length_cons]; omega
        rw [e] at h ⊢
        obtain ⟨a1, a2, a3⟩ := ih (i + 1) (fun j b' hb' => hans j b' (List.mem_cons_of_mem _ hb')) h
        dsimp only
        rw [List.cons_append]
        unfold fetch
        rw [hb]
        dsimp only
        refine ⟨?_, ?_, ?_⟩
        · cases parse bytes <;> simpa [pullAsked] using a1
        · cases parse bytes <;> simp only [List.length_cons] <;> omega
        · cases parse bytes <;> exact a3
    obtain ⟨a1, a2, a3⟩ := key before 0 hans (by rwa [Nat.zero_add])
    rw [Nat.zero_add] at a3
    unfold pullFromNode
    rw [hd]; dsimp only
    rw [if_neg (fun h => h.elim hne fun h => h hlen), hl]
    dsimp only
    rw [missing_eq, hmis]
    exact ⟨by simpa [pullAsked] using a1, a2, a3⟩

/-- C58, the part that holds in full: if the peer's digest differs from ours and has the length of a digest, its list can be
read and every download is answered, exactly the listed ids not stored here are requested, in list order, and every answer
is received or counted as broken. Missing: peers for which a download fails, see `C58_rest_not_fetched_violated`. -/
theorem C58_all_missing_partial (parse : Bytes → Option Bundle) (has : String → Bool) (d digest : String) (bids : List String)
    (r : Remote) (hd : r.digest = .body digest) (hne : digest ≠ d) (hlen : digest.utf8ByteSize = 40)
    (hl : r.list = .body (some bids)) (hans : ∀ j bid, bid ∈ bids → ∃ bytes, r.download j bid = .body bytes) :
    let t := pullFromNode parse has d r
    pullAsked t = missing has bids ∧ t.result = .successful ∧
    t.received.length + t.broken = (missing has bids).length := by
  dsimp only
  unfold pullFromNode
  rw [hd]
  dsimp only
  rw [if_neg (fun h => h.elim hne fun h => h hlen), hl]
  dsimp only
  rw [missing_eq]
  have := fetch_answered parse r.download 0 (missing has bids) fun j bid hb => hans j bid (mem_missing.mp hb).1
  exact ⟨by simpa [pullAsked] using this.1, this.2.1, this.2.2⟩

/-- A remote with two bundles, for examples; the first download fails if `down` says so. -/
def exRemote (down : Bool) : Remote :=
  { digest := .body "0123456789012345678901234567890123456789"
    list := .body (some ["a-1", "a-2", "a-3"])
    download := fun _ bid => if down && bid = "a-1" then .err else .body [1] }

example : (exRemote false).digest = .body "0123456789012345678901234567890123456789" ∧
    "0123456789012345678901234567890123456789".utf8ByteSize = 40 ∧
    (exRemote false).list = .body (some ["a-1", "a-2", "a-3"]) ∧
    missing (fun bid => bid = "a-2") ["a-1", "a-2", "a-3"] = ["a-1", "a-3"] := by decide +kernel

-- The second missing bundle cannot be downloaded.
example : let r : Remote := { exRemote false with download := fun j _ => if j = 1 then .err else .body [1] }
    missing (fun _ => false) ["a-1", "a-2", "a-3"] = ["a-1"] ++ "a-2" :: ["a-3"] ∧
    r.download 1 "a-2" = .err ∧ pullAsked (pullFromNode (fun _ => none) (fun _ => false) "" r) = ["a-1", "a-2"] := by
  decide +kernel

/-- C58 is violated when a download fails: the bundles listed after it are not requested although they are missing. -/
theorem C58_rest_not_fetched_violated : ∃ (parse : Bytes → Option Bundle) (has : String → Bool) (d : String) (r : Remote)
    (bids : List String) (bid : String), r.list = .body (some bids) ∧ bid ∈ missing has bids ∧
    (∃ bytes, r.download 0 bid = .body bytes) ∧ Request.list ∈ (pullFromNode parse has d r).requests ∧
    bid ∉ pullAsked (pullFromNode parse has d r) := by
  refine ⟨fun _ => none, fun _ => false, "", exRemote true, ["a-1", "a-2", "a-3"], "a-2", rfl, by decide, ⟨[1], by decide⟩,
    by decide +kernel, by decide +kernel⟩

/-- C58 is violated when the answer to the digest request is not 40 bytes long: the round is reported successful and nothing
is requested, whatever the peer has. -/
theorem C58_odd_digest_violated (parse : Bytes → Option Bundle) (has : String → Bool) (d digest : String) (r : Remote)
    (hd : r.digest = .body digest) (hlen : digest.utf8ByteSize ≠ 40) :
    pullFromNode parse has d r = { requests := [.digest], result := .successful } := by
  unfold pullFromNode
  rw [hd]
  simp [hlen]

example : "404 page not found".utf8ByteSize ≠ 40 := by decide

/-- C58 between two nodes running this code: if a node pulls from a node, every bundle that is stored and not marked as
deleted there, and whose id is unknown here, is received here, provided the hash prints 40 characters and does not collide on
the two lists of ids, and ids hold a single colon (see C56). -/
theorem C58_two_nodes (sha1 : List Char → String) (toCbor : Bundle → Bytes) (parse : Bytes → Option Bundle) (notFound : Bytes)
    (mine theirs : List MemStore.Op)
    (h40 : ∀ t, (sha1 t).utf8ByteSize = 40)
    (hcoll : sha1 (Digest.completeText (MemStore.new.run theirs).packs) = sha1 (Digest.completeText (MemStore.new.run mine).packs) →
      Digest.completeText (MemStore.new.run theirs).packs = Digest.completeText (MemStore.new.run mine).packs)
    (hid : ∀ bid, pushedMem mine bid ∨ pushedMem theirs bid → OneColon bid.toList)
    (hparse : ∀ b, parse (toCbor b) = some b)
    (b : Bundle) (hb : (MemStore.new.run theirs).getBundle b.id = some b)
    (hdel : ∃ p, (MemStore.new.run theirs).getMetadata b.id = some p ∧ p.has .deleted = false)
    (hmine : ¬ pushedMem mine b.id) :
    b ∈ (pullFromNode parse (MemStore.new.run mine).hasItem (Digest.complete sha1 (MemStore.new.run mine).packs)
      (serving sha1 toCbor notFound (MemStore.new.run theirs))).received := by
  have im : MemStore.Inv (MemStore.new.run mine) := MemStore.Inv.new.run _
  have it : MemStore.Inv (MemStore.new.run theirs) := MemStore.Inv.new.run _
  obtain ⟨p, hp, hpd⟩ := hdel
  have hne : Digest.complete sha1 (MemStore.new.run theirs).packs ≠ Digest.complete sha1 (MemStore.new.run mine).packs := by
    intro e
    have := C56_different_sets_partial theirs mine (fun bid h => hid bid h.symm) (hcoll e) b.id
    exact hmine (this.mp ((Digest.known_iff_pushed _ _).mp ⟨p, hp⟩))
  have hhas : (MemStore.new.run mine).hasItem b.id = false := by
    rw [Bool.eq_false_iff]
    intro h
    obtain ⟨b', hb'⟩ := Option.ne_none_iff_exists'.mp ((MemStore.hasItem_iff _ _).mp h)
    exact hmine ((Digest.known_iff_pushed _ _).mp (im.hasMeta _ _ hb'))
  unfold pullFromNode serving
  dsimp only
  rw [if_neg (fun h => h.elim hne fun h => h (h40 _))]
  refine fetch_gets _ _ _ _ ?_ b.id b ?_ ?_
  · intro j bid _
    cases (MemStore.new.run theirs).getBundle bid with
    | none => exact ⟨_, rfl⟩
    | some b => exact ⟨_, rfl⟩
  · rw [missing_eq, mem_missing]
    refine ⟨List.mem_map.mpr ⟨p, List.mem_filter.mpr ⟨?_, by simp [hpd]⟩, it.metaId _ _ hp⟩, hhas⟩
    rw [MemStore.mem_packs_iff it, it.metaId _ _ hp]; exact hp
  · intro j
    exact ⟨toCbor b, by rw [hb], hparse b⟩

-- Two nodes that meet the hypotheses about histories: the other node has a bundle this node does not know.
example : (MemStore.new.run [.push 5 (exIdBundle (.dtn "a" "") 1 1)]).getBundle (exIdBundle (.dtn "a" "") 1 1).id =
      some (exIdBundle (.dtn "a" "") 1 1) ∧
    (∃ p, (MemStore.new.run [.push 5 (exIdBundle (.dtn "a" "") 1 1)]).getMetadata (exIdBundle (.dtn "a" "") 1 1).id = some p ∧
      p.has .deleted = false) ∧
    ¬ pushedMem [.push 5 (exIdBundle (.dtn "a" "") 2 2)] (exIdBundle (.dtn "a" "") 1 1).id := by
  refine ⟨by decide +kernel, ⟨Pack.ofBundle 5 (exIdBundle (.dtn "a" "") 1 1), by decide +kernel, by decide +kernel⟩, ?_⟩
  rintro ⟨now, b, h, e⟩
  simp only [List.mem_singleton, MemStore.Op.push.injEq] at h
  obtain ⟨_, rfl⟩ := h
  revert e; decide +kernel

/-! ## C85 -/

/-- C85 with parallel processing: in every round every peer is asked, at its address and port, as if it were alone. -/
theorem C85_parallel (parse : Bytes → Option Bundle) (rounds : List ((String → Bool) × String × List Target)) :
    loop parse true rounds = rounds.map fun x =>
      x.2.2.map fun t => (t.addr, portOf t.claList, pullFromNode parse x.1 x.2.1 t.remote) := by
  have all : ∀ has d ts, pullAll parse has d true ts =
      (ts.map fun t => (t.addr, portOf t.claList, pullFromNode parse has d t.remote), true) := by
    intro has d ts
    induction ts with
    | nil => rfl
    | cons t ts ih => unfold pullAll; simp [ih]
  induction rounds with
  | nil => rfl
  | cons x rounds ih =>
    obtain ⟨has, d, ts⟩ := x
    unfold loop
    rw [all, ih]; rfl

/-- C85 without parallel processing, the part that holds: the same, as long as no peer gives an answer that cannot be read.
Missing: see `C85_puller_dies_violated`. -/
theorem C85_sequential_partial (parse : Bytes → Option Bundle) (rounds : List ((String → Bool) × String × List Target))
    (h : ∀ x ∈ rounds, ∀ t ∈ x.2.2, t.remote.digest ≠ .garbled ∧ t.remote.list ≠ .garbled ∧ t.remote.list ≠ .body none ∧
      ∀ j bid, t.remote.download j bid ≠ .garbled) :
    loop parse false rounds = rounds.map fun x =>
      x.2.2.map fun t => (t.addr, portOf t.claList, pullFromNode parse x.1 x.2.1 t.remote) := by
  have fet : ∀ (r : Remote) i l, (∀ j bid, r.download j bid ≠ .garbled) → (fetch parse r.download i l).result ≠ .panic := by
    intro r i l hr
    induction l generalizing i with
    | nil => simp [fetch]
    | cons bid rest ih =>
      unfold fetch
      cases hd : r.download i bid with
      | err => simp
      | garbled => exact absurd hd (hr _ _)
      | body bytes => dsimp only; cases parse bytes <;> exact ih _
  have one : ∀ has d (r : Remote), r.digest ≠ .garbled → r.list ≠ .garbled → r.list ≠ .body none →
      (∀ j bid, r.download j bid ≠ .garbled) → (pullFromNode parse has d r).result ≠ .panic := by
    intro has d r h1 h2 h3 h4
    unfold pullFromNode
    cases hd : r.digest with
    | err => simp
    | garbled => exact absurd hd h1
    | body digest =>
      dsimp only
      split
      · simp
      · cases hl : r.list with
        | err => simp
        | garbled => exact absurd hl h2
        | body o =>
          cases o with
          | none => exact absurd hl h3
          | some bids => exact fet r _ _ h4
  have all : ∀ has d ts, (∀ t ∈ ts, (pullFromNode parse has d t.remote).result ≠ .panic) → pullAll parse has d false ts =
      (ts.map fun t => (t.addr, portOf t.claList, pullFromNode parse has d t.remote), true) := by
    intro has d ts ht
    induction ts with
    | nil => rfl
    | cons t ts ih =>
      unfold pullAll
      rw [ih fun t' h' => ht t' (List.mem_cons_of_mem _ h')]
      simp [ht t List.mem_cons_self]
  induction rounds with
  | nil => rfl
  | cons x rounds ih =>
    obtain ⟨has, d, ts⟩ := x
    unfold loop
    rw [all _ _ _ ?_, ih fun y hy => h y (List.mem_cons_of_mem _ hy)]
    · rfl
    · intro t ht
      obtain ⟨h1, h2, h3, h4⟩ := h _ List.mem_cons_self t ht
      exact one _ _ _ h1 h2 h3 h4

example : (exRemote false).digest ≠ .garbled ∧ (exRemote false).list ≠ .garbled ∧ (exRemote false).list ≠ .body none ∧
    ∀ j bid, (exRemote false).download j bid ≠ .garbled := by
  refine ⟨by decide, by decide, by decide, ?_⟩
  intro j bid; simp [exRemote]

/-- C85 is violated without parallel processing, which is the default: if one peer answers the list request with something
else than a list of ids, no peer after it is asked in this round, and no peer at all in any later round. -/
theorem C85_puller_dies_violated (parse : Bytes → Option Bundle) (has : String → Bool) (d digest : String) (bad : Target)
    (others : List Target) (rounds : List ((String → Bool) × String × List Target))
    (hd : bad.remote.digest = .body digest) (hne : digest ≠ d) (hlen : digest.utf8ByteSize = 40)
    (hl : bad.remote.list = .body none) :
    loop parse false ((has, d, bad :: others) :: rounds) =
      [[(bad.addr, portOf bad.claList, { requests := [.digest, .list], result := .panic })]] := by
  have hp : pullFromNode parse has d bad.remote = { requests := [.digest, .list], result := .panic } := by
    unfold pullFromNode
    rw [hd]; dsimp only
    rw [if_neg (fun h => h.elim hne fun h => h hlen), hl]
  unfold loop pullAll
  simp [hp]

example : ({ exRemote false with list := .body none }).digest = .body "0123456789012345678901234567890123456789" := rfl

/-- C85: the port is the one of the first `httppull` entry with a port, otherwise 3000. -/
theorem C85_port (l : List (String × Option Nat)) :
    portOf l = ((l.find? fun c => c.1 = "httppull" && c.2.isSome).bind (·.2)).getD 3000 := by
  induction l with
  | nil => rfl
  | cons c l ih =>
    obtain ⟨n, p⟩ := c
    unfold portOf
    by_cases hn : n = "httppull"
    · cases p <;> simp [hn, ih]
    · simp [hn, ih]

end Dtn.Props
