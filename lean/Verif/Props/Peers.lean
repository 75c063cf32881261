import Verif.Lemmas.Peers
import Std.Data.String.ToNat
/-!
Properties C28-C31: the peer table.
-/

namespace Dtn.Props
open Spec

/-- A dynamic peer for the examples. -/
def exPeer (node : String) : Peer :=
  Peer.new 100 (.dtn node "") (.ipv4 "10.0.0.1") .dynamic (some 2000) [("mtcp", none), ("tcp", some 4000)]

/-- A static peer for the examples. -/
def exStatic (node : String) : Peer :=
  Peer.new 100 (.dtn node "") (.ipv4 "10.0.0.2") .static none [("mtcp", some 17000)]

/-- A non-trivial history of the peer table. -/
def exPeerOps : List Peers.Op :=
  [.add (exPeer "n1"), .add (exStatic "n2"), .touch 150 "n1", .fail "n1", .add (exPeer "n3"), .remove "n3"]

/-! ## C28 -/

/-- C28 (all but the last clause): after any history of calls, a node name has at most one entry; what is found under it,
by name or by endpoint, is what the history says (`Spec.entry`: the peer added last, unless removed, timed out or
failed four times since); and `peers_add` answers whether the node was unknown. Missing: the last clause, see
`C28_no_sharing_within_scheme_partial` and `C28_two_nodes_share_entry_violated`. -/
theorem C28_peer_table_partial (ops : List Peers.Op) :
    let ps := Peers.run [] ops
    (AList.keys ps).Nodup ∧
    (∀ n, AList.get? ps n = entry n none ops) ∧
    (∀ n, ps.known n = (entry n none ops).isSome) ∧
    (∀ eid n, eid.node = some n → ps.getForNode eid = entry n none ops) ∧
    (∀ n p, entry n none ops = some p → p.eid.node = some n) ∧
    (∀ p n, p.eid.node = some n → ∃ ps', ps.add p = some (ps', decide (entry n none ops = none)) ∧
      ps'.getForNode p.eid = some p ∧ (∀ m, m ≠ n → AList.get? ps' m = AList.get? ps m)) ∧
    (∀ p, p.eid.node = none ↔ ps.add p = none) := by
  have inv : Peers.Inv (Peers.run [] ops) := Peers.Inv.nil.run ops
  have key : ∀ n, AList.get? (Peers.run [] ops) n = entry n none ops := fun n => by
    rw [Peers.get?_run Peers.Inv.nil]; rfl
  refine ⟨inv.wf, key, ?_, ?_, ?_, ?_, ?_⟩
  · intro n; rw [← key]; rfl
  · intro eid n hn; rw [← key]; exact Peers.getForNode_eq inv eid n hn
  · intro n p hp; rw [← key] at hp; exact inv.key n p hp
  · intro p n hn
    refine ⟨AList.insert (Peers.run [] ops) n p, ?_, ?_, ?_⟩
    · unfold Peers.add
      rw [hn, ← key]
      simp only [AList.contains]
      cases AList.get? (Peers.run [] ops) n <;> simp
    · have inv' := inv.step (.add p)
      simp only [Peers.step, Peers.add, hn] at inv'
      rw [Peers.getForNode_eq inv' _ _ hn, AList.get?_insert_self]
    · intro m hm; rw [AList.get?_insert_of_ne _ _ hm]
  · intro p
    unfold Peers.add
    cases p.eid.node <;> simp

example : (Peers.run [] exPeerOps).known "n1" = true ∧ (Peers.run [] exPeerOps).known "n3" = false ∧
    (entry "n1" none exPeerOps).map (fun p => (p.lastContact, p.fails)) = some (150, 1) := by decide

/-- C28: a contact with a node is noted exactly if the node is in the table, and the answer says so. -/
theorem C28_touch_answer (ops : List Peers.Op) (now : Nat) (n : String) :
    let ps := Peers.run [] ops
    ((ps.touch now n).2 = true ↔ ps.known n = true) ∧ ((ps.touch now n).2 = false → (ps.touch now n).1 = ps) := by
  dsimp only
  unfold Peers.touch Peers.known
  rw [AList.contains_iff]
  cases AList.get? (Peers.run [] ops) n <;> simp

example : ((Peers.run [] exPeerOps).touch 200 "n1").2 = true ∧ ((Peers.run [] exPeerOps).touch 200 "n9").2 = false := by
  decide

/-- C28 (search by address): after any history of calls, the node found for an address has an entry with that address,
and none is found only if no node has. -/
theorem C28_find_by_remote (ops : List Peers.Op) (a : PeerAddress) :
    (∀ n, (Peers.run [] ops).findByRemote a = some n → ∃ p, entry n none ops = some p ∧ p.addr = a) ∧
    ((Peers.run [] ops).findByRemote a = none ↔ ∀ n p, entry n none ops = some p → p.addr ≠ a) := by
  have inv : Peers.Inv (Peers.run [] ops) := Peers.Inv.nil.run ops
  have key : ∀ n, AList.get? (Peers.run [] ops) n = entry n none ops := fun n => by
    rw [Peers.get?_run Peers.Inv.nil]; rfl
  generalize Peers.run [] ops = ps at *
  unfold Peers.findByRemote
  constructor
  · intro n h
    cases hf : (AList.values ps).find? (fun p => p.addr = a) with
    | none => rw [hf] at h; cases h
    | some p =>
      rw [hf] at h
      obtain ⟨k, hk⟩ := (inv.wf.mem_values_iff p).mp (List.mem_of_find?_eq_some hf)
      have ha := List.find?_some hf
      simp only [decide_eq_true_eq] at ha
      have hn := inv.key k p hk
      simp only [Option.map_some, Peer.nodeName, hn, Option.getD_some, Option.some.injEq] at h
      subst h
      exact ⟨p, by rw [← key]; exact hk, ha⟩
  · simp only [Option.map_eq_none_iff, List.find?_eq_none, decide_eq_true_eq]
    constructor
    · intro h n p hp
      exact h p ((inv.wf.mem_values_iff p).mpr ⟨n, by rw [key]; exact hp⟩)
    · intro h p hp
      obtain ⟨k, hk⟩ := (inv.wf.mem_values_iff p).mp hp
      exact h k p (by rw [← key]; exact hk)

example : (Peers.run [] exPeerOps).findByRemote (.ipv4 "10.0.0.2") = some "n2" ∧
    (Peers.run [] exPeerOps).findByRemote (.ipv4 "10.0.0.9") = none := by decide

/-- C28 (last clause), for nodes of one scheme: two endpoints with the same table key belong to the same node. -/
theorem C28_no_sharing_within_scheme_partial (a b : EID) (n : String) (ha : a.node = some n) (hb : b.node = some n)
    (hs : (∃ m s m' s', a = .dtn m s ∧ b = .dtn m' s') ∨ (∃ m s m' s', a = .ipn m s ∧ b = .ipn m' s')) :
    a.nodeId = b.nodeId := by
  rcases hs with ⟨m, s, m', s', rfl, rfl⟩ | ⟨m, s, m', s', rfl, rfl⟩
  · simp only [EID.node, Option.some.injEq] at ha hb
    simp [EID.nodeId, ha, hb]
  · simp only [EID.node, Option.some.injEq] at ha hb
    have : m.repr = m'.repr := ha.trans hb.symm
    simp [EID.nodeId, Nat.repr_inj.1 this]

example : (EID.ipn 12 1).node = some "12" ∧ (EID.ipn 12 7).node = some "12" := by decide

/-- C28 (last clause) is false: the node `ipn:5.0` and the node `dtn://5/` have the same name, so adding one replaces
the entry of the other, whatever the table held before. -/
theorem C28_two_nodes_share_entry_violated (ops : List Peers.Op) (now : Nat) (a : PeerAddress) :
    let p := Peer.new now (.dtn "5" "") a .static none []
    let q := Peer.new now (.ipn 5 0) a .static none []
    p.eid.nodeId ≠ q.eid.nodeId ∧
    (Peers.run [] (ops ++ [.add p])).getForNode p.eid = some p ∧
    (Peers.run [] (ops ++ [.add p, .add q])).getForNode p.eid = some q := by
  have hp : (Peer.new now (.dtn "5" "") a .static none []).eid.node = some "5" := rfl
  have hq : (Peer.new now (.ipn 5 0) a .static none []).eid.node = some "5" := by
    show some (toString 5) = _; decide
  refine ⟨by simp [Peer.new, EID.nodeId], ?_, ?_⟩
  · rw [Peers.getForNode_eq (Peers.Inv.nil.run _) _ _ hp, Peers.get?_run Peers.Inv.nil, Peers.entry_append]
    simp only [entry, hp, if_true]
  · rw [Peers.getForNode_eq (Peers.Inv.nil.run _) _ _ hp, Peers.get?_run Peers.Inv.nil, Peers.entry_append]
    simp only [entry, hp, hq, if_true]

/-! ## C29 -/

/-- C29: after any history, the periodic check keeps exactly the peers that are static or were last in contact less than
their timeout ago, unchanged, and tells the router about the removed ones and no others. Time is counted with numbers of 64 bits here. -/
theorem C29_peer_check (ops : List Peers.Op) (cfg : PeerCfg) (now : Nat) :
    let ps := Peers.run [] ops
    let r := ps.process cfg now
    (∀ n p, AList.get? r.1 n = some p ↔ AList.get? ps n = some p ∧ Alive cfg now p) ∧
    (∀ eid, eid ∈ r.2 ↔ ∃ n p, AList.get? ps n = some p ∧ ¬ Alive cfg now p ∧ p.eid = eid) := by
  have inv : Peers.Inv (Peers.run [] ops) := Peers.Inv.nil.run ops
  refine ⟨?_, ?_⟩
  · intro n p
    rw [Peers.process_eq, Peers.get?_filter_wf _ inv.wf (fun p : Peer => decide (Alive cfg now p))]
    cases AList.get? (Peers.run [] ops) n with
    | none => simp
    | some q =>
      by_cases h : Alive cfg now q
      · simp only [Option.filter, h, decide_true, if_true, Option.some.injEq]
        constructor
        · rintro rfl; exact ⟨rfl, h⟩
        · exact fun h => h.1
      · simp only [Option.filter, h, decide_false, Bool.false_eq_true, if_false, Option.some.injEq, reduceCtorEq,
          false_iff]
        rintro ⟨rfl, h'⟩; exact h h'
  · intro eid
    simp only [Peers.process, List.mem_map, List.mem_filter]
    have hv : ∀ p : Peer, p.stillValid cfg now = false ↔ ¬ Alive cfg now p := by
      intro p
      rw [← Peers.alive_iff]
      unfold Peer.stillValid
      by_cases h : p.conType = .static <;> simp [h]
    constructor
    · rintro ⟨⟨n, p⟩, ⟨hm, hs⟩, rfl⟩
      exact ⟨n, p, inv.wf.get?_of_mem hm, (hv p).1 (by simpa using hs), rfl⟩
    · rintro ⟨n, p, hg, ha, rfl⟩
      exact ⟨(n, p), ⟨AList.mem_of_get? hg, by simpa using (hv p).2 ha⟩, rfl⟩

/-- C29 (part). So while the clock is not behind the last contact with any peer, a peer is kept exactly if it is static or less than its
timeout has passed, and the router is told of the others and of nobody else. Missing: clocks that are set back
(`C29_clock_set_back_violated`). -/
theorem C29_timeout_partial (ops : List Peers.Op) (cfg : PeerCfg) (now : Nat)
    (clock : ∀ n p, AList.get? (Peers.run [] ops) n = some p → p.lastContact ≤ now) (n : String) (p : Peer)
    (known : AList.get? (Peers.run [] ops) n = some p) :
    (AList.get? ((Peers.run [] ops).process cfg now).1 n = some p ↔ p.conType = .static ∨ now < p.lastContact + timeoutSecs cfg p) ∧
    (p.eid ∈ ((Peers.run [] ops).process cfg now).2 ↔
      ∃ m q, AList.get? (Peers.run [] ops) m = some q ∧ q.eid = p.eid ∧ q.conType ≠ .static ∧ q.lastContact + timeoutSecs cfg q ≤ now) := by
  have key : ∀ m q, AList.get? (Peers.run [] ops) m = some q →
      (Alive cfg now q ↔ q.conType = .static ∨ now < q.lastContact + timeoutSecs cfg q) := by
    intro m q hq
    have := clock m q hq
    unfold Alive silence
    rw [if_pos this]
    constructor <;> rintro (h | h)
    · exact .inl h
    · exact .inr (by omega)
    · exact .inl h
    · exact .inr (by omega)
  obtain ⟨h1, h2⟩ := C29_peer_check ops cfg now
  refine ⟨(h1 n p).trans ?_, (h2 p.eid).trans ?_⟩
  · rw [key n p known]
    exact ⟨fun h => h.2, fun h => ⟨known, h⟩⟩
  · constructor
    · rintro ⟨m, q, k1, k2, k3⟩
      rw [key m q k1] at k2
      exact ⟨m, q, k1, k3, fun h => k2 (.inl h), Nat.not_lt.mp fun h => k2 (.inr h)⟩
    · rintro ⟨m, q, k1, k2, k3, k4⟩
      refine ⟨m, q, k1, ?_, k2⟩
      rw [key m q k1]
      rintro (h | h)
      · exact k3 h
      · omega

/-- C29 is false if the clock is set back: every dynamic peer whose last contact is then in the future, be it by a second, is dropped at
the next check, whatever its timeout (up to `2 ^ 63` seconds, and the clock set back by no more), and the router is told. -/
theorem C29_clock_set_back_violated (ops : List Peers.Op) (cfg : PeerCfg) (now : Nat) (n : String) (p : Peer)
    (known : AList.get? (Peers.run [] ops) n = some p) (dynamic : p.conType ≠ .static) (back : now < p.lastContact)
    (most : p.lastContact ≤ now + 2 ^ 63) (timeout : timeoutSecs cfg p ≤ 2 ^ 63) :
    AList.get? ((Peers.run [] ops).process cfg now).1 n = none ∧ p.eid ∈ ((Peers.run [] ops).process cfg now).2 := by
  have dead : ¬ Alive cfg now p := by
    rintro (h | h)
    · exact dynamic h
    · unfold silence at h
      rw [if_neg (by omega)] at h
      omega
  obtain ⟨h1, h2⟩ := C29_peer_check ops cfg now
  refine ⟨?_, (h2 _).mpr ⟨n, p, known, dead, rfl⟩⟩
  cases h : AList.get? ((Peers.run [] ops).process cfg now).1 n with
  | none => rfl
  | some q =>
    obtain ⟨k1, k2⟩ := (h1 n q).mp h
    rw [known, Option.some.injEq] at k1
    exact absurd (k1 ▸ k2) dead

example : let ps := Peers.run [] exPeerOps
    (ps.process { timeout := 20, custom := false } 154).1.map Prod.fst = ["n2"] ∧
    (ps.process { timeout := 20, custom := false } 153).1.map Prod.fst = ["n1", "n2"] ∧
    (ps.process { timeout := 20, custom := true } 169).1.map Prod.fst = ["n1", "n2"] := by decide

/-- The clock is not behind, and then it is: `n1` was in contact at 150, the check is at 154 or at 149. -/
example : (∀ e ∈ Peers.run [] exPeerOps, e.2.lastContact ≤ 154) ∧ ∃ p, AList.get? (Peers.run [] exPeerOps) "n1" = some p ∧
    p.conType ≠ .static ∧ 149 < p.lastContact ∧ p.lastContact ≤ 149 + 2 ^ 63 ∧ timeoutSecs { timeout := 20, custom := false } p ≤ 2 ^ 63 ∧
    ((Peers.run [] exPeerOps).process { timeout := 20, custom := false } 149).1.map Prod.fst = ["n2"] :=
  ⟨by decide, _, rfl, by decide, by decide, by decide, by decide, by decide⟩

/-! ## C30 -/

/-- Calls that neither add nor remove node `n` nor run the periodic check. -/
def LeavesAlone (n : String) : Peers.Op → Bool
  | .add p => decide (p.eid.node ≠ some n)
  | .remove m => decide (m ≠ n)
  | .touch _ _ => true
  | .check _ _ => false
  | .fail _ => true

/-- C30: whatever happened before, after a peer is announced and while it is not announced again, removed by hand or
timed out, it is in the table exactly as long as it is static or fewer than four failures were reported since, and the table tells their
number as far as 16 bits can. Missing: announcements at the same time, and larger numbers of failures, see
`C30_fresh_announcement_lost_violated` and `C30_count_wraps_violated`. -/
theorem C30_fourth_failure_drops_partial (pre mid : List Peers.Op) (now : Nat) (eid : EID) (addr : PeerAddress)
    (t : PeerType) (period : Option Nat) (clas : List (String × Option Nat)) (n : String) (hn : eid.node = some n)
    (hmid : mid.all (LeavesAlone n)) :
    let ps := Peers.run [] (pre ++ [.add (Peer.new now eid addr t period clas)] ++ mid)
    (ps.known n = true ↔ t = .static ∨ mid.count (.fail n) < 4) ∧
    (∀ p, AList.get? ps n = some p → p.fails = mid.count (.fail n) % 2 ^ 16) := by
  have gen : ∀ (mid : List Peers.Op) (p : Peer), p.fails < 4 ∨ p.conType = .static ∧ p.fails < 2 ^ 16 → mid.all (LeavesAlone n) →
      ((entry n (some p) mid).isSome = true ↔ p.conType = .static ∨ p.fails + mid.count (.fail n) < 4) ∧
      (∀ q, entry n (some p) mid = some q → q.fails = (p.fails + mid.count (.fail n)) % 2 ^ 16) := by
    intro mid
    induction mid with
    | nil =>
      intro p hp _
      refine ⟨?_, ?_⟩
      · simp only [entry, Option.isSome_some, List.count_nil, Nat.add_zero, true_iff]
        exact hp.symm.imp_left (·.1)
      · intro q hq; simp only [entry, Option.some.injEq] at hq; subst hq
        rw [List.count_nil, Nat.add_zero, Nat.mod_eq_of_lt (by omega)]
    | cons op mid ih =>
      intro p hp hall
      simp only [List.all_cons, Bool.and_eq_true] at hall
      cases op with
      | add q =>
        have hne : ¬ q.eid.node = some n := by simpa [LeavesAlone] using hall.1
        simp only [entry, hne, if_false]
        have := ih p hp hall.2
        simpa using this
      | remove m =>
        have hne : ¬ m = n := by simpa [LeavesAlone] using hall.1
        simp only [entry, hne, if_false]
        simpa using ih p hp hall.2
      | touch now m =>
        simp only [entry]
        split
        · simpa using ih { p with lastContact := now } hp hall.2
        · simpa using ih p hp hall.2
      | check cfg now => simp [LeavesAlone] at hall
      | fail m =>
        simp only [entry]
        by_cases hm : m = n
        · subst hm
          rw [if_pos rfl]
          simp only [List.count_cons_self]
          by_cases hd : p.conType = .dynamic ∧ 4 ≤ (p.fails + 1) % 2 ^ 16
          · rw [if_pos hd]
            have hnone : ∀ l : List Peers.Op, l.all (LeavesAlone m) → entry m none l = none := by
              intro l
              induction l with
              | nil => intro _; rfl
              | cons op l ihl =>
                intro hl
                simp only [List.all_cons, Bool.and_eq_true] at hl
                cases op with
                | add q =>
                  have hne : ¬ q.eid.node = some m := by simpa [LeavesAlone] using hl.1
                  simp only [entry, hne, if_false]; exact ihl hl.2
                | remove k => simp only [entry, ite_self]; exact ihl hl.2
                | touch now k => simp only [entry, Option.map_none, ite_self]; exact ihl hl.2
                | check cfg now => simp [LeavesAlone] at hl
                | fail k => simp only [entry, ite_self]; exact ihl hl.2
            rw [hnone mid hall.2]
            refine ⟨?_, by simp⟩
            simp only [Option.isSome_none, Bool.false_eq_true, hd.1, reduceCtorEq, false_or, false_iff]
            omega
          · rw [if_neg hd]
            have hlt : (p.fails + 1) % 2 ^ 16 < 2 ^ 16 := Nat.mod_lt _ (by decide)
            have hp' : (p.fails + 1) % 2 ^ 16 < 4 ∨ p.conType = .static ∧ (p.fails + 1) % 2 ^ 16 < 2 ^ 16 := by
              cases hc : p.conType with
              | static => exact Or.inr ⟨rfl, hlt⟩
              | dynamic => left; simp only [hc, true_and] at hd; omega
            obtain ⟨h1, h2⟩ := ih { p with fails := (p.fails + 1) % 2 ^ 16 } hp' hall.2
            refine ⟨h1.trans ?_, fun q hq => (h2 q hq).trans ?_⟩
            · dsimp only
              rcases hp with hp | hp
              · rw [Nat.mod_eq_of_lt (by omega)]
                exact or_congr Iff.rfl (by omega)
              · exact ⟨fun _ => .inl hp.1, fun _ => .inl hp.1⟩
            · dsimp only
              omega
        · rw [if_neg hm]
          have : List.count (.fail n) (Peers.Op.fail m :: mid) = List.count (.fail n) mid := by
            rw [List.count_cons_of_ne]; intro h; injection h with h; exact hm h
          rw [this]
          exact ih p hp hall.2
  have hent : entry n none (pre ++ [.add (Peer.new now eid addr t period clas)] ++ mid) =
      entry n (some (Peer.new now eid addr t period clas)) mid := by
    rw [Peers.entry_append, Peers.entry_append]
    have : (Peer.new now eid addr t period clas).eid.node = some n := hn
    simp only [entry, this, if_true]
  have hget := Peers.get?_run Peers.Inv.nil (pre ++ [.add (Peer.new now eid addr t period clas)] ++ mid) n
  rw [AList.get?_nil, hent] at hget
  obtain ⟨h1, h2⟩ := gen mid (Peer.new now eid addr t period clas) (Or.inl (by simp [Peer.new])) hmid
  simp only [Peer.new, Nat.zero_add] at h1 h2
  refine ⟨?_, ?_⟩
  · simp only [Peers.known, AList.contains]; rw [hget]; exact h1
  · intro p hp; rw [hget] at hp; exact h2 p hp

example : let mid := [Peers.Op.fail "n1", .fail "n2", .touch 300 "n1", .fail "n1", .fail "n1", .fail "n1"]
    mid.all (LeavesAlone "n1") ∧ mid.count (.fail "n1") = 4 ∧
    (Peers.run [] (exPeerOps ++ [.add (exPeer "n1")] ++ mid)).known "n1" = false ∧
    (Peers.run [] (exPeerOps ++ [.add (exPeer "n1")] ++ mid.dropLast)).known "n1" = true := by decide

/-- C30 is false under concurrency: the failure is counted and the peer removed under two separate locks. If the peer is
announced afresh in between, the fresh entry, with no failures, is removed. -/
theorem C30_fresh_announcement_lost_violated (p q : Peer) (n : String) (hp : p.eid.node = some n)
    (hq : q.eid.node = some n) (hd : p.conType = .dynamic) (hf : p.fails = 3) :
    let ps := Peers.run [] [.add p]
    let counted := ps.failCount n
    let announced := counted.1.step (.add q)
    AList.get? announced n = some q ∧ (Peers.failRemove announced counted.2).known n = false := by
  have h1 : Peers.run [] [.add p] = [(n, p)] := by
    simp [Peers.run, Peers.step, Peers.add, hp, AList.insert, AList.erase]
  have h2 : p.reportFail.failedTooMuch = true := by simp [Peer.reportFail, Peer.failedTooMuch, hf]
  have h3 : p.reportFail.conType = .dynamic := hd
  have h4 : p.reportFail.nodeName = n := by simp [Peer.reportFail, Peer.nodeName, hp]
  rw [h1]
  simp only [Peers.failCount, AList.get?_cons, if_true, h2, h3, h4, Peers.step, Peers.add, hq, decide_true, Bool.and_self,
    Peers.failRemove, Peers.known, AList.contains, AList.get?_erase_self, AList.get?_insert_self, Option.isSome_none,
    and_self]

example : (exPeer "n1").eid.node = some "n1" ∧ (exPeer "n1").conType = .dynamic ∧
    ({ exPeer "n1" with fails := 3 } : Peer).fails = 3 ∧ (exPeer "n1").fails = 0 := by decide

/-- C30 fails for the number of failures shown: after 65536 failures of a static peer, the table tells that there were none. (A debug build
panics instead.) -/
theorem C30_count_wraps_violated :
    ∃ ops : List Peers.Op, ops.count (.fail "n1") = 65536 ∧
      ∃ p, AList.get? (Peers.run [] ops) "n1" = some p ∧ p.fails = 0 := by
  let new := Peer.new 0 (.dtn "n1" "") (.ipv4 "10.0.0.7") .static none []
  refine ⟨[] ++ [.add new] ++ List.replicate 65536 (.fail "n1"), ?_, ?_⟩
  · rw [List.nil_append, List.count_append, List.count_replicate_self]
    rw [show List.count (Peers.Op.fail "n1") [.add new] = 0 from List.count_eq_zero.mpr (by simp)]
  · obtain ⟨h1, h2⟩ := C30_fourth_failure_drops_partial [] (List.replicate 65536 (.fail "n1")) 0 (.dtn "n1" "") (.ipv4 "10.0.0.7") .static
      none [] "n1" rfl (by rw [List.all_replicate]; rfl)
    have hk := h1.mpr (.inl rfl)
    rw [Peers.known, AList.contains] at hk
    obtain ⟨p, hp⟩ := Option.isSome_iff_exists.mp hk
    exact ⟨p, hp, by rw [h2 p hp, List.count_replicate_self]⟩

/-! ## C31 -/

/-- C31: the task chosen for a peer uses a layer the peer offers and this node runs and which accepts bundles, addressed
to the peer (`Spec.SendsTo`); the peer's earlier offers are unusable; and a task is produced exactly if such a layer
exists. -/
theorem C31_first_cla_usable (p : Peer) (running : List Cla) :
    ((p.firstCla running).isSome ↔ Usable running p) ∧
    ∀ s, p.firstCla running = some s →
      SendsTo running p s ∧
      ∃ pre x post, p.claList = pre ++ x :: post ∧ s.claName = x.1 ∧
        ∀ y ∈ pre, ∀ c ∈ running, ¬ (c.name = y.1 ∧ c.accepting = true) := by
  refine ⟨Peer.firstCla_isSome_iff p running, fun s hs => ⟨Peer.firstCla_sendsTo hs, ?_⟩⟩
  obtain ⟨_, pre, x, post, h1, h2, _, _, _, h3, _⟩ := Peer.firstClaIn_spec p running _ s hs
  exact ⟨pre, x, post, h1, h3, h2⟩

/-- C31 for lookups: the task found for a node by endpoint is a usable one of the peer in the table. -/
theorem C31_cla_for_node (ops : List Peers.Op) (running : List Cla) (eid : EID) (n : String) (hn : eid.node = some n) :
    let ps := Peers.run [] ops
    ((ps.claForNode running eid).isSome ↔ ∃ p, entry n none ops = some p ∧ Usable running p) ∧
    ∀ s, ps.claForNode running eid = some s → ∃ p, entry n none ops = some p ∧ SendsTo running p s := by
  have hg : (Peers.run [] ops).getForNode eid = entry n none ops := by
    rw [Peers.getForNode_eq (Peers.Inv.nil.run ops) eid n hn, Peers.get?_run Peers.Inv.nil]; rfl
  simp only [Peers.claForNode, hg]
  cases entry n none ops with
  | none => simp
  | some p =>
    simp only [Option.some.injEq, exists_eq_left', Peer.firstCla_isSome_iff, true_and]
    intro s hs; exact Peer.firstCla_sendsTo hs

example : (exPeer "n1").firstCla [{ name := "udp", port := 1 }, { name := "mtcp", port := 16162, accepting := false },
      { name := "tcp", port := 4556 }] =
    some { tx := { name := "tcp", port := 4556 }, dest := "10.0.0.1:4000", claName := "tcp",
           nextHop := .dtn "n1" "" } := by decide

end Dtn.Props
