import Verif.Lemmas.Spray
/-! Lemmas about spray and wait routing: how copies are spent. -/

namespace Dtn.Routing.Spray
open Dtn Spec

/-- The peers the loop can give the bundle to. -/
def cand (localNode : String) (running : List Cla) (nodes : List String) (ps : List Peer) : List Peer :=
  ps.filter fun p => (p.firstCla running).isSome && (match p.eid.nodeId with
    | some n => !(n.print = localNode || decide (n.print ∈ nodes))
    | none => false)

theorem cand_cons (localNode : String) (running : List Cla) (nodes : List String) (p : Peer) (ps : List Peer) {n : NodeId} (hn : p.eid.nodeId = some n) :
    cand localNode running nodes (p :: ps) =
      if (p.firstCla running).isSome = true ∧ (n.print = localNode || decide (n.print ∈ nodes)) = false then p :: cand localNode running nodes ps
      else cand localNode running nodes ps := by
  unfold cand
  rw [List.filter_cons, hn]
  simp only [Bool.and_eq_true, Bool.not_eq_true']

theorem cand_more (localNode : String) (running : List Cla) (nodes : List String) (ps : List Peer) (n : NodeId)
    (h : some n ∉ ps.map fun p => p.eid.nodeId) : cand localNode running (nodes ++ [n.print]) ps = cand localNode running nodes ps := by
  unfold cand
  apply List.filter_congr
  intro p hp
  cases hq : p.eid.nodeId with
  | none => rfl
  | some q =>
    have hne : q ≠ n := by
      rintro rfl
      exact h (List.mem_map.mpr ⟨p, hp, hq⟩)
    have : q.print ≠ n.print := fun e => hne (print_inj e)
    simp [this]

theorem loop_exact (localNode : String) (bp : Pack) (running : List Cla) {d : String} (hd : bp.destination.node = some d) (ps : List Peer)
    (m : SawData) (a : Answer) (hps : ∀ p ∈ ps, ∃ n, p.eid.nodeId = some n) (hdis : (ps.map fun p => p.eid.nodeId).Nodup) :
    ∃ m' a', loop localNode bp running ps m a = some (m', a') ∧
      ((∀ p ∈ (cand localNode running m.nodes ps).drop (m.copies - 1), p.nodeName ≠ d) →
        a' = { a with clas := a.clas ++ ((cand localNode running m.nodes ps).take (m.copies - 1)).filterMap fun p => p.firstCla running }) ∧
      ((∃ p ∈ (cand localNode running m.nodes ps).drop (m.copies - 1), p.nodeName = d) →
        ∃ p ∈ (cand localNode running m.nodes ps).drop (m.copies - 1), p.nodeName = d ∧
          ∃ s, p.firstCla running = some s ∧ a' = { clas := [s], delete := true }) := by
  induction ps generalizing m a with
  | nil => exact ⟨m, a, rfl, fun _ => by simp [cand], fun ⟨p, hp, _⟩ => by simp [cand] at hp⟩
  | cons p ps ih =>
    obtain ⟨n, hn⟩ := hps p List.mem_cons_self
    have hps' : ∀ q ∈ ps, ∃ n, q.eid.nodeId = some n := fun q hq => hps q (List.mem_cons_of_mem _ hq)
    rw [List.map_cons, List.nodup_cons] at hdis
    rw [cand_cons _ _ _ _ _ hn]
    unfold loop
    rw [hn]
    dsimp only
    by_cases hskip : (n.print = localNode || decide (n.print ∈ m.nodes)) = true
    · rw [if_pos hskip, if_neg (by simp [hskip])]
      exact ih m a hps' hdis.2
    · have hskip' : (n.print = localNode || decide (n.print ∈ m.nodes)) = false := by simpa using hskip
      rw [if_neg hskip]
      cases hf : p.firstCla running with
      | none =>
        rw [if_neg (c := (none : Option Sender).isSome = true ∧ _) (by simp)]
        by_cases hc : m.copies < 2
        · rw [if_pos hc, hd]
          dsimp only
          split <;> exact ih m a hps' hdis.2
        · rw [if_neg hc]
          exact ih m a hps' hdis.2
      | some s =>
        rw [if_pos (c := (some s).isSome = true ∧ _) ⟨rfl, hskip'⟩]
        by_cases hc : m.copies < 2
        · have hk : m.copies - 1 = 0 := by omega
          rw [if_pos hc, hd]
          dsimp only
          rw [hk]
          simp only [List.drop_zero, List.take_zero, List.filterMap_nil, List.append_nil]
          by_cases hp : d = p.nodeName
          · rw [if_pos hp]
            obtain ⟨m', a', h1, h2, h3⟩ := ih m { clas := [s], delete := true } hps' hdis.2
            rw [hk] at h2 h3
            simp only [List.drop_zero, List.take_zero, List.filterMap_nil, List.append_nil] at h2 h3
            refine ⟨m', a', h1, fun h => absurd hp.symm (h p List.mem_cons_self), fun _ => ?_⟩
            by_cases hx : ∃ q ∈ cand localNode running m.nodes ps, q.nodeName = d
            · obtain ⟨q, hq, h4⟩ := h3 hx
              exact ⟨q, List.mem_cons_of_mem _ hq, h4⟩
            · exact ⟨p, List.mem_cons_self, hp.symm, s, hf, h2 fun q hq e => hx ⟨q, hq, e⟩⟩
          · rw [if_neg hp]
            obtain ⟨m', a', h1, h2, h3⟩ := ih m a hps' hdis.2
            rw [hk] at h2 h3
            simp only [List.drop_zero, List.take_zero, List.filterMap_nil, List.append_nil] at h2 h3
            refine ⟨m', a', h1, fun h => h2 fun q hq => h q (List.mem_cons_of_mem _ hq), ?_⟩
            rintro ⟨q, hq, e⟩
            rcases List.mem_cons.mp hq with rfl | hq
            · exact absurd e.symm hp
            · obtain ⟨q', hq', h4⟩ := h3 ⟨q, hq, e⟩
              exact ⟨q', List.mem_cons_of_mem _ hq', h4⟩
        · obtain ⟨k, hk⟩ : ∃ k, m.copies = k + 2 := ⟨m.copies - 2, by omega⟩
          rw [if_neg hc]
          obtain ⟨m', a', h1, h2, h3⟩ := ih { copies := m.copies - 1, nodes := m.nodes ++ [n.print] } { a with clas := a.clas ++ [s] } hps' hdis.2
          have hne : some n ∉ ps.map fun p => p.eid.nodeId := by rw [← hn]; exact hdis.1
          simp only [cand_more _ _ _ _ _ hne] at h2 h3
          rw [hk] at h1 h2 h3 ⊢
          simp only [Nat.add_sub_cancel, show k + 2 - 1 = k + 1 by omega] at h1 h2 h3
          refine ⟨m', a', by simpa using h1, ?_, ?_⟩
          · intro h
            rw [show k + 2 - 1 = k + 1 by omega] at h ⊢
            simp only [List.drop_succ_cons, List.take_succ_cons, List.filterMap_cons, hf] at h ⊢
            rw [h2 h]
            simp
          · intro h
            rw [show k + 2 - 1 = k + 1 by omega] at h ⊢
            simp only [List.drop_succ_cons] at h ⊢
            exact h3 h

/-- What is recorded of a bundle that was announced at most once, whose transfers did not fail and which was not delivered. -/
structure Exact (l : Nat) (localNode bid : String) (arrivals : Nat) (c : Spray) (log : List (Cmd × Option Answer)) : Prop where
  lim : c.l = l
  loc : c.localNode = localNode
  fresh : arrivals = 0 → AList.get? c.history bid = none ∧ relays bid log = []
  present : arrivals = 1 → ∃ (m : SawData) (rs : List NodeId), AList.get? c.history bid = some m ∧ m.copies + (relays bid log).length = copyBudget l localNode bid ∧
    relays bid log = rs.map Option.some ∧ m.nodes = rs.map NodeId.print

theorem Exact.keep {l : Nat} {localNode bid : String} {k : Nat} {c c' : Spray} {log : List (Cmd × Option Answer)}
    (h : Exact l localNode bid k c log) (x : Cmd × Option Answer) (hx : relaysOf bid x = []) (hl : c'.l = c.l) (hn : c'.localNode = c.localNode)
    (hg : AList.get? c'.history bid = AList.get? c.history bid) : Exact l localNode bid k c' (log ++ [x]) := by
  have : relays bid (log ++ [x]) = relays bid log := by rw [relays_append]; simp [relays, hx]
  obtain ⟨h1, h2, h3, h4⟩ := h
  exact ⟨hl.trans h1, hn.trans h2, by rw [this, hg]; exact h3, by rw [this, hg]; exact h4⟩

theorem Exact.run (l : Nat) (localNode bid : String) (cmds : List Cmd)
    (hone : cmds.countP (isArrival bid) ≤ 1) (hnf : cmds.all fun c => !isFailure bid c)
    (hnd : ∀ x ∈ ((sprayStart l localNode).run spray cmds).log, isDirect bid x = false) :
    ∀ c, ((sprayStart l localNode).run spray cmds).core = some c →
      Exact l localNode bid (cmds.countP (isArrival bid)) c ((sprayStart l localNode).run spray cmds).log := by
  induction cmds using List.reverseRecOn with
  | nil =>
    intro c hc
    simp only [Task.run, sprayStart, List.foldl_nil, Option.some.injEq] at hc
    subst hc
    exact ⟨rfl, rfl, fun _ => ⟨rfl, by simp [relays, Task.run, sprayStart]⟩, by simp⟩
  | append_singleton cmds cmd ih =>
    simp only [List.countP_append, List.all_append, Bool.and_eq_true, List.countP_singleton] at hone hnf
    have hcmd : isFailure bid cmd = false := by simpa using hnf.2
    rw [Task.run_append] at hnd ⊢
    change ∀ x ∈ (((sprayStart l localNode).run spray cmds).step spray cmd).log, _ at hnd
    change ∀ c, (((sprayStart l localNode).run spray cmds).step spray cmd).core = _ → Exact _ _ _ _ c
      (((sprayStart l localNode).run spray cmds).step spray cmd).log
    obtain ⟨x, hx⟩ := Task.log_step spray ((sprayStart l localNode).run spray cmds) cmd
    have ih1 := ih (by omega) hnf.1 fun y hy => hnd y (by rw [hx]; exact List.mem_append_left _ hy)
    generalize (sprayStart l localNode).run spray cmds = t at *
    cases hcore : t.core with
    | none =>
      have hs : (t.step spray cmd) = { t with log := t.log ++ [(cmd, none)] } := by
        unfold Task.step; rw [hcore]
      rw [hs]
      intro c hc
      simp only at hc
      rw [hcore] at hc; cases hc
    | some c0 =>
      have hinv := ih1 c0 hcore
      cases cmd with
      | shutdown =>
        have hs : (t.step spray .shutdown) = { core := none, log := t.log ++ [(.shutdown, none)] } := by
          unfold Task.step; rw [hcore]
        rw [hs]
        intro c hc; simp at hc
      | command s =>
        have hs : (t.step spray (.command s)) = { t with log := t.log ++ [(.command s, none)] } := by
          unfold Task.step; rw [hcore]
        rw [hs]
        intro c hc
        simp only at hc
        rw [hcore] at hc; injection hc with hc; subst hc
        simpa [isArrival, List.countP_append] using hinv.keep (.command s, none) rfl rfl rfl rfl
      | notify n =>
        have hs : (t.step spray (.notify n)) = { core := some (c0.notify n), log := t.log ++ [(.notify n, none)] } := by
          unfold Task.step; rw [hcore]; rfl
        rw [hs]
        intro c hc
        simp only [Option.some.injEq] at hc
        subst hc
        rw [List.countP_append, List.countP_singleton]
        have same : isArrival bid (.notify n) = true → c0.notify n = c0.newBundle bid →
            Exact l localNode bid (cmds.countP (isArrival bid) + if isArrival bid (.notify n) = true then 1 else 0)
              (c0.notify n) (t.log ++ [(.notify n, none)]) := by
          intro ha he
          rw [ha] at hone
          simp only [if_true] at hone
          have hz : cmds.countP (isArrival bid) = 0 := by omega
          have hr : relays bid (t.log ++ [(.notify n, none)]) = [] := by
            rw [relays_append, (hinv.fresh hz).2]; rfl
          rw [he, ha]
          refine ⟨hinv.lim, hinv.loc, by simp, fun _ => ⟨{ copies := if startsWith bid c0.localNode then c0.l else 1, nodes := [] }, [], ?_, ?_, hr, rfl⟩⟩
          · simp only [newBundle]
            exact AList.get?_insert_self _ _ _
          · rw [hr]
            simp only [copyBudget, hinv.lim, hinv.loc, List.length_nil, Nat.add_zero]
        cases n with
        | sendingFailed b m =>
          have hb : b ≠ bid := by simpa [isFailure] using hcmd
          have hg : AList.get? (c0.sendingFailed b m).history bid = AList.get? c0.history bid := by
            unfold sendingFailed
            split
            · simp only; rw [AList.get?_insert_of_ne _ _ (Ne.symm hb)]
            · rfl
          have hl : (c0.sendingFailed b m).l = c0.l ∧ (c0.sendingFailed b m).localNode = c0.localNode := by
            unfold sendingFailed; split <;> exact ⟨rfl, rfl⟩
          simp only [isArrival, Bool.false_eq_true, if_false, Nat.add_zero, notify]
          exact hinv.keep _ rfl hl.1 hl.2 hg
        | incomingBundle b =>
          by_cases hb : b.id = bid
          · exact same (by simp [isArrival, hb]) (by simp [notify, hb])
          · simp only [isArrival, hb, decide_false, Bool.false_eq_true, if_false, Nat.add_zero, notify]
            exact hinv.keep _ rfl rfl rfl (by simp only [newBundle]; rw [AList.get?_insert_of_ne _ _ (Ne.symm hb)])
        | incomingBundleWithoutPreviousNode b m =>
          by_cases hb : b = bid
          · exact same (by simp [isArrival, hb]) (by simp [notify, hb])
          · simp only [isArrival, hb, decide_false, Bool.false_eq_true, if_false, Nat.add_zero, notify]
            exact hinv.keep _ rfl rfl rfl (by simp only [newBundle]; rw [AList.get?_insert_of_ne _ _ (Ne.symm hb)])
        | sendingSucceeded b m => exact hinv.keep _ rfl rfl rfl rfl
        | encounteredPeer e => exact hinv.keep _ rfl rfl rfl rfl
        | droppedPeer e => exact hinv.keep _ rfl rfl rfl rfl
      | senderForBundle ps r bp =>
        cases hreq : c0.request ps r bp with
        | none =>
          have hs : (t.step spray (.senderForBundle ps r bp)) =
              { core := none, log := t.log ++ [(.senderForBundle ps r bp, none)] } := by
            unfold Task.step; rw [hcore]; simp only [spray, hreq]
          rw [hs]
          intro c hc; simp at hc
        | some y =>
          obtain ⟨c1, a⟩ := y
          have hs : (t.step spray (.senderForBundle ps r bp)) =
              { core := some c1, log := t.log ++ [(.senderForBundle ps r bp, some a)] } := by
            unfold Task.step; rw [hcore]; simp only [spray, hreq]
          rw [hs] at hnd ⊢
          intro c hc
          simp only [Option.some.injEq] at hc
          subst hc
          have hdir := hnd (.senderForBundle ps r bp, some a) (by simp)
          rw [List.countP_append, List.countP_singleton]
          simp only [isArrival, Bool.false_eq_true, if_false, Nat.add_zero]
          unfold request at hreq
          cases hg : AList.get? c0.history bp.id with
          | none =>
            rw [hg] at hreq
            simp only [Option.some.injEq, Prod.mk.injEq] at hreq
            obtain ⟨rfl, rfl⟩ := hreq
            exact hinv.keep _ (by simp [relaysOf]) rfl rfl rfl
          | some m =>
            rw [hg] at hreq
            simp only at hreq
            cases hl : loop c0.localNode bp r ps m { clas := [], delete := false } with
            | none => rw [hl] at hreq; simp at hreq
            | some z =>
              obtain ⟨m', a'⟩ := z
              rw [hl] at hreq
              simp only [Option.some.injEq, Prod.mk.injEq] at hreq
              obtain ⟨rfl, rfl⟩ := hreq
              by_cases hb : bp.id = bid
              · subst hb
                simp only [isDirect, decide_true, Bool.true_and] at hdir
                obtain ⟨new, e1, e2, e3, e4, e5⟩ := loop_spec _ _ _ _ _ _ _ _ hl
                have e6 := (e5 hdir).2
                have hr : relays bp.id (t.log ++ [(Cmd.senderForBundle ps r bp, some a')]) = relays bp.id t.log ++ new.map some := by
                  rw [relays_append]
                  simp only [relays, List.flatMap_cons, List.flatMap_nil, relaysOf, hdir, and_self, if_true, List.append_nil, e6, List.map_nil, List.nil_append]
                refine ⟨hinv.lim, hinv.loc, fun hz => ?_, fun ho => ?_⟩
                · rw [(hinv.fresh hz).1] at hg; cases hg
                · obtain ⟨m1, rs, g1, g2, g3, g4⟩ := hinv.present ho
                  rw [hg] at g1
                  cases g1
                  refine ⟨m', rs ++ new, AList.get?_insert_self _ _ _, ?_, ?_, ?_⟩
                  · rw [hr, List.length_append, List.length_map]; omega
                  · rw [hr, g3, List.map_append]
                  · rw [e1, g4, List.map_append]
              · exact hinv.keep _ (by simp [relaysOf, hb]) rfl rfl (by
                  simp only; rw [AList.get?_insert_of_ne _ _ (Ne.symm hb)])

theorem cand_unserved (localNode bid : String) (log : List (Cmd × Option Answer)) (r : List Cla) (ps : List Peer) (rs : List NodeId)
    (hrs : relays bid log = rs.map Option.some) (hps : ∀ p ∈ ps, ∃ n, p.eid.nodeId = some n) :
    cand localNode r (rs.map NodeId.print) ps = unserved localNode bid log r ps := by
  classical
  unfold cand unserved
  apply List.filter_congr
  intro p hp
  obtain ⟨n, hn⟩ := hps p hp
  rw [hn, Bool.eq_iff_iff]
  have h1 : n.print ∈ rs.map NodeId.print ↔ n ∈ rs :=
    ⟨fun h => by obtain ⟨q, hq, e⟩ := List.mem_map.mp h; exact print_inj e ▸ hq, fun h => List.mem_map.mpr ⟨n, h, rfl⟩⟩
  simp only [Bool.and_eq_true, decide_eq_true_eq, Peer.firstCla_isSome_iff, hrs, h1, Bool.not_eq_true', Bool.or_eq_false_iff, decide_eq_false_iff_not,
    Option.some.injEq, forall_eq', List.mem_map, exists_eq_right]

end Dtn.Routing.Spray
