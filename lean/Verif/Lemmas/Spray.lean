import Verif.Spec.Spray
import Verif.Lemmas.Peer
import Mathlib.Data.List.Induction
import Mathlib.Data.List.Nodup
import Std.Data.String.ToNat
/-! Lemmas about spray and wait routing. -/

namespace Dtn.Routing
open Dtn Spec

theorem Task.run_append {σ : Type} (ag : Agent σ) (t : Task σ) (l1 l2 : List Cmd) :
    t.run ag (l1 ++ l2) = (t.run ag l1).run ag l2 := by simp [Task.run, List.foldl_append]

theorem Task.log_step {σ : Type} (ag : Agent σ) (t : Task σ) (cmd : Cmd) :
    ∃ a, (t.step ag cmd).log = t.log ++ [(cmd, a)] := by
  unfold Task.step
  split
  · split <;> exact ⟨_, rfl⟩
  · exact ⟨_, rfl⟩
  · exact ⟨_, rfl⟩
  · exact ⟨_, rfl⟩

theorem Task.log_run {σ : Type} (ag : Agent σ) (t : Task σ) (cmds : List Cmd) :
    (t.run ag cmds).log.map Prod.fst = t.log.map Prod.fst ++ cmds := by
  induction cmds generalizing t with
  | nil => simp [Task.run]
  | cons c cmds ih =>
    show ((t.step ag c).run ag cmds).log.map Prod.fst = _
    rw [ih]
    obtain ⟨a, ha⟩ := Task.log_step ag t c
    rw [ha]; simp

theorem relays_append (bid : String) (l1 l2 : List (Cmd × Option Answer)) :
    relays bid (l1 ++ l2) = relays bid l1 ++ relays bid l2 := by simp [relays]

namespace Spray

theorem isInfix_append (pat a b : List Char) : isInfix pat (a ++ pat ++ b) = true := by
  induction a with
  | nil =>
    simp only [List.nil_append]
    cases h : pat ++ b with
    | nil => simp only [List.append_eq_nil_iff] at h; simp [isInfix, h.1]
    | cons c s =>
      unfold isInfix
      rw [← h, List.isPrefixOf_iff_prefix.2 (List.prefix_append pat b)]; rfl
  | cons x a ih => simp only [List.cons_append, isInfix]; simp only [List.append_assoc] at ih ⊢; rw [ih]; simp

/-- What the loop does to the copies, the record and an answer that is not a direct delivery. -/
theorem loop_spec (localNode : String) (bp : Pack) (running : List Cla) (ps : List Peer) (m : SawData) (a : Answer)
    (m' : SawData) (a' : Answer) (h : loop localNode bp running ps m a = some (m', a')) :
    ∃ new : List NodeId,
      m'.nodes = m.nodes ++ new.map NodeId.print ∧ m'.copies + new.length = m.copies ∧
      (new ≠ [] → 1 ≤ m'.copies) ∧
      (m.nodes.Nodup → m'.nodes.Nodup) ∧
      (a'.delete = false → a.delete = false ∧
        a'.clas.map (fun s => s.nextHop.nodeId) = a.clas.map (fun s => s.nextHop.nodeId) ++ new.map some) := by
  induction ps generalizing m a with
  | nil =>
    simp only [loop, Option.some.injEq, Prod.mk.injEq] at h
    obtain ⟨rfl, rfl⟩ := h
    exact ⟨[], by simp, by simp, by simp, fun h => h, fun h => ⟨h, by simp⟩⟩
  | cons p ps ih =>
    unfold loop at h
    cases hn : p.eid.nodeId with
    | none => rw [hn] at h; simp at h
    | some nid =>
      rw [hn] at h
      simp only at h
      split at h
      · exact ih m a h
      · rename_i hskip
        split at h
        · cases hd : bp.destination.node with
          | none => rw [hd] at h; simp at h
          | some d =>
            rw [hd] at h
            simp only at h
            split at h
            · cases hf : p.firstCla running with
              | none => rw [hf] at h; exact ih m a h
              | some cla =>
                rw [hf] at h
                obtain ⟨new, h1, h2, h3, h4, h5⟩ := ih m _ h
                refine ⟨new, h1, h2, h3, h4, ?_⟩
                intro hdel
                have := (h5 hdel).1
                simp at this
            · exact ih m a h
        · rename_i hcop
          cases hf : p.firstCla running with
          | none => rw [hf] at h; exact ih m a h
          | some cla =>
            rw [hf] at h
            obtain ⟨new, h1, h2, h3, h4, h5⟩ := ih _ _ h
            simp only at h1 h2 h4 h5
            refine ⟨nid :: new, ?_, ?_, ?_, ?_, ?_⟩
            · rw [h1]; simp
            · simp only [List.length_cons]; omega
            · intro _
              by_cases hnew : new = []
              · subst hnew; simp only [List.length_nil, Nat.add_zero] at h2; omega
              · exact h3 hnew
            · intro hnd
              apply h4
              rw [List.nodup_append]
              refine ⟨hnd, by simp, ?_⟩
              intro x hx y hy
              simp only [List.mem_singleton] at hy
              subst hy
              rintro rfl
              simp [hx] at hskip
            · intro hdel
              obtain ⟨h6, h7⟩ := h5 hdel
              refine ⟨h6, ?_⟩
              rw [h7, List.map_append, List.map_cons, List.map_cons, List.map_nil, Peer.firstCla_nextHop hf, hn]
              simp

/-- Every task of the answer goes to a peer; a direct delivery has one task, to the destination. -/
theorem loop_direct (localNode : String) (bp : Pack) (running : List Cla) (all ps : List Peer) (m : SawData) (a : Answer)
    (m' : SawData) (a' : Answer) (hsub : ∀ p ∈ ps, p ∈ all) (hm : a.delete = true → m.copies < 2)
    (hP : a.delete = true → ∃ p ∈ all, ∃ s, bp.destination.node = some p.nodeName ∧ SendsTo running p s ∧ a.clas = [s])
    (hS : ∀ s ∈ a.clas, ∃ p ∈ all, SendsTo running p s)
    (h : loop localNode bp running ps m a = some (m', a')) :
    (a'.delete = true → ∃ p ∈ all, ∃ s, bp.destination.node = some p.nodeName ∧ SendsTo running p s ∧ a'.clas = [s]) ∧
    (∀ s ∈ a'.clas, ∃ p ∈ all, SendsTo running p s) := by
  induction ps generalizing m a with
  | nil =>
    simp only [loop, Option.some.injEq, Prod.mk.injEq] at h
    obtain ⟨rfl, rfl⟩ := h
    exact ⟨hP, hS⟩
  | cons p ps ih =>
    have hsub' : ∀ q ∈ ps, q ∈ all := fun q hq => hsub q (List.mem_cons_of_mem _ hq)
    have hp : p ∈ all := hsub p (by simp)
    unfold loop at h
    cases hn : p.eid.nodeId with
    | none => rw [hn] at h; simp at h
    | some nid =>
      rw [hn] at h
      simp only at h
      split at h
      · exact ih m a hsub' hm hP hS h
      · split at h
        · rename_i hcop
          cases hd : bp.destination.node with
          | none => rw [hd] at h; simp at h
          | some d =>
            rw [hd] at h
            simp only at h
            split at h
            · rename_i hdp
              cases hf : p.firstCla running with
              | none => rw [hf] at h; exact hd ▸ ih m a hsub' hm hP hS h
              | some cla =>
                rw [hf] at h
                refine hd ▸ ih m _ hsub' (fun _ => hcop) ?_ ?_ h
                · intro _
                  exact ⟨p, hp, cla, by rw [hd, hdp], Peer.firstCla_sendsTo hf, rfl⟩
                · intro s hs
                  simp only [List.mem_singleton] at hs
                  subst hs
                  exact ⟨p, hp, Peer.firstCla_sendsTo hf⟩
            · exact hd ▸ ih m a hsub' hm hP hS h
        · rename_i hcop
          cases hf : p.firstCla running with
          | none => rw [hf] at h; exact ih m a hsub' hm hP hS h
          | some cla =>
            rw [hf] at h
            simp only at h
            have hnd : ¬ a.delete = true := fun hd => hcop (hm hd)
            refine ih _ { a with clas := a.clas ++ [cla] } hsub' (fun hd => absurd hd hnd) (fun hd => absurd hd hnd) ?_ h
            intro s hs
            simp only [List.mem_append, List.mem_singleton] at hs
            rcases hs with hs | rfl
            · exact hS s hs
            · exact ⟨p, hp, Peer.firstCla_sendsTo hf⟩

theorem print_inj {a b : NodeId} (h : a.print = b.print) : a = b := by
  cases a with
  | dtn n =>
    cases b with
    | dtn m =>
      simp only [NodeId.print] at h
      have h' := congrArg String.toList h
      simp only [String.toList_append] at h'
      have := List.append_cancel_left (List.append_cancel_right h')
      rw [String.toList_inj] at this
      rw [this]
    | ipn m =>
      have h' := congrArg String.toList h
      simp only [NodeId.print, String.toList_append] at h'
      have h1 : (("dtn://".toList ++ n.toList) ++ "/".toList).head? = some 'd' := rfl
      have h2 : (("ipn:".toList ++ (toString m).toList) ++ ".0".toList).head? = some 'i' := rfl
      rw [h', h2] at h1
      simp at h1
  | ipn n =>
    cases b with
    | dtn m =>
      have h' := congrArg String.toList h
      simp only [NodeId.print, String.toList_append] at h'
      have h1 : (("dtn://".toList ++ m.toList) ++ "/".toList).head? = some 'd' := rfl
      have h2 : (("ipn:".toList ++ (toString n).toList) ++ ".0".toList).head? = some 'i' := rfl
      rw [← h', h2] at h1
      simp at h1
    | ipn m =>
      simp only [NodeId.print] at h
      have h' := congrArg String.toList h
      simp only [String.toList_append] at h'
      have := List.append_cancel_left (List.append_cancel_right h')
      rw [String.toList_inj] at this
      rw [Nat.repr_inj.1 this]

/-- The record of a bundle while its transfers do not fail and it arrives once. -/
structure Inv (l : Nat) (localNode bid : String) (arrivals : Nat) (c : Spray) (log : List (Cmd × Option Answer)) :
    Prop where
  lim : c.l = l
  loc : c.localNode = localNode
  fresh : arrivals = 0 → AList.get? c.history bid = none
  absent : AList.get? c.history bid = none → relays bid log = []
  present : ∀ m, AList.get? c.history bid = some m →
    m.copies + (relays bid log).length ≤ copyBudget l localNode bid ∧
    (m.copies = 0 → relays bid log = []) ∧ m.nodes.Nodup ∧
    ∃ rs : List NodeId, relays bid log = rs.map Option.some ∧ (rs.map NodeId.print).Sublist m.nodes

theorem Inv.keep {l : Nat} {localNode bid : String} {k : Nat} {c : Spray} {log : List (Cmd × Option Answer)}
    (h : Inv l localNode bid k c log) (x : Cmd × Option Answer) (hx : relaysOf bid x = []) :
    Inv l localNode bid k c (log ++ [x]) := by
  have : relays bid (log ++ [x]) = relays bid log := by rw [relays_append]; simp [relays, hx]
  obtain ⟨h1, h2, h3, h4, h5⟩ := h
  exact ⟨h1, h2, h3, by rw [this]; exact h4, by rw [this]; exact h5⟩

theorem Inv.run (l : Nat) (localNode bid : String) (cmds : List Cmd)
    (hone : cmds.countP (isArrival bid) ≤ 1) (hnf : cmds.all fun c => !isFailure bid c) :
    (∀ c, ((sprayStart l localNode).run spray cmds).core = some c →
      Inv l localNode bid (cmds.countP (isArrival bid)) c ((sprayStart l localNode).run spray cmds).log) ∧
    (relays bid ((sprayStart l localNode).run spray cmds).log).length ≤ copyBudget l localNode bid - 1 ∧
    (relays bid ((sprayStart l localNode).run spray cmds).log).Nodup := by
  have bound : ∀ k c log, Inv l localNode bid k c log →
      (relays bid log).length ≤ copyBudget l localNode bid - 1 ∧ (relays bid log).Nodup := by
    intro k c log hinv
    cases hg : AList.get? c.history bid with
    | none => rw [hinv.absent hg]; simp
    | some m =>
      obtain ⟨h1, h2, h3, rs, h4, h5⟩ := hinv.present m hg
      refine ⟨?_, ?_⟩
      · by_cases hc : m.copies = 0
        · rw [h2 hc]; simp
        · omega
      · rw [h4]
        have : (rs.map NodeId.print).Nodup := List.Nodup.sublist h5 h3
        have h6 : rs.Nodup := List.Nodup.of_map _ this
        exact List.Pairwise.map _ (fun a b hab h => hab (Option.some.inj h)) h6
  induction cmds using List.reverseRecOn with
  | nil =>
    refine ⟨?_, by simp [Task.run, sprayStart, relays], by simp [Task.run, sprayStart, relays]⟩
    intro c hc
    simp only [Task.run, sprayStart, List.foldl_nil, Option.some.injEq] at hc
    subst hc
    exact ⟨rfl, rfl, fun _ => rfl, fun _ => by simp [relays, Task.run, sprayStart], fun m hm => by simp [AList.get?] at hm⟩
  | append_singleton cmds cmd ih =>
    simp only [List.countP_append, List.all_append, Bool.and_eq_true, List.countP_singleton] at hone hnf
    obtain ⟨ih1, ih2, ih3⟩ := ih (by omega) hnf.1
    have hcmd : isFailure bid cmd = false := by simpa using hnf.2
    rw [Task.run_append]
    change (∀ c, (((sprayStart l localNode).run spray cmds).step spray cmd).core = _ → Inv _ _ _ _ c
      (((sprayStart l localNode).run spray cmds).step spray cmd).log) ∧
      (relays bid (((sprayStart l localNode).run spray cmds).step spray cmd).log).length ≤ _ ∧
      (relays bid (((sprayStart l localNode).run spray cmds).step spray cmd).log).Nodup
    generalize (sprayStart l localNode).run spray cmds = t at *
    cases hcore : t.core with
    | none =>
      have hs : (t.step spray cmd) = { t with log := t.log ++ [(cmd, none)] } := by
        unfold Task.step; rw [hcore]
      have : relays bid (t.log ++ [(cmd, none)]) = relays bid t.log := by
        rw [relays_append]; cases cmd <;> simp [relays, relaysOf]
      rw [hs]
      refine ⟨?_, by rw [this]; exact ih2, by rw [this]; exact ih3⟩
      intro c hc
      simp only at hc
      rw [hcore] at hc; cases hc
    | some c0 =>
      have hinv := ih1 c0 hcore
      cases cmd with
      | shutdown =>
        have hs : (t.step spray .shutdown) = { core := none, log := t.log ++ [(.shutdown, none)] } := by
          unfold Task.step; rw [hcore]
        rw [hs]
        have := bound _ _ _ (hinv.keep (.shutdown, none) rfl)
        exact ⟨by intro c hc; simp at hc, this⟩
      | command s =>
        have hs : (t.step spray (.command s)) = { t with log := t.log ++ [(.command s, none)] } := by
          unfold Task.step; rw [hcore]
        rw [hs]
        have h2 := hinv.keep (.command s, none) rfl
        refine ⟨?_, bound _ _ _ h2⟩
        intro c hc
        simp only at hc
        rw [hcore] at hc; injection hc with hc; subst hc
        simpa [isArrival] using h2
      | notify n =>
        have hs : (t.step spray (.notify n)) = { core := some (c0.notify n), log := t.log ++ [(.notify n, none)] } := by
          unfold Task.step; rw [hcore]; rfl
        have h2 := hinv.keep (.notify n, none) rfl
        have h3 : Inv l localNode bid (cmds.countP (isArrival bid) + if isArrival bid (.notify n) = true then 1 else 0)
            (c0.notify n) (t.log ++ [(.notify n, none)]) := by
          have other : ∀ b, b ≠ bid → isArrival bid (.notify n) = false → c0.notify n = c0.newBundle b →
              Inv l localNode bid (cmds.countP (isArrival bid) + if isArrival bid (.notify n) = true then 1 else 0)
                (c0.notify n) (t.log ++ [(.notify n, none)]) := by
            intro b hb ha he
            rw [he, ha]
            obtain ⟨g1, g2, g3, g4, g5⟩ := h2
            have hg : AList.get? (c0.newBundle b).history bid = AList.get? c0.history bid := by
              simp only [newBundle]; rw [AList.get?_insert_of_ne _ _ (Ne.symm hb)]
            refine ⟨g1, g2, ?_, ?_, ?_⟩
            · rw [hg]; simpa using g3
            · rw [hg]; exact g4
            · rw [hg]; exact g5
          have same : isArrival bid (.notify n) = true → c0.notify n = c0.newBundle bid →
              Inv l localNode bid (cmds.countP (isArrival bid) + if isArrival bid (.notify n) = true then 1 else 0)
                (c0.notify n) (t.log ++ [(.notify n, none)]) := by
            intro ha he
            rw [ha] at hone
            simp only [if_true] at hone
            have hz : cmds.countP (isArrival bid) = 0 := by omega
            have hr : relays bid (t.log ++ [(.notify n, none)]) = [] := h2.absent (h2.fresh hz)
            rw [he, ha]
            refine ⟨h2.lim, h2.loc, by simp, fun _ => hr, ?_⟩
            intro m hm
            simp only [newBundle, AList.get?_insert_self, Option.some.injEq] at hm
            subst hm
            rw [hr]
            refine ⟨?_, fun _ => rfl, by simp, [], rfl, by simp⟩
            simp only [copyBudget, h2.lim, h2.loc, List.length_nil, Nat.add_zero, Nat.le_refl]
          cases n with
          | sendingFailed b m =>
            have hb : b ≠ bid := by simpa [isFailure] using hcmd
            have hg : AList.get? (c0.sendingFailed b m).history bid = AList.get? c0.history bid := by
              unfold sendingFailed
              split
              · simp only; rw [AList.get?_insert_of_ne _ _ (Ne.symm hb)]
              · rfl
            have hl : (c0.sendingFailed b m).l = c0.l ∧ (c0.sendingFailed b m).localNode = c0.localNode := by
              unfold sendingFailed; split <;> exact ⟨rfl, rfl⟩
            obtain ⟨g1, g2, g3, g4, g5⟩ := h2
            simp only [isArrival, Bool.false_eq_true, if_false, Nat.add_zero, notify]
            exact ⟨hl.1.trans g1, hl.2.trans g2, by rw [hg]; exact g3, by rw [hg]; exact g4, by rw [hg]; exact g5⟩
          | incomingBundle b =>
            by_cases hb : b.id = bid
            · exact same (by simp [isArrival, hb]) (by simp [notify, hb])
            · exact other b.id hb (by simp [isArrival, hb]) rfl
          | incomingBundleWithoutPreviousNode b m =>
            by_cases hb : b = bid
            · exact same (by simp [isArrival, hb]) (by simp [notify, hb])
            · exact other b hb (by simp [isArrival, hb]) rfl
          | sendingSucceeded b m => simpa [isArrival, notify] using h2
          | encounteredPeer e => simpa [isArrival, notify] using h2
          | droppedPeer e => simpa [isArrival, notify] using h2
        rw [hs]
        refine ⟨?_, bound _ _ _ h3⟩
        intro c hc
        simp only [Option.some.injEq] at hc
        subst hc
        simpa [List.countP_append, List.countP_singleton] using h3
      | senderForBundle ps r bp =>
        cases hreq : c0.request ps r bp with
        | none =>
          have hs : (t.step spray (.senderForBundle ps r bp)) =
              { core := none, log := t.log ++ [(.senderForBundle ps r bp, none)] } := by
            unfold Task.step; rw [hcore]; simp only [spray, hreq]
          rw [hs]
          exact ⟨by intro c hc; simp at hc, bound _ _ _ (hinv.keep _ rfl)⟩
        | some y =>
          obtain ⟨c1, a⟩ := y
          have hs : (t.step spray (.senderForBundle ps r bp)) =
              { core := some c1, log := t.log ++ [(.senderForBundle ps r bp, some a)] } := by
            unfold Task.step; rw [hcore]; simp only [spray, hreq]
          rw [hs]
          have h3 : Inv l localNode bid (cmds.countP (isArrival bid)) c1
              (t.log ++ [(.senderForBundle ps r bp, some a)]) := by
            unfold request at hreq
            cases hg : AList.get? c0.history bp.id with
            | none =>
              rw [hg] at hreq
              simp only [Option.some.injEq, Prod.mk.injEq] at hreq
              obtain ⟨rfl, rfl⟩ := hreq
              exact hinv.keep _ (by simp [relaysOf])
            | some m =>
              rw [hg] at hreq
              simp only at hreq
              cases hl : loop c0.localNode bp r ps m { clas := [], delete := false } with
              | none => rw [hl] at hreq; simp at hreq
              | some z =>
                obtain ⟨m', a'⟩ := z
                rw [hl] at hreq
                simp only [Option.some.injEq, Prod.mk.injEq] at hreq
                obtain ⟨rfl, rfl⟩ := hreq
                by_cases hb : bp.id = bid
                · obtain ⟨new, e1, e2, e3, e4, e5⟩ := loop_spec _ _ _ _ _ _ _ _ hl
                  subst hb
                  obtain ⟨g1, g2, g3, rs, g4, g5⟩ := hinv.present m hg
                  refine ⟨hinv.lim, hinv.loc, ?_, ?_, ?_⟩
                  · intro hz; have := hinv.fresh hz; rw [hg] at this; cases this
                  · intro hn; simp only [AList.get?_insert_self, reduceCtorEq] at hn
                  · intro m2 hm2
                    simp only [AList.get?_insert_self, Option.some.injEq] at hm2
                    subst hm2
                    rw [relays_append]
                    have hone' : relays bp.id [(Cmd.senderForBundle ps r bp, Option.some a')] =
                        if a'.delete = false then new.map Option.some else [] := by
                      simp only [relays, relaysOf, List.flatMap_cons, List.flatMap_nil, List.append_nil, true_and]
                      by_cases hdel : a'.delete = false
                      · rw [if_pos hdel, if_pos hdel, (e5 hdel).2]; simp
                      · rw [if_neg hdel, if_neg hdel]
                    rw [hone']
                    by_cases hdel : a'.delete = false
                    · rw [if_pos hdel]
                      refine ⟨?_, ?_, e4 g3, rs ++ new, ?_, ?_⟩
                      · simp only [List.length_append, List.length_map]; omega
                      · intro hz
                        have hn : new = [] := by
                          apply Classical.byContradiction; intro h; have := e3 h; omega
                        subst hn
                        simp only [List.length_nil, Nat.add_zero] at e2
                        rw [g2 (by omega)]; rfl
                      · rw [g4]; simp
                      · rw [e1, List.map_append]; exact List.Sublist.append g5 (List.Sublist.refl _)
                    · rw [if_neg hdel, List.append_nil]
                      refine ⟨by omega, ?_, e4 g3, rs, g4, ?_⟩
                      · intro hz
                        have hn : new = [] := by
                          apply Classical.byContradiction; intro h; have := e3 h; omega
                        subst hn
                        simp only [List.length_nil, Nat.add_zero] at e2
                        exact g2 (by omega)
                      · rw [e1]; exact g5.trans (List.sublist_append_left _ _)
                · have hk := hinv.keep (.senderForBundle ps r bp, some a') (by simp [relaysOf, hb])
                  obtain ⟨g1, g2, g3, g4, g5⟩ := hk
                  have hg' : AList.get? (AList.insert c0.history bp.id m') bid = AList.get? c0.history bid := by
                    rw [AList.get?_insert_of_ne _ _ (fun h => hb h.symm)]
                  exact ⟨g1, g2, by simp only; rw [hg']; exact g3, by simp only; rw [hg']; exact g4,
                    by simp only; rw [hg']; exact g5⟩
          refine ⟨?_, bound _ _ _ h3⟩
          intro c hc
          simp only [Option.some.injEq] at hc
          subst hc
          simpa [List.countP_append, List.countP_singleton, isArrival] using h3

end Spray
end Dtn.Routing
