import Verif.Lemmas.SprayExact
/-! Lemmas about spray and wait routing: copies that come back. -/

namespace Dtn.Routing.Spray
open Dtn Spec

theorem failures_other {bid : String} {cmds : List Cmd} {c : Cmd} (h : isFailure bid c = false) : failures bid (cmds ++ [c]) = failures bid cmds := by
  unfold failures
  rw [List.dropWhile_append]
  split
  · rename_i he
    rw [List.isEmpty_iff.mp he, List.dropWhile_cons]
    split <;> simp [h]
  · rw [List.countP_append]; simp [h]

theorem dropWhile_nil {α : Type} {q : α → Bool} {l : List α} : l.dropWhile q = [] ↔ ∀ x ∈ l, q x = true := by
  induction l with
  | nil => simp
  | cons x l ih => rw [List.dropWhile_cons]; split <;> simp_all

theorem failures_none {bid : String} {cmds : List Cmd} (h : cmds.countP (isArrival bid) = 0) : failures bid cmds = 0 := by
  unfold failures
  rw [List.countP_eq_zero] at h
  rw [dropWhile_nil.mpr fun x hx => by simpa using h x hx]
  rfl

theorem failures_first {bid : String} {cmds : List Cmd} (h : cmds.countP (isArrival bid) = 0) {n : Notification} (ha : isArrival bid (.notify n) = true) :
    failures bid (cmds ++ [.notify n]) = 0 := by
  rw [failures_other, failures_none h]
  cases n <;> first | rfl | cases ha

theorem failures_failed {bid : String} {cmds : List Cmd} (h : cmds.countP (isArrival bid) ≠ 0) {c : Cmd} (hc : isFailure bid c = true) :
    failures bid (cmds ++ [c]) = failures bid cmds + 1 := by
  unfold failures
  rw [List.dropWhile_append]
  split
  · rename_i he
    refine absurd (List.countP_eq_zero.mpr fun x hx => ?_) h
    simpa using dropWhile_nil.mp (List.isEmpty_iff.mp he) x hx
  · rw [List.countP_append]; simp [hc]

/-- What is recorded of a bundle that was announced at most once and not delivered, whatever transfers failed. -/
structure Loose (l : Nat) (localNode bid : String) (arrivals failed : Nat) (c : Spray) (log : List (Cmd × Option Answer)) : Prop where
  lim : c.l = l
  loc : c.localNode = localNode
  fresh : arrivals = 0 → AList.get? c.history bid = none ∧ relays bid log = []
  present : arrivals = 1 → ∃ (m : SawData) (rs : List NodeId), AList.get? c.history bid = some m ∧
    m.copies + (relays bid log).length = copyBudget l localNode bid + failed ∧
    relays bid log = rs.map Option.some ∧ ∀ x ∈ m.nodes, x ∈ rs.map NodeId.print

theorem Loose.keep {l : Nat} {localNode bid : String} {k f : Nat} {c c' : Spray} {log : List (Cmd × Option Answer)}
    (h : Loose l localNode bid k f c log) (x : Cmd × Option Answer) (hx : relaysOf bid x = []) (hl : c'.l = c.l) (hn : c'.localNode = c.localNode)
    (hg : AList.get? c'.history bid = AList.get? c.history bid) : Loose l localNode bid k f c' (log ++ [x]) := by
  have : relays bid (log ++ [x]) = relays bid log := by rw [relays_append]; simp [relays, hx]
  obtain ⟨h1, h2, h3, h4⟩ := h
  exact ⟨hl.trans h1, hn.trans h2, by rw [this, hg]; exact h3, by rw [this, hg]; exact h4⟩

theorem Loose.run (l : Nat) (localNode bid : String) (cmds : List Cmd)
    (hone : cmds.countP (isArrival bid) ≤ 1)
    (hnd : ∀ x ∈ ((sprayStart l localNode).run spray cmds).log, isDirect bid x = false) :
    ∀ c, ((sprayStart l localNode).run spray cmds).core = some c →
      Loose l localNode bid (cmds.countP (isArrival bid)) (failures bid cmds) c ((sprayStart l localNode).run spray cmds).log := by
  induction cmds using List.reverseRecOn with
  | nil =>
    intro c hc
    simp only [Task.run, sprayStart, List.foldl_nil, Option.some.injEq] at hc
    subst hc
    exact ⟨rfl, rfl, fun _ => ⟨rfl, by simp [relays, Task.run, sprayStart]⟩, by simp⟩
  | append_singleton cmds cmd ih =>
    simp only [List.countP_append, List.countP_singleton] at hone
    rw [Task.run_append] at hnd ⊢
    change ∀ x ∈ (((sprayStart l localNode).run spray cmds).step spray cmd).log, _ at hnd
    change ∀ c, (((sprayStart l localNode).run spray cmds).step spray cmd).core = _ → Loose _ _ _ _ _ c
      (((sprayStart l localNode).run spray cmds).step spray cmd).log
    obtain ⟨x, hx⟩ := Task.log_step spray ((sprayStart l localNode).run spray cmds) cmd
    have ih1 := ih (by omega) fun y hy => hnd y (by rw [hx]; exact List.mem_append_left _ hy)
    generalize (sprayStart l localNode).run spray cmds = t at *
    cases hcore : t.core with
    | none =>
      have hs : (t.step spray cmd) = { t with log := t.log ++ [(cmd, none)] } := by
        unfold Task.step; rw [hcore]
      rw [hs]
      intro c hc
      simp only at hc
      rw [hcore] at hc; cases hc
    | some c0 =>
      have hinv := ih1 c0 hcore
      cases cmd with
      | shutdown =>
        have hs : (t.step spray .shutdown) = { core := none, log := t.log ++ [(.shutdown, none)] } := by
          unfold Task.step; rw [hcore]
        rw [hs]
        intro c hc; simp at hc
      | command s =>
        have hs : (t.step spray (.command s)) = { t with log := t.log ++ [(.command s, none)] } := by
          unfold Task.step; rw [hcore]
        rw [hs]
        intro c hc
        simp only at hc
        rw [hcore] at hc; injection hc with hc; subst hc
        rw [List.countP_append, List.countP_singleton, failures_other (by rfl)]
        exact hinv.keep _ rfl rfl rfl rfl
      | notify n =>
        have hs : (t.step spray (.notify n)) = { core := some (c0.notify n), log := t.log ++ [(.notify n, none)] } := by
          unfold Task.step; rw [hcore]; rfl
        rw [hs]
        intro c hc
        simp only [Option.some.injEq] at hc
        subst hc
        rw [List.countP_append, List.countP_singleton]
        have same : isArrival bid (Cmd.notify n) = true → c0.notify n = c0.newBundle bid →
            Loose l localNode bid (cmds.countP (isArrival bid) + if isArrival bid (.notify n) = true then 1 else 0)
              (failures bid (cmds ++ [Cmd.notify n])) (c0.notify n) (t.log ++ [(.notify n, none)]) := by
          intro ha he
          rw [ha] at hone
          simp only [if_true] at hone
          have hz : cmds.countP (isArrival bid) = 0 := by omega
          have hr : relays bid (t.log ++ [(.notify n, none)]) = [] := by
            rw [relays_append, (hinv.fresh hz).2]; rfl
          rw [he, ha, failures_first hz ha]
          refine ⟨hinv.lim, hinv.loc, by simp, fun _ => ⟨{ copies := if startsWith bid c0.localNode then c0.l else 1, nodes := [] }, [], ?_, ?_, hr, by simp⟩⟩
          · simp only [newBundle]
            exact AList.get?_insert_self _ _ _
          · rw [hr]
            simp only [copyBudget, hinv.lim, hinv.loc, List.length_nil, Nat.add_zero]
        cases n with
        | sendingFailed b m =>
          by_cases hb : b = bid
          · subst hb
            simp only [isArrival, Bool.false_eq_true, if_false, Nat.add_zero, notify]
            have hr : relays b (t.log ++ [(.notify (.sendingFailed b m), none)]) = relays b t.log := by
              rw [relays_append]; simp [relays, relaysOf]
            have hl : (c0.sendingFailed b m).l = c0.l ∧ (c0.sendingFailed b m).localNode = c0.localNode := by
              unfold sendingFailed; split <;> exact ⟨rfl, rfl⟩
            refine ⟨hl.1.trans hinv.lim, hl.2.trans hinv.loc, fun hz => ?_, fun ho => ?_⟩
            · rw [hr]
              obtain ⟨g1, g2⟩ := hinv.fresh hz
              refine ⟨?_, g2⟩
              unfold sendingFailed
              rw [g1]
              exact g1
            · obtain ⟨m1, rs, g1, g2, g3, g4⟩ := hinv.present ho
              rw [hr, failures_failed (by omega) (by simp [isFailure])]
              refine ⟨{ copies := m1.copies + 1, nodes := m1.nodes.filter fun nn => isInfix m.toList nn.toList }, rs, ?_, ?_, g3, ?_⟩
              · unfold sendingFailed
                rw [g1]
                exact AList.get?_insert_self _ _ _
              · dsimp only; omega
              · exact fun x hx => g4 x (List.mem_filter.mp hx).1
          · have hg : AList.get? (c0.sendingFailed b m).history bid = AList.get? c0.history bid := by
              unfold sendingFailed
              split
              · simp only; rw [AList.get?_insert_of_ne _ _ (Ne.symm hb)]
              · rfl
            have hl : (c0.sendingFailed b m).l = c0.l ∧ (c0.sendingFailed b m).localNode = c0.localNode := by
              unfold sendingFailed; split <;> exact ⟨rfl, rfl⟩
            simp only [isArrival, Bool.false_eq_true, if_false, Nat.add_zero, notify]
            rw [failures_other (by simp [isFailure, hb])]
            exact hinv.keep _ rfl hl.1 hl.2 hg
        | incomingBundle b =>
          by_cases hb : b.id = bid
          · exact same (by simp [isArrival, hb]) (by simp [notify, hb])
          · simp only [isArrival, hb, decide_false, Bool.false_eq_true, if_false, Nat.add_zero, notify]
            rw [failures_other (by rfl)]
            exact hinv.keep _ rfl rfl rfl (by simp only [newBundle]; rw [AList.get?_insert_of_ne _ _ (Ne.symm hb)])
        | incomingBundleWithoutPreviousNode b m =>
          by_cases hb : b = bid
          · exact same (by simp [isArrival, hb]) (by simp [notify, hb])
          · simp only [isArrival, hb, decide_false, Bool.false_eq_true, if_false, Nat.add_zero, notify]
            rw [failures_other (by rfl)]
            exact hinv.keep _ rfl rfl rfl (by simp only [newBundle]; rw [AList.get?_insert_of_ne _ _ (Ne.symm hb)])
        | sendingSucceeded b m =>
          rw [failures_other (by rfl)]
          exact hinv.keep _ rfl rfl rfl rfl
        | encounteredPeer e =>
          rw [failures_other (by rfl)]
          exact hinv.keep _ rfl rfl rfl rfl
        | droppedPeer e =>
          rw [failures_other (by rfl)]
          exact hinv.keep _ rfl rfl rfl rfl
      | senderForBundle ps r bp =>
        cases hreq : c0.request ps r bp with
        | none =>
          have hs : (t.step spray (.senderForBundle ps r bp)) =
              { core := none, log := t.log ++ [(.senderForBundle ps r bp, none)] } := by
            unfold Task.step; rw [hcore]; simp only [spray, hreq]
          rw [hs]
          intro c hc; simp at hc
        | some y =>
          obtain ⟨c1, a⟩ := y
          have hs : (t.step spray (.senderForBundle ps r bp)) =
              { core := some c1, log := t.log ++ [(.senderForBundle ps r bp, some a)] } := by
            unfold Task.step; rw [hcore]; simp only [spray, hreq]
          rw [hs] at hnd ⊢
          intro c hc
          simp only [Option.some.injEq] at hc
          subst hc
          have hdir := hnd (.senderForBundle ps r bp, some a) (by simp)
          rw [List.countP_append, List.countP_singleton, failures_other (by rfl)]
          simp only [isArrival, Bool.false_eq_true, if_false, Nat.add_zero]
          unfold request at hreq
          cases hg : AList.get? c0.history bp.id with
          | none =>
            rw [hg] at hreq
            simp only [Option.some.injEq, Prod.mk.injEq] at hreq
            obtain ⟨rfl, rfl⟩ := hreq
            exact hinv.keep _ (by simp [relaysOf]) rfl rfl rfl
          | some m =>
            rw [hg] at hreq
            simp only at hreq
            cases hl : loop c0.localNode bp r ps m { clas := [], delete := false } with
            | none => rw [hl] at hreq; simp at hreq
            | some z =>
              obtain ⟨m', a'⟩ := z
              rw [hl] at hreq
              simp only [Option.some.injEq, Prod.mk.injEq] at hreq
              obtain ⟨rfl, rfl⟩ := hreq
              by_cases hb : bp.id = bid
              · subst hb
                simp only [isDirect, decide_true, Bool.true_and] at hdir
                obtain ⟨new, e1, e2, e3, e4, e5⟩ := loop_spec _ _ _ _ _ _ _ _ hl
                have e6 := (e5 hdir).2
                have hr : relays bp.id (t.log ++ [(Cmd.senderForBundle ps r bp, some a')]) = relays bp.id t.log ++ new.map some := by
                  rw [relays_append]
                  simp only [relays, List.flatMap_cons, List.flatMap_nil, relaysOf, hdir, and_self, if_true, List.append_nil, e6, List.map_nil, List.nil_append]
                refine ⟨hinv.lim, hinv.loc, fun hz => ?_, fun ho => ?_⟩
                · rw [(hinv.fresh hz).1] at hg; cases hg
                · obtain ⟨m1, rs, g1, g2, g3, g4⟩ := hinv.present ho
                  rw [hg] at g1
                  cases g1
                  refine ⟨m', rs ++ new, AList.get?_insert_self _ _ _, ?_, ?_, ?_⟩
                  · rw [hr, List.length_append, List.length_map]; omega
                  · rw [hr, g3, List.map_append]
                  · intro x hx
                    rw [e1] at hx
                    rw [List.map_append]
                    rcases List.mem_append.mp hx with hx | hx
                    · exact List.mem_append_left _ (g4 x hx)
                    · exact List.mem_append_right _ hx
              · exact hinv.keep _ (by simp [relaysOf, hb]) rfl rfl (by
                  simp only; rw [AList.get?_insert_of_ne _ _ (Ne.symm hb)])


/-- The copies and relays of a bundle in any history. -/
structure Spent (l : Nat) (localNode bid : String) (arrivals failed : Nat) (c : Spray) (log : List (Cmd × Option Answer)) : Prop where
  lim : c.l = l
  loc : c.localNode = localNode
  bound : (relays bid log).length + ((AList.get? c.history bid).map fun m => m.copies - 1).getD 0 ≤
    arrivals * (copyBudget l localNode bid - 1) + failed

theorem Spent.keep {l : Nat} {localNode bid : String} {k f : Nat} {c c' : Spray} {log : List (Cmd × Option Answer)}
    (h : Spent l localNode bid k f c log) (x : Cmd × Option Answer) (hx : relaysOf bid x = []) (hl : c'.l = c.l) (hn : c'.localNode = c.localNode)
    (hg : AList.get? c'.history bid = AList.get? c.history bid) : Spent l localNode bid k f c' (log ++ [x]) := by
  have : relays bid (log ++ [x]) = relays bid log := by rw [relays_append]; simp [relays, hx]
  obtain ⟨h1, h2, h3⟩ := h
  exact ⟨hl.trans h1, hn.trans h2, by rw [this, hg]; exact h3⟩

theorem Spent.run (l : Nat) (localNode bid : String) (cmds : List Cmd) :
    (∀ c, ((sprayStart l localNode).run spray cmds).core = some c →
      Spent l localNode bid (cmds.countP (isArrival bid)) (cmds.countP (isFailure bid)) c ((sprayStart l localNode).run spray cmds).log) ∧
    (relays bid ((sprayStart l localNode).run spray cmds).log).length ≤
      cmds.countP (isArrival bid) * (copyBudget l localNode bid - 1) + cmds.countP (isFailure bid) := by
  induction cmds using List.reverseRecOn with
  | nil =>
    refine ⟨?_, by simp [Task.run, sprayStart, relays]⟩
    intro c hc
    simp only [Task.run, sprayStart, List.foldl_nil, Option.some.injEq] at hc
    subst hc
    exact ⟨rfl, rfl, by simp [Task.run, sprayStart, relays, AList.get?]⟩
  | append_singleton cmds cmd ih =>
    obtain ⟨ih1, ih2⟩ := ih
    have grow : ∀ n : Nat, n ≤ cmds.countP (isArrival bid) * (copyBudget l localNode bid - 1) + cmds.countP (isFailure bid) →
        n ≤ (cmds ++ [cmd]).countP (isArrival bid) * (copyBudget l localNode bid - 1) + (cmds ++ [cmd]).countP (isFailure bid) := by
      intro n hn
      rw [List.countP_append, List.countP_append, Nat.add_mul]
      omega
    rw [Task.run_append]
    change (∀ c, (((sprayStart l localNode).run spray cmds).step spray cmd).core = _ → Spent _ _ _ _ _ c
      (((sprayStart l localNode).run spray cmds).step spray cmd).log) ∧
      (relays bid (((sprayStart l localNode).run spray cmds).step spray cmd).log).length ≤ _
    generalize (sprayStart l localNode).run spray cmds = t at *
    have done : ∀ c log, Spent l localNode bid ((cmds ++ [cmd]).countP (isArrival bid)) ((cmds ++ [cmd]).countP (isFailure bid)) c log →
        (relays bid log).length ≤ (cmds ++ [cmd]).countP (isArrival bid) * (copyBudget l localNode bid - 1) + (cmds ++ [cmd]).countP (isFailure bid) :=
      fun c log h => Nat.le_trans (Nat.le_add_right _ _) h.bound
    cases hcore : t.core with
    | none =>
      have hs : (t.step spray cmd) = { t with log := t.log ++ [(cmd, none)] } := by
        unfold Task.step; rw [hcore]
      have : relays bid (t.log ++ [(cmd, none)]) = relays bid t.log := by
        rw [relays_append]; cases cmd <;> simp [relays, relaysOf]
      rw [hs]
      refine ⟨?_, by rw [this]; exact grow _ ih2⟩
      intro c hc
      simp only at hc
      rw [hcore] at hc; cases hc
    | some c0 =>
      have hinv := ih1 c0 hcore
      have hup : Spent l localNode bid ((cmds ++ [cmd]).countP (isArrival bid)) ((cmds ++ [cmd]).countP (isFailure bid)) c0 t.log :=
        ⟨hinv.lim, hinv.loc, grow _ hinv.bound⟩
      have fin : ∀ t' : Task Spray, t.step spray cmd = t' → (∀ c, t'.core = some c →
          Spent l localNode bid ((cmds ++ [cmd]).countP (isArrival bid)) ((cmds ++ [cmd]).countP (isFailure bid)) c t'.log) →
          (∃ c, t'.core = some c) → (∀ c, (t.step spray cmd).core = some c →
          Spent l localNode bid ((cmds ++ [cmd]).countP (isArrival bid)) ((cmds ++ [cmd]).countP (isFailure bid)) c (t.step spray cmd).log) ∧
          (relays bid (t.step spray cmd).log).length ≤ (cmds ++ [cmd]).countP (isArrival bid) * (copyBudget l localNode bid - 1) + (cmds ++ [cmd]).countP (isFailure bid) := by
        rintro t' rfl h ⟨c, hc⟩
        exact ⟨h, done c _ (h c hc)⟩
      have gone : ∀ x, t.step spray cmd = { core := none, log := t.log ++ [(cmd, none)] } → relaysOf bid (cmd, none) = x → x = [] →
          (∀ c, (t.step spray cmd).core = some c →
          Spent l localNode bid ((cmds ++ [cmd]).countP (isArrival bid)) ((cmds ++ [cmd]).countP (isFailure bid)) c (t.step spray cmd).log) ∧
          (relays bid (t.step spray cmd).log).length ≤ (cmds ++ [cmd]).countP (isArrival bid) * (copyBudget l localNode bid - 1) + (cmds ++ [cmd]).countP (isFailure bid) := by
        intro x hs hx hx'
        rw [hs]
        refine ⟨fun c hc => by simp at hc, done c0 _ (hup.keep _ (hx.trans hx') rfl rfl rfl)⟩
      cases cmd with
      | shutdown => exact gone _ (by unfold Task.step; rw [hcore]) rfl rfl
      | command s =>
        refine fin { t with log := t.log ++ [(.command s, none)] } (by unfold Task.step; rw [hcore]) ?_ ⟨c0, hcore⟩
        intro c hc
        simp only at hc
        rw [hcore] at hc; injection hc with hc; subst hc
        exact hup.keep _ rfl rfl rfl rfl
      | notify n =>
        refine fin { core := some (c0.notify n), log := t.log ++ [(.notify n, none)] } (by unfold Task.step; rw [hcore]; rfl) ?_ ⟨_, rfl⟩
        intro c hc
        simp only [Option.some.injEq] at hc
        subst hc
        have hr : relays bid (t.log ++ [(.notify n, none)]) = relays bid t.log := by
          rw [relays_append]; simp [relays, relaysOf]
        have same : isArrival bid (.notify n) = true → c0.notify n = c0.newBundle bid →
            Spent l localNode bid ((cmds ++ [Cmd.notify n]).countP (isArrival bid)) ((cmds ++ [Cmd.notify n]).countP (isFailure bid))
              (c0.notify n) (t.log ++ [(.notify n, none)]) := by
          intro ha he
          rw [he]
          refine ⟨hinv.lim, hinv.loc, ?_⟩
          rw [hr]
          simp only [newBundle, AList.get?_insert_self, Option.map_some, Option.getD_some, List.countP_append, List.countP_singleton, ha, if_true, Nat.add_mul, Nat.one_mul]
          have hb := ih2
          have : (if startsWith bid c0.localNode then c0.l else 1) = copyBudget l localNode bid := by
            simp only [copyBudget, hinv.lim, hinv.loc]
          rw [this]
          omega
        cases n with
        | sendingFailed b m =>
          have hl : (c0.sendingFailed b m).l = c0.l ∧ (c0.sendingFailed b m).localNode = c0.localNode := by
            unfold sendingFailed; split <;> exact ⟨rfl, rfl⟩
          by_cases hb : b = bid
          · subst hb
            refine ⟨hl.1.trans hinv.lim, hl.2.trans hinv.loc, ?_⟩
            have hbd := hinv.bound
            rw [hr]
            simp only [List.countP_append, List.countP_singleton, isArrival, isFailure, decide_true, if_true, Bool.false_eq_true, if_false, Nat.add_zero, notify]
            unfold sendingFailed
            cases hg : AList.get? c0.history b with
            | none => simp only [hg, Option.map_none, Option.getD_none] at hbd ⊢; omega
            | some m1 =>
              simp only [hg, AList.get?_insert_self, Option.map_some, Option.getD_some] at hbd ⊢
              omega
          · refine hup.keep _ rfl hl.1 hl.2 ?_
            simp only [notify]
            unfold sendingFailed
            split
            · simp only; rw [AList.get?_insert_of_ne _ _ (Ne.symm hb)]
            · rfl
        | incomingBundle b =>
          by_cases hb : b.id = bid
          · exact same (by simp [isArrival, hb]) (by simp [notify, hb])
          · exact hup.keep _ rfl rfl rfl (by simp only [notify, newBundle]; rw [AList.get?_insert_of_ne _ _ (Ne.symm hb)])
        | incomingBundleWithoutPreviousNode b m =>
          by_cases hb : b = bid
          · exact same (by simp [isArrival, hb]) (by simp [notify, hb])
          · exact hup.keep _ rfl rfl rfl (by simp only [notify, newBundle]; rw [AList.get?_insert_of_ne _ _ (Ne.symm hb)])
        | sendingSucceeded b m => exact hup.keep _ rfl rfl rfl rfl
        | encounteredPeer e => exact hup.keep _ rfl rfl rfl rfl
        | droppedPeer e => exact hup.keep _ rfl rfl rfl rfl
      | senderForBundle ps r bp =>
        cases hreq : c0.request ps r bp with
        | none => exact gone _ (by unfold Task.step; rw [hcore]; simp only [spray, hreq]) rfl rfl
        | some y =>
          obtain ⟨c1, a⟩ := y
          refine fin { core := some c1, log := t.log ++ [(.senderForBundle ps r bp, some a)] } (by unfold Task.step; rw [hcore]; simp only [spray, hreq]) ?_ ⟨_, rfl⟩
          intro c hc
          simp only [Option.some.injEq] at hc
          subst hc
          unfold request at hreq
          cases hg : AList.get? c0.history bp.id with
          | none =>
            rw [hg] at hreq
            simp only [Option.some.injEq, Prod.mk.injEq] at hreq
            obtain ⟨rfl, rfl⟩ := hreq
            exact hup.keep _ (by simp [relaysOf]) rfl rfl rfl
          | some m =>
            rw [hg] at hreq
            simp only at hreq
            cases hl : loop c0.localNode bp r ps m { clas := [], delete := false } with
            | none => rw [hl] at hreq; simp at hreq
            | some z =>
              obtain ⟨m', a'⟩ := z
              rw [hl] at hreq
              simp only [Option.some.injEq, Prod.mk.injEq] at hreq
              obtain ⟨rfl, rfl⟩ := hreq
              by_cases hb : bp.id = bid
              · subst hb
                obtain ⟨new, e1, e2, e3, e4, e5⟩ := loop_spec _ _ _ _ _ _ _ _ hl
                refine ⟨hup.lim, hup.loc, ?_⟩
                have hbd := hup.bound
                simp only [hg, Option.map_some, Option.getD_some] at hbd
                have hr : (relays bp.id (t.log ++ [(Cmd.senderForBundle ps r bp, some a')])).length ≤ (relays bp.id t.log).length + new.length := by
                  rw [relays_append, List.length_append]
                  simp only [relays, List.flatMap_cons, List.flatMap_nil, List.append_nil, relaysOf]
                  split
                  · rename_i hd
                    rw [(e5 hd.2).2]
                    simp
                  · simp
                simp only [AList.get?_insert_self, Option.map_some, Option.getD_some]
                by_cases hn : new = []
                · subst hn; simp only [List.length_nil, Nat.add_zero] at e2 hr; omega
                · have := e3 hn; omega
              · exact hup.keep _ (by simp [relaysOf, hb]) rfl rfl (by
                  simp only; rw [AList.get?_insert_of_ne _ _ (Ne.symm hb)])

end Dtn.Routing.Spray
