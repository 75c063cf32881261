import Verif.Lemmas.Peer
import Mathlib.Data.List.Induction
/-! Lemmas about epidemic routing. -/

namespace Dtn.Routing.Epidemic
open Dtn Spec

theorem contains_add (c : Epidemic) (bid node bid' node' : String) :
    (c.add bid node).contains bid' node' = (decide (bid = bid' ∧ node = node') || c.contains bid' node') := by
  unfold contains add
  simp only
  by_cases hb : bid = bid'
  · subst hb
    rw [AList.get?_insert_self]
    cases h : AList.get? c.history bid with
    | none => simp [eq_comm]
    | some l =>
      simp only [Option.getD_some, true_and]
      by_cases hn : node ∈ l
      · simp only [hn, if_true]
        by_cases hnn : node = node'
        · subst hnn; simp [hn]
        · simp [hnn]
      · simp only [hn, if_false, List.mem_cons]
        by_cases hnn : node = node'
        · subst hnn; simp
        · have : ¬ node' = node := fun h => hnn h.symm
          simp [hnn, this]
  · rw [AList.get?_insert_of_ne _ _ (fun h => hb h.symm)]
    simp [hb]

theorem contains_sendingFailed (c : Epidemic) (bid node bid' node' : String) :
    (c.sendingFailed bid node).contains bid' node' = (!decide (bid = bid' ∧ node = node') && c.contains bid' node') := by
  unfold contains sendingFailed
  by_cases hb : bid = bid'
  · subst hb
    cases h : AList.get? c.history bid with
    | none => simp [h]
    | some l =>
      simp only [AList.get?_insert_self, List.mem_filter, true_and]
      by_cases hnn : node = node'
      · subst hnn; simp
      · have : ¬ node' = node := fun h => hnn h.symm
        simp [hnn, this]
  · cases h : AList.get? c.history bid with
    | none => simp [hb]
    | some l =>
      simp only
      rw [AList.get?_insert_of_ne _ _ (fun h => hb h.symm)]
      simp [hb]

theorem contains_incomingBundle (c : Epidemic) (bid node bid' node' : String) :
    (c.incomingBundle bid node).contains bid' node' =
      (decide (bid = bid' ∧ node = node' ∧ node ≠ "") || c.contains bid' node') := by
  unfold incomingBundle
  by_cases hn : node = ""
  · simp [hn]
  · by_cases hc : c.contains bid node = true
    · simp only [hc, Bool.not_true, Bool.and_false, Bool.false_eq_true, if_false]
      by_cases h : bid = bid' ∧ node = node'
      · obtain ⟨rfl, rfl⟩ := h; simp [hc]
      · have : ¬ (bid = bid' ∧ node = node' ∧ node ≠ "") := fun h' => h ⟨h'.1, h'.2.1⟩
        simp [this]
    · simp only [Bool.not_eq_true] at hc
      simp only [hc, Bool.not_false, Bool.and_true, decide_eq_true_eq, ne_eq, hn, not_false_eq_true, if_true,
        contains_add, and_true]

/-- The nodes an answer selects: what `loop` adds to the list collected so far. -/
theorem loop_spec (bp : Pack) (running : List Cla) (ps : List Peer) (c : Epidemic) (acc : List Sender)
    (c' : Epidemic) (a : Answer) (h : loop bp running ps c acc = some (c', a)) :
    (∀ n, n ∈ selected a → n ∈ acc.map (fun s => s.nextHop.node.getD "") ∨
        (c.contains bp.id n = false ∧ ∃ p ∈ ps, p.nodeName = n)) ∧
    (∀ n, c.contains bp.id n = true → c'.contains bp.id n = true) ∧
    (∀ n, n ∈ selected a → n ∈ acc.map (fun s => s.nextHop.node.getD "") ∨ c'.contains bp.id n = true) ∧
    (∀ b n, b ≠ bp.id → c'.contains b n = c.contains b n) := by
  induction ps generalizing c acc with
  | nil =>
    simp only [loop, Option.some.injEq, Prod.mk.injEq] at h
    obtain ⟨rfl, rfl⟩ := h
    exact ⟨fun n hn => Or.inl hn, fun n hn => hn, fun n hn => Or.inl hn, fun _ _ _ => rfl⟩
  | cons p ps ih =>
    unfold loop at h
    by_cases hc : c.contains bp.id p.nodeName = true
    · simp only [hc, Bool.not_true, Bool.false_eq_true, if_false] at h
      obtain ⟨h1, h2, h3, h4⟩ := ih c acc h
      refine ⟨?_, h2, h3, h4⟩
      intro n hn
      rcases h1 n hn with h | ⟨h, q, hq, h'⟩
      · exact Or.inl h
      · exact Or.inr ⟨h, q, by simp [hq], h'⟩
    · simp only [Bool.not_eq_true] at hc
      simp only [hc, Bool.not_false, if_true] at h
      cases hf : p.firstCla running with
      | none =>
        rw [hf] at h
        obtain ⟨h1, h2, h3, h4⟩ := ih c acc h
        refine ⟨?_, h2, h3, h4⟩
        intro n hn
        rcases h1 n hn with h | ⟨h, q, hq, h'⟩
        · exact Or.inl h
        · exact Or.inr ⟨h, q, by simp [hq], h'⟩
      | some cla =>
        rw [hf] at h
        have hnh : cla.nextHop.node.getD "" = p.nodeName := by
          rw [Peer.firstCla_nextHop hf]; rfl
        cases hd : bp.destination.node with
        | none => rw [hd] at h; simp at h
        | some d =>
          rw [hd] at h
          simp only at h
          by_cases hdp : d = p.nodeName
          · rw [if_pos hdp] at h
            simp only [Option.some.injEq, Prod.mk.injEq] at h
            obtain ⟨rfl, rfl⟩ := h
            refine ⟨?_, ?_, ?_, ?_⟩
            · intro n hn
              simp only [selected, List.map_cons, List.map_nil, List.mem_singleton, hnh] at hn
              subst hn
              exact Or.inr ⟨hc, p, by simp, rfl⟩
            · intro n hn; simp [contains_add, hn]
            · intro n hn
              simp only [selected, List.map_cons, List.map_nil, List.mem_singleton, hnh] at hn
              subst hn
              exact Or.inr (by simp [contains_add])
            · intro b n hb
              have : ¬ (bp.id = b ∧ p.nodeName = n) := fun h => hb h.1.symm
              simp [contains_add, this]
          · rw [if_neg hdp] at h
            obtain ⟨h1, h2, h3, h4⟩ := ih _ _ h
            refine ⟨?_, ?_, ?_, ?_⟩
            · intro n hn
              rcases h1 n hn with h | ⟨h, q, hq, h'⟩
              · simp only [List.map_append, List.map_cons, List.map_nil, List.mem_append, List.mem_singleton, hnh] at h
                rcases h with h | h
                · exact Or.inl h
                · subst h; exact Or.inr ⟨hc, p, by simp, rfl⟩
              · rw [contains_add] at h
                simp only [Bool.or_eq_false_iff] at h
                exact Or.inr ⟨h.2, q, by simp [hq], h'⟩
            · intro n hn; exact h2 n (by simp [contains_add, hn])
            · intro n hn
              rcases h3 n hn with h | h
              · simp only [List.map_append, List.map_cons, List.map_nil, List.mem_append, List.mem_singleton, hnh] at h
                rcases h with h | h
                · exact Or.inl h
                · subst h; exact Or.inr (h2 _ (by simp [contains_add]))
              · exact Or.inr h
            · intro b n hb
              rw [h4 b n hb, contains_add]
              have : ¬ (bp.id = b ∧ p.nodeName = n) := fun h => hb h.1.symm
              simp [this]

theorem loop_nodup (bp : Pack) (running : List Cla) (ps : List Peer) (c : Epidemic) (acc : List Sender)
    (c' : Epidemic) (a : Answer) (h : loop bp running ps c acc = some (c', a))
    (hacc : (acc.map (fun s => s.nextHop.node.getD "")).Nodup)
    (hin : ∀ n ∈ acc.map (fun s => s.nextHop.node.getD ""), c.contains bp.id n = true) : (selected a).Nodup := by
  induction ps generalizing c acc with
  | nil =>
    simp only [loop, Option.some.injEq, Prod.mk.injEq] at h
    obtain ⟨rfl, rfl⟩ := h
    exact hacc
  | cons p ps ih =>
    unfold loop at h
    by_cases hc : c.contains bp.id p.nodeName = true
    · simp only [hc, Bool.not_true, Bool.false_eq_true, if_false] at h
      exact ih c acc h hacc hin
    · simp only [Bool.not_eq_true] at hc
      simp only [hc, Bool.not_false, if_true] at h
      cases hf : p.firstCla running with
      | none => rw [hf] at h; exact ih c acc h hacc hin
      | some cla =>
        rw [hf] at h
        have hnh : cla.nextHop.node.getD "" = p.nodeName := by
          rw [Peer.firstCla_nextHop hf]; rfl
        cases hd : bp.destination.node with
        | none => rw [hd] at h; simp at h
        | some d =>
          rw [hd] at h
          simp only at h
          by_cases hdp : d = p.nodeName
          · rw [if_pos hdp] at h
            simp only [Option.some.injEq, Prod.mk.injEq] at h
            obtain ⟨rfl, rfl⟩ := h
            simp [selected]
          · rw [if_neg hdp] at h
            refine ih _ _ h ?_ ?_
            · rw [List.map_append, List.nodup_append]
              refine ⟨hacc, by simp, ?_⟩
              intro x hx y hy
              simp only [List.map_cons, List.map_nil, List.mem_singleton, hnh] at hy
              subst hy
              rintro rfl
              rw [hin _ hx] at hc
              cases hc
            · intro n hn
              simp only [List.map_append, List.map_cons, List.map_nil, List.mem_append, List.mem_singleton, hnh] at hn
              rcases hn with hn | hn
              · simp [contains_add, hin n hn]
              · subst hn; simp [contains_add]

/-- No eligible peer is the destination: every eligible peer is selected, in order. -/
theorem loop_relay (bp : Pack) (running : List Cla) (ps : List Peer) (c : Epidemic) (acc : List Sender) (d : String)
    (hd : bp.destination.node = some d) (hnd : (ps.map Peer.nodeName).Nodup)
    (hno : ∀ p ∈ ps, c.contains bp.id p.nodeName = false → Usable running p → p.nodeName ≠ d) :
    ∃ c', loop bp running ps c acc = some (c',
      { clas := acc ++ (ps.filter fun p => !c.contains bp.id p.nodeName).filterMap fun p => p.firstCla running,
        delete := false }) ∧
      ∀ n, c'.contains bp.id n = true ↔
        c.contains bp.id n = true ∨ ∃ p ∈ ps, p.nodeName = n ∧ (p.firstCla running).isSome := by
  induction ps generalizing c acc with
  | nil => exact ⟨c, by simp [loop], by simp⟩
  | cons p ps ih =>
    simp only [List.map_cons, List.nodup_cons] at hnd
    unfold loop
    by_cases hc : c.contains bp.id p.nodeName = true
    · simp only [hc, Bool.not_true, Bool.false_eq_true, if_false]
      obtain ⟨c', h1, h2⟩ := ih c acc hnd.2 (fun q hq => hno q (by simp [hq]))
      refine ⟨c', ?_, ?_⟩
      · rw [h1]; simp [hc]
      · intro n
        rw [h2]
        by_cases hn : p.nodeName = n
        · subst hn; simp [hc]
        · simp [hn]
    · simp only [Bool.not_eq_true] at hc
      simp only [hc, Bool.not_false, if_true]
      cases hf : p.firstCla running with
      | none =>
        obtain ⟨c', h1, h2⟩ := ih c acc hnd.2 (fun q hq => hno q (by simp [hq]))
        refine ⟨c', ?_, ?_⟩
        · simp only [h1]; simp [hc, hf]
        · intro n; rw [h2]; simp [hf]
      | some cla =>
        simp only [hd]
        have hne : d ≠ p.nodeName := by
          intro h
          refine hno p (by simp) hc ?_ h.symm
          rw [← Peer.firstCla_isSome_iff, hf]; rfl
        rw [if_neg hne]
        have hsame : ∀ q ∈ ps, (c.add bp.id p.nodeName).contains bp.id q.nodeName = c.contains bp.id q.nodeName := by
          intro q hq
          have : ¬ p.nodeName = q.nodeName := by
            intro h; apply hnd.1; rw [h]; exact List.mem_map_of_mem hq
          simp [contains_add, this]
        obtain ⟨c', h1, h2⟩ := ih (c.add bp.id p.nodeName) (acc ++ [cla]) hnd.2 (by
          intro q hq h; rw [hsame q hq] at h; exact hno q (by simp [hq]) h)
        refine ⟨c', ?_, ?_⟩
        · rw [h1]
          have : (ps.filter fun q => !(c.add bp.id p.nodeName).contains bp.id q.nodeName) =
              ps.filter fun q => !c.contains bp.id q.nodeName := by
            apply List.filter_congr
            intro q hq; rw [hsame q hq]
          rw [this]
          simp [hc, hf]
        · intro n
          rw [h2, contains_add]
          by_cases hn : p.nodeName = n
          · subst hn; simp [hf]
          · simp [hn]

/-- An eligible peer is the destination: it alone is selected, and deletion is requested. -/
theorem loop_direct (bp : Pack) (running : List Cla) (ps : List Peer) (c : Epidemic) (acc : List Sender) (q : Peer)
    (hd : bp.destination.node = some q.nodeName) (hnd : (ps.map Peer.nodeName).Nodup) (hq : q ∈ ps)
    (hnew : c.contains bp.id q.nodeName = false) (s : Sender) (hs : q.firstCla running = some s) :
    ∃ c', loop bp running ps c acc = some (c', { clas := [s], delete := true }) := by
  induction ps generalizing c acc with
  | nil => simp at hq
  | cons p ps ih =>
    simp only [List.map_cons, List.nodup_cons] at hnd
    unfold loop
    rcases List.mem_cons.1 hq with rfl | hq'
    · simp [hnew, hs, hd]
    · have hpq : ¬ p.nodeName = q.nodeName := by
        intro h; apply hnd.1; rw [h]; exact List.mem_map_of_mem hq'
      by_cases hc : c.contains bp.id p.nodeName = true
      · simp only [hc, Bool.not_true, Bool.false_eq_true, if_false]
        exact ih c acc hnd.2 hq' hnew
      · simp only [Bool.not_eq_true] at hc
        simp only [hc, Bool.not_false, if_true]
        cases hf : p.firstCla running with
        | none => exact ih c acc hnd.2 hq' hnew
        | some cla =>
          simp only [hd]
          rw [if_neg (fun h => hpq h.symm)]
          exact ih _ _ hnd.2 hq' (by simp [contains_add, hpq, hnew])

/-- Unless direct delivery was chosen, only the selected peers are newly recorded. -/
theorem loop_marks (bp : Pack) (running : List Cla) (ps : List Peer) (c : Epidemic) (acc : List Sender)
    (c' : Epidemic) (a : Answer) (h : loop bp running ps c acc = some (c', a)) (hdel : a.delete = false) :
    (∀ s ∈ acc, s ∈ a.clas) ∧
    ∀ n, c'.contains bp.id n = true → c.contains bp.id n = true ∨ n ∈ selected a := by
  induction ps generalizing c acc with
  | nil =>
    simp only [loop, Option.some.injEq, Prod.mk.injEq] at h
    obtain ⟨rfl, rfl⟩ := h
    exact ⟨fun s hs => hs, fun n hn => Or.inl hn⟩
  | cons p ps ih =>
    unfold loop at h
    by_cases hc : c.contains bp.id p.nodeName = true
    · simp only [hc, Bool.not_true, Bool.false_eq_true, if_false] at h
      exact ih c acc h
    · simp only [Bool.not_eq_true] at hc
      simp only [hc, Bool.not_false, if_true] at h
      cases hf : p.firstCla running with
      | none => rw [hf] at h; exact ih c acc h
      | some cla =>
        rw [hf] at h
        have hnh : cla.nextHop.node.getD "" = p.nodeName := by
          rw [Peer.firstCla_nextHop hf]; rfl
        cases hd : bp.destination.node with
        | none => rw [hd] at h; simp at h
        | some d =>
          rw [hd] at h
          simp only at h
          by_cases hdp : d = p.nodeName
          · rw [if_pos hdp] at h
            simp only [Option.some.injEq, Prod.mk.injEq] at h
            obtain ⟨rfl, rfl⟩ := h
            simp at hdel
          · rw [if_neg hdp] at h
            obtain ⟨h1, h2⟩ := ih _ _ h
            refine ⟨fun s hs => h1 s (by simp [hs]), ?_⟩
            intro n hn
            rcases h2 n hn with h | h
            · rw [contains_add] at h
              simp only [true_and, Bool.or_eq_true, decide_eq_true_eq] at h
              rcases h with rfl | h
              · right
                rw [← hnh]
                exact List.mem_map_of_mem (h1 cla (by simp))
              · exact Or.inl h
            · exact Or.inr h

theorem loop_none (bp : Pack) (running : List Cla) (ps : List Peer) (c : Epidemic) (acc : List Sender) :
    loop bp running ps c acc = none ↔
      bp.destination.node = none ∧ ∃ p ∈ ps, c.contains bp.id p.nodeName = false ∧ (p.firstCla running).isSome := by
  induction ps generalizing c acc with
  | nil => simp [loop]
  | cons p ps ih =>
    unfold loop
    by_cases hc : c.contains bp.id p.nodeName = true
    · simp only [hc, Bool.not_true, Bool.false_eq_true, if_false, ih]
      simp [hc]
    · simp only [Bool.not_eq_true] at hc
      simp only [hc, Bool.not_false, if_true]
      cases hf : p.firstCla running with
      | none => simp [ih, hf]
      | some cla =>
        cases hd : bp.destination.node with
        | none => simp [hc, hf]
        | some d =>
          by_cases hdp : d = p.nodeName
          · simp [hdp]
          · simp [hdp, ih, hd]

/-- Effect of one command on what is recorded. -/
theorem contains_notify (c : Epidemic) (n : Notification) (bid node : String)
    (hc : c.contains bid node = true) (hn : n ≠ .sendingFailed bid node) : (c.notify n).contains bid node = true := by
  cases n with
  | sendingFailed b m =>
    simp only [notify, contains_sendingFailed, hc, Bool.and_true, Bool.not_eq_true', decide_eq_false_iff_not]
    rintro ⟨rfl, rfl⟩; exact hn rfl
  | incomingBundle b =>
    simp only [notify]
    cases previousNode b with
    | none => exact hc
    | some e =>
      cases h : e.node with
      | none => simpa [h] using hc
      | some m => simp only [h, contains_incomingBundle, hc, Bool.or_true]
  | incomingBundleWithoutPreviousNode b m => simp only [notify, contains_incomingBundle, hc, Bool.or_true]
  | _ => exact hc

/-- Once recorded, a node stays recorded until a failure is reported. -/
theorem Task.run_contains (cmds : List Cmd) (t : Task) (bid node : String)
    (h : ∀ c, t.core = some c → c.contains bid node = true)
    (hn : Cmd.notify (.sendingFailed bid node) ∉ cmds) :
    ∀ c, (t.run cmds).core = some c → c.contains bid node = true := by
  induction cmds generalizing t with
  | nil => exact h
  | cons x cmds ih =>
    simp only [List.mem_cons, not_or] at hn
    apply ih (t.step x) _ hn.2
    intro c hc
    unfold Task.step at hc
    cases hcore : t.core with
    | none => rw [hcore] at hc; cases x <;> simp [hcore] at hc
    | some c0 =>
      rw [hcore] at hc
      have h0 := h c0 hcore
      cases x with
      | shutdown => simp at hc
      | command s => simp only at hc; rw [hcore] at hc; injection hc with hc; rw [← hc]; exact h0
      | notify n =>
        simp only [Option.some.injEq] at hc
        rw [← hc]
        exact contains_notify c0 n bid node h0 (fun h => hn.1 (by rw [h]))
      | senderForBundle ps r bp =>
        simp only at hc
        cases hs : c0.senderForBundle ps r bp with
        | none => rw [hs] at hc; simp at hc
        | some y =>
          obtain ⟨c1, a⟩ := y
          rw [hs] at hc
          simp only [Option.some.injEq] at hc
          subst hc
          obtain ⟨_, h2, _, h4⟩ := loop_spec bp r ps c0 [] c1 a hs
          by_cases hb : bid = bp.id
          · subst hb; exact h2 _ h0
          · rw [h4 bid node hb]; exact h0

theorem Task.run_append (t : Task) (l1 l2 : List Cmd) : t.run (l1 ++ l2) = (t.run l1).run l2 := by
  simp [Task.run, List.foldl_append]

/-- The answer to a request that was answered comes from the state before it. -/
theorem Task.step_answer {t : Task} {ps : List Peer} {r : List Cla} {bp bp' : Pack} {l : List (Pack × Option Answer)}
    {a : Answer} (h : (t.step (.senderForBundle ps r bp)).log = l ++ [(bp', some a)]) :
    bp' = bp ∧ ∃ c c', t.core = some c ∧ c.senderForBundle ps r bp = some (c', a) ∧
      (t.step (.senderForBundle ps r bp)).core = some c' := by
  unfold Task.step at h ⊢
  cases hcore : t.core with
  | none =>
    rw [hcore] at h
    have := List.append_inj_right' h rfl
    simp at this
  | some c =>
    rw [hcore] at h
    simp only at h ⊢
    cases hs : c.senderForBundle ps r bp with
    | none =>
      rw [hs] at h
      have := List.append_inj_right' h rfl
      simp at this
    | some y =>
      obtain ⟨c', a'⟩ := y
      rw [hs] at h
      have := List.append_inj_right' h rfl
      simp only [List.cons.injEq, Prod.mk.injEq, Option.some.injEq, and_true] at this
      obtain ⟨rfl, rfl⟩ := this
      exact ⟨rfl, c, c', rfl, hs, by simp⟩

theorem answered_append (t : Task) (l : List Cmd) (cmd : Cmd) :
    answered t (l ++ [cmd]) = answered t l ++ answered (t.run l) [cmd] := by
  induction l generalizing t with
  | nil => rfl
  | cons x l ih => cases x <;> simp only [List.cons_append, answered, ih] <;> rfl

theorem served_append (bid n : String) (h : List (Cmd × Option Answer)) (x : Cmd × Option Answer) :
    served bid n (h ++ [x]) =
      match x with
      | (.senderForBundle _ _ bp, some a) => if bp.id = bid ∧ n ∈ selected a then true else served bid n h
      | (.notify (.sendingFailed b m), _) => if b = bid ∧ m = n then false else served bid n h
      | (.notify (.incomingBundle b), _) =>
        if b.id = bid ∧ (previousNode b).bind EID.node = some n ∧ n ≠ "" then true else served bid n h
      | (.notify (.incomingBundleWithoutPreviousNode b m), _) =>
        if b = bid ∧ m = n ∧ n ≠ "" then true else served bid n h
      | _ => served bid n h := by
  unfold served
  rw [List.foldl_append]
  rfl

/-- As long as direct delivery was not chosen for a bundle, the record is what the history says. -/
theorem Task.contains_eq_served (cmds : List Cmd) (bid : String)
    (hno : ∀ ps r bp a, (Cmd.senderForBundle ps r bp, some a) ∈ answered {} cmds → bp.id = bid → a.delete = false) :
    ∀ c, (Task.run {} cmds).core = some c → ∀ n, c.contains bid n = served bid n (answered {} cmds) := by
  induction cmds using List.reverseRecOn with
  | nil =>
    intro c hc n
    simp only [Task.run, List.foldl_nil, Option.some.injEq] at hc
    subst hc; rfl
  | append_singleton cmds cmd ih =>
    intro c hc n
    rw [Task.run_append] at hc
    rw [answered_append] at hno ⊢
    have ih := ih (fun ps r bp a h => hno ps r bp a (List.mem_append_left _ h))
    change ((Task.run {} cmds).step cmd).core = some c at hc
    cases hcore : (Task.run {} cmds).core with
    | none =>
      unfold Task.step at hc
      rw [hcore] at hc
      cases cmd <;> simp [hcore] at hc
    | some c0 =>
      have ih := ih c0 hcore n
      cases cmd with
      | shutdown => unfold Task.step at hc; rw [hcore] at hc; simp at hc
      | command s =>
        unfold Task.step at hc; rw [hcore] at hc
        simp only at hc
        rw [hcore] at hc
        injection hc with hc
        subst hc
        simp only [answered, served_append]; exact ih
      | notify note =>
        unfold Task.step at hc; rw [hcore] at hc
        simp only [Option.some.injEq] at hc
        subst hc
        cases note with
        | sendingFailed b m =>
          simp only [answered, served_append, notify, contains_sendingFailed, ih]
          by_cases h : b = bid ∧ m = n <;> simp [h]
        | incomingBundle b =>
          simp only [answered, served_append, notify]
          cases hp : previousNode b with
          | none => simpa using ih
          | some e =>
            simp only [Option.bind_some]
            by_cases he : e.node = none
            · simp only [he]; simpa using ih
            · obtain ⟨m, he⟩ := Option.ne_none_iff_exists'.1 he
              simp only [he, contains_incomingBundle, ih, Option.some.injEq]
              by_cases h : b.id = bid ∧ m = n ∧ n ≠ ""
              · obtain ⟨h1, h2, h3⟩ := h; subst h2; simp [h1, h3]
              · have : ¬ (b.id = bid ∧ m = n ∧ m ≠ "") := by rintro ⟨h1, h2, h3⟩; subst h2; exact h ⟨h1, rfl, h3⟩
                rw [if_neg h]; simp [this]
        | incomingBundleWithoutPreviousNode b m =>
          simp only [answered, served_append, notify, contains_incomingBundle, ih]
          by_cases h : b = bid ∧ m = n ∧ n ≠ ""
          · obtain ⟨h1, h2, h3⟩ := h; subst h2; simp [h1, h3]
          · have : ¬ (b = bid ∧ m = n ∧ m ≠ "") := by rintro ⟨h1, h2, h3⟩; subst h2; exact h ⟨h1, rfl, h3⟩
            rw [if_neg h]; simp [this]
        | sendingSucceeded b m => simp only [answered, served_append, notify]; exact ih
        | encounteredPeer e => simp only [answered, served_append, notify]; exact ih
        | droppedPeer e => simp only [answered, served_append, notify]; exact ih
      | senderForBundle ps r bp =>
        unfold Task.step at hc; rw [hcore] at hc
        simp only at hc
        cases hs : c0.senderForBundle ps r bp with
        | none => rw [hs] at hc; simp at hc
        | some y =>
          obtain ⟨c1, a⟩ := y
          rw [hs] at hc
          simp only [Option.some.injEq] at hc
          subst hc
          have hlast : ((Task.run {} cmds).step (.senderForBundle ps r bp)).log.getLast?.bind Prod.snd = some a := by
            unfold Task.step
            rw [hcore]; simp only [hs]
            simp
          have hans : answered (Task.run {} cmds) [.senderForBundle ps r bp] = [(.senderForBundle ps r bp, some a)] := by
            simp only [answered, hlast]
          rw [hans] at hno ⊢
          rw [served_append]
          simp only
          by_cases hb : bp.id = bid
          · have hdel := hno ps r bp a (by simp) hb
            obtain ⟨_, h2, h3, _⟩ := loop_spec bp r ps c0 [] c1 a hs
            obtain ⟨_, h4⟩ := loop_marks bp r ps c0 [] c1 a hs hdel
            subst hb
            by_cases hsel : n ∈ selected a
            · rcases h3 n hsel with h | h
              · simp at h
              · simp [h, hsel]
            · simp only [hsel, and_false, if_false, ← ih]
              rw [Bool.eq_iff_iff]
              constructor
              · intro h; rcases h4 n h with h | h
                · exact h
                · exact absurd h hsel
              · exact h2 n
          · obtain ⟨_, _, _, h4⟩ := loop_spec bp r ps c0 [] c1 a hs
            simp only [hb, false_and, if_false, ← ih]
            exact h4 bid n (fun h => hb h.symm)

end Dtn.Routing.Epidemic
