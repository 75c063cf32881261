import Verif.Spec.Spreads
import Verif.Lemmas.Epidemic
import Verif.Lemmas.CarriedExample
/-! Lemmas for C116. -/

open Dtn.Spec in
theorem Dtn.Spec.Throughout.join {w : Dtn.Proc.World} {I : Dtn.Proc.Node → Prop} {s t u : Dtn.Proc.Sys} (h : Throughout w I s t)
    (h' : Throughout w I t u) : Throughout w I s u := by
  induction h' with
  | refl => exact h
  | step _ hs hi ih => exact ih.step hs hi

namespace Dtn.Routing.Epidemic
open Spec

theorem answered_append' (t : Task) (l l' : List Cmd) : answered t (l ++ l') = answered t l ++ answered (t.run l) l' := by
  induction l generalizing t with
  | nil => rfl
  | cons x l ih => cases x <;> simp only [List.cons_append, answered, ih] <;> rfl

/-- An answer in the history was given at some point. -/
theorem answered_split {t : Task} {cmds : List Cmd} {ps : List Peer} {r : List Cla} {bp : Pack} {a : Option Answer}
    (h : (.senderForBundle ps r bp, a) ∈ answered t cmds) :
    ∃ pre post, cmds = pre ++ .senderForBundle ps r bp :: post ∧
      a = ((t.run pre).step (.senderForBundle ps r bp)).log.getLast?.bind Prod.snd := by
  induction cmds generalizing t with
  | nil => cases h
  | cons x cmds ih =>
    have tail : (.senderForBundle ps r bp, a) ∈ answered (t.step x) cmds → ∃ pre post,
        x :: cmds = pre ++ .senderForBundle ps r bp :: post ∧
        a = ((t.run pre).step (.senderForBundle ps r bp)).log.getLast?.bind Prod.snd := by
      intro h
      obtain ⟨pre, post, h1, h2⟩ := ih h
      exact ⟨x :: pre, post, by rw [h1]; rfl, h2⟩
    cases x with
    | senderForBundle ps' r' bp' =>
      simp only [answered, List.mem_cons, Prod.mk.injEq, Cmd.senderForBundle.injEq] at h
      rcases h with ⟨⟨rfl, rfl, rfl⟩, h⟩ | h
      · exact ⟨[], cmds, rfl, h⟩
      · exact tail h
    | _ =>
      simp only [answered, List.mem_cons, Prod.mk.injEq, reduceCtorEq, false_and, false_or] at h
      exact tail h

theorem Task.step_ended {t : Task} (h : t.core = none) (x : Cmd) : (t.step x).core = none := by
  unfold Task.step
  rw [h]
  cases x <;> simp [h]

theorem Task.run_ended {t : Task} (h : t.core = none) (cmds : List Cmd) : (t.run cmds).core = none := by
  induction cmds generalizing t with
  | nil => exact h
  | cons x cmds ih => exact ih (step_ended h x)

/-- The answer to a question of an agent that runs on. -/
theorem Task.step_running {t : Task} {ps : List Peer} {r : List Cla} {bp : Pack}
    (h : (t.step (.senderForBundle ps r bp)).core ≠ none) :
    ∃ c c' a, t.core = some c ∧ c.senderForBundle ps r bp = some (c', a) ∧
      (t.step (.senderForBundle ps r bp)).log = t.log ++ [(bp, some a)] := by
  cases hc : t.core with
  | none => exact absurd (step_ended hc _) h
  | some c =>
    unfold Task.step at h ⊢
    rw [hc] at h ⊢
    simp only at h ⊢
    cases hs : c.senderForBundle ps r bp with
    | none => rw [hs] at h; simp at h
    | some x => exact ⟨c, x.1, x.2, rfl, hs, rfl⟩

/-- The destination is chosen alone. -/
theorem loop_delete (bp : Pack) (running : List Cla) (ps : List Peer) (c : Epidemic) (acc : List Sender) (c' : Epidemic) (a : Answer)
    (h : loop bp running ps c acc = some (c', a)) (hd : a.delete = true) :
    ∃ d, bp.destination.node = some d ∧ ∃ s ∈ a.clas, s.nextHop.node.getD "" = d := by
  induction ps generalizing c acc with
  | nil =>
    simp only [loop, Option.some.injEq, Prod.mk.injEq] at h
    obtain ⟨-, rfl⟩ := h
    cases hd
  | cons p ps ih =>
    unfold loop at h
    split at h
    · split at h
      · rename_i cla hcla
        simp only at h
        split at h
        · cases h
        · rename_i d hdst
          split at h
          · rename_i hp
            simp only [Option.some.injEq, Prod.mk.injEq] at h
            obtain ⟨-, rfl⟩ := h
            refine ⟨d, hdst, cla, by simp, ?_⟩
            rw [Peer.firstCla_nextHop hcla, hp]; rfl
          · exact ih _ _ h
      · exact ih _ _ h
    · exact ih _ _ h

/-- Who is served was named or has sent the bundle. -/
theorem served_why {bid n : String} {h : List (Cmd × Option Answer)} (hs : served bid n h = true) :
    (∃ ps r bp a, (Cmd.senderForBundle ps r bp, some a) ∈ h ∧ bp.id = bid ∧ n ∈ selected a) ∨
    (∃ b o, (Cmd.notify (.incomingBundle b), o) ∈ h ∧ b.id = bid ∧ (Routing.previousNode b).bind EID.node = some n) ∨
    ∃ o, (Cmd.notify (.incomingBundleWithoutPreviousNode bid n), o) ∈ h := by
  induction h using List.reverseRecOn with
  | nil => simp [served] at hs
  | append_singleton h x ih =>
    have weaken : served bid n h = true →
        (∃ ps r bp a, (Cmd.senderForBundle ps r bp, some a) ∈ h ++ [x] ∧ bp.id = bid ∧ n ∈ selected a) ∨
        (∃ b o, (Cmd.notify (.incomingBundle b), o) ∈ h ++ [x] ∧ b.id = bid ∧ (Routing.previousNode b).bind EID.node = some n) ∨
        ∃ o, (Cmd.notify (.incomingBundleWithoutPreviousNode bid n), o) ∈ h ++ [x] := by
      intro h1
      rcases ih h1 with ⟨ps, r, bp, a, k, k2⟩ | ⟨b, o, k, k2⟩ | ⟨o, k⟩
      · exact .inl ⟨ps, r, bp, a, List.mem_append_left _ k, k2⟩
      · exact .inr (.inl ⟨b, o, List.mem_append_left _ k, k2⟩)
      · exact .inr (.inr ⟨o, List.mem_append_left _ k⟩)
    rw [served_append] at hs
    split at hs
    · rename_i ps r bp a
      split at hs
      · rename_i hc
        exact .inl ⟨ps, r, bp, a, by simp, hc.1, hc.2⟩
      · exact weaken hs
    · split at hs
      · cases hs
      · exact weaken hs
    · rename_i b o
      split at hs
      · rename_i hc
        exact .inr (.inl ⟨b, o, by simp, hc.1, hc.2.1⟩)
      · exact weaken hs
    · rename_i b m o
      split at hs
      · rename_i hc
        obtain ⟨rfl, rfl, -⟩ := hc
        exact .inr (.inr ⟨o, by simp⟩)
      · exact weaken hs
    · exact weaken hs

/-- The commands of a history. -/
theorem answered_mem {t : Task} {cmds : List Cmd} {x : Cmd} {o : Option Answer} (h : (x, o) ∈ answered t cmds) : x ∈ cmds := by
  induction cmds generalizing t with
  | nil => cases h
  | cons y cmds ih =>
    cases y with
    | senderForBundle ps' r' bp' =>
      simp only [answered, List.mem_cons, Prod.mk.injEq] at h ⊢
      rcases h with ⟨rfl, -⟩ | h
      · exact .inl rfl
      · exact .inr (ih h)
    | _ =>
      simp only [answered, List.mem_cons, Prod.mk.injEq] at h ⊢
      rcases h with ⟨rfl, -⟩ | h
      · exact .inl rfl
      · exact .inr (ih h)

theorem same_name {ps : List Peer} (h : (ps.map Peer.nodeName).Nodup) {p q : Peer} (hp : p ∈ ps) (hq : q ∈ ps)
    (e : p.nodeName = q.nodeName) : p = q := by
  induction ps with
  | nil => cases hp
  | cons x ps ih =>
    simp only [List.map_cons, List.nodup_cons, List.mem_map, not_exists, not_and] at h
    rcases List.mem_cons.mp hp with rfl | _
    · rcases List.mem_cons.mp hq with rfl | hq
      · rfl
      · exact absurd e.symm (h.1 q hq)
    · rename_i hp'
      rcases List.mem_cons.mp hq with rfl | hq
      · exact absurd e (h.1 p hp')
      · exact ih h.2 hp' hq

end Dtn.Routing.Epidemic

namespace Dtn.Proc
open Spec Routing

/-- The commands that a router got, judging by the log of its node: it was asked with these neighbours, or with none if it named
none. -/
def commandsOf (ps : List Peer) (r : List Cla) (events : List Event) : List Cmd :=
  events.filterMap fun e => match e with
    | .asked bp (some a) => some (.senderForBundle (if a.clas = [] then [] else ps) r bp)
    | .asked bp none => some (.senderForBundle ps r bp)
    | .note n => some (.notify n)
    | _ => none

/-- The questions in the log of a node. -/
def questionsOf (events : List Event) : List (Pack × Option Answer) :=
  events.filterMap fun e => match e with | .asked bp a => some (bp, a) | _ => none

/-- A test for `RunsEpidemic`. -/
def runsEpidemic (cmds : List Cmd) (events : List Event) : Bool :=
  (Epidemic.Task.run {} cmds).core.isSome &&
  decide (((Spec.answered {} cmds).filterMap fun x => match x.1 with | .senderForBundle _ _ bp => some (bp, x.2) | _ => none) =
    questionsOf events) &&
  cmds.all fun c => match c with | .notify n => decide (Event.note n ∈ events) | _ => true

theorem mem_questionsOf {events : List Event} {bp : Pack} {a : Option Answer} :
    (bp, a) ∈ questionsOf events ↔ .asked bp a ∈ events := by
  simp only [questionsOf, List.mem_filterMap]
  constructor
  · rintro ⟨e, h1, h2⟩
    split at h2
    · simp only [Option.some.injEq, Prod.mk.injEq] at h2
      rw [← h2.1, ← h2.2]; exact h1
    · cases h2
  · intro h; exact ⟨_, h, rfl⟩

theorem runsEpidemic_of {cmds : List Cmd} {events : List Event} (h : runsEpidemic cmds events = true) : RunsEpidemic cmds events := by
  unfold runsEpidemic at h
  simp only [Bool.and_eq_true, decide_eq_true_eq] at h
  obtain ⟨⟨h1, h2⟩, h3⟩ := h
  refine ⟨fun hn => by rw [hn] at h1; exact absurd h1 (by simp), ?_, ?_, ?_⟩
  · intro ps r bp a hm
    apply mem_questionsOf.mp
    rw [← h2]
    exact List.mem_filterMap.mpr ⟨_, hm, rfl⟩
  · intro bp a hm
    have := mem_questionsOf.mpr hm
    rw [← h2] at this
    obtain ⟨x, k1, k2⟩ := List.mem_filterMap.mp this
    obtain ⟨cmd, o⟩ := x
    cases cmd with
    | senderForBundle ps r bp' =>
      simp only [Option.some.injEq, Prod.mk.injEq] at k2
      obtain ⟨rfl, rfl⟩ := k2
      exact ⟨ps, r, k1⟩
    | _ => cases k2
  · intro note hm
    exact .inl (by simpa using List.all_eq_true.mp h3 _ hm)

/-- Two stretches of an execution, with a call between them. -/
theorem exists_two {n : Node} (cs cs1 cs2 : List Choice) (f : Sys → Sys) (I J : Node → Node → Bool) (P : Node → Node → Node → Bool)
    (h : (exec ⟨n, []⟩ cs).any (fun s => (execAll (I s.node) s cs1).any fun s1 => (execAll (J s.node) (f s1) cs2).any fun t =>
      t.pool.isEmpty && P s.node s1.node t.node) = true) :
    ∃ n1 tasks n2 tasks2 m, Reaches .any ⟨n, []⟩ ⟨n1, tasks⟩ ∧ Throughout .any (fun w => I n1 w = true) ⟨n1, tasks⟩ ⟨n2, tasks2⟩ ∧
      Throughout .any (fun w => J n1 w = true) (f ⟨n2, tasks2⟩) ⟨m, []⟩ ∧ P n1 n2 m = true := by
  cases he : exec ⟨n, []⟩ cs with
  | none => rw [he] at h; cases h
  | some s =>
    rw [he] at h
    obtain ⟨n1, tasks⟩ := s
    dsimp only [Option.any_some] at h
    cases h1 : execAll (I n1) ⟨n1, tasks⟩ cs1 with
    | none => rw [h1] at h; cases h
    | some s1 =>
      rw [h1] at h
      obtain ⟨n2, tasks2⟩ := s1
      dsimp only [Option.any_some] at h
      cases hf : execAll (J n1) (f ⟨n2, tasks2⟩) cs2 with
      | none => rw [hf] at h; cases h
      | some t =>
        rw [hf] at h
        obtain ⟨m, pool⟩ := t
        simp only [Option.any_some, Bool.and_eq_true, List.isEmpty_iff] at h
        obtain ⟨rfl, h⟩ := h
        exact ⟨n1, tasks, n2, tasks2, m, exec_sound (.refl _) he, execAll_sound (fun hi => .refl hi) h1,
          execAll_sound (fun hi => .refl hi) hf, h⟩

end Dtn.Proc
