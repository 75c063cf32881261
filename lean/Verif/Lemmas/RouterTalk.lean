import Verif.Spec.RouterTalk
import Verif.Lemmas.ProcWeights
import Verif.Lemmas.ProcWalks
import Verif.Lemmas.ProcOnly
import Verif.Lemmas.Epidemic
import Mathlib.Data.List.Nodup
/-! A node and its router taken together. -/

namespace Dtn.Proc
open Routing Spec

/-- How often an answer names the neighbour. -/
def namedFor (bid node : String) : Event → Nat
  | .asked bp (some a) => if bp.id = bid then a.clas.countP (fun s => decide (s.nextHop.node = some node)) else 0
  | _ => 0

theorem count_for (node : String) (l : List Sender) :
    (l.map fun x => if x.nextHop.node = some node then (1 : Int) else 0).sum =
      l.countP (fun s => decide (s.nextHop.node = some node)) := by
  induction l with
  | nil => rfl
  | cons x l ih =>
    simp only [List.map_cons, List.sum_cons, ih, List.countP_cons, decide_eq_true_eq]
    split_ifs <;> simp; omega

theorem W_sendingFor (bid node : String) :
    ({ ev := fun e => one (isSendingFor bid node) e - (namedFor bid node e : Int)
       trans := fun t => if t.stored.id = bid ∧ t.to.nextHop.node = some node then 1 else 0
       strict := True } : Weights).OK := by
  constructor <;> intros
  case askedSent bp a mk ha hmk =>
    simp only [one, isSendingFor, namedFor, hmk, Bool.false_eq_true, if_false]
    by_cases hb : bp.id = bid
    · simp only [hb, if_true, true_and, count_for]; omega
    · simp [hb]
  all_goals wsolve [isSendingFor, namedFor]

theorem W_ended (bid node : String) :
    ({ ev := fun e => one (isOutcomeFor true bid node) e + one (isTold false bid node) e - one (isSendingFor bid node) e
       strict := True } : Weights).OK := by
  constructor <;> intros
  all_goals wsolve [isSendingFor, isOutcomeFor, isTold]

/-- Copies go where the router said. -/
theorem sendingFor_le {cfg : Config} {clock : Nat} {s : Sys} (run : Reaches .any ⟨Node.start cfg clock, []⟩ s)
    (bid node : String) :
    s.node.events.countP (isSendingFor bid node) ≤ (s.node.events.map (namedFor bid node)).sum := by
  have a := (W_sendingFor bid node).always trivial run (by simp)
  simp only [Weights.total, sum_sub, sum_one, sum_cast] at a
  omega

/-- Successes and failures told to the router come from copies. -/
theorem ended_le {cfg : Config} {clock : Nat} {s : Sys} (run : Reaches .any ⟨Node.start cfg clock, []⟩ s)
    (bid node : String) :
    s.node.events.countP (isOutcomeFor true bid node) + s.node.events.countP (isTold false bid node) ≤
      s.node.events.countP (isSendingFor bid node) := by
  have a := (W_ended bid node).always trivial run (by simp)
  simp only [Weights.total, sum_sub, sum_add, sum_one] at a
  omega

/-- Only questions to the router put questions into the log. -/
def NoAsk : Prog → Prop
  | .done _ => True
  | .panic => True
  | .act f k => ∀ m, (∃ es, (f m).events = m.events ++ es ∧ ∀ bp a, .asked bp a ∉ es) ∧ NoAsk (k m)
  | .route _ k => ∀ a, NoAsk (k a)
  | .choose k => ∀ b, NoAsk (k b)
  | .fresh k => ∀ s, NoAsk (k s)
  | .spawn t k => NoAsk t ∧ NoAsk k
  | .wait _ k => NoAsk k

theorem noAsk_walks : Walks (fun n m => ∃ es, m.events = n.events ++ es ∧ ∀ bp a, .asked bp a ∉ es) (fun _ => True) NoAsk NoAsk where
  aside n m es _ _ he h := ⟨es, he, fun bp a hm => h _ hm⟩
  deliver n e b room := by
    unfold Node.deliver
    split
    · exact ⟨[], by simp, by simp⟩
    · exact ⟨[.delivered e b _], rfl, by simp⟩
  pop n e := by
    unfold Node.popAgent
    split
    · exact ⟨[], by simp, by simp⟩
    · split
      · exact ⟨[], by simp, by simp⟩
      · exact ⟨[.popped e _], rfl, by simp⟩
  act h := fun m => h m trivial
  choose h := h
  fresh h := h
  spawn h h' := ⟨h, h'⟩
  wait h := h
  route _ _ h := h

theorem noAsk_call (c : Call) : NoAsk c.prog := noAsk_walks.call (fun _ => trivial) trivial c

/-- A step logs no question, or one and nothing else. -/
def AskStep (n m : Node) : Prop :=
  (∃ es, m.events = n.events ++ es ∧ ∀ bp a, .asked bp a ∉ es) ∨ ∃ bp a, m.events = n.events ++ [.asked bp a]

theorem NoAsk.step {n m : Node} {p : Prog} {ps : List Prog} (h : NoAsk p) (s : TaskStep n p m ps) :
    AskStep n m ∧ ∀ q ∈ ps, NoAsk q := by
  have refl : AskStep n n := .inl ⟨[], by simp, by simp⟩
  cases s with
  | done | panic => exact ⟨refl, by simp⟩
  | act => exact ⟨.inl (h n).1, by simpa using (h n).2⟩
  | route bp k a => exact ⟨.inr ⟨bp, a, rfl⟩, by simpa using h a⟩
  | choose k b => exact ⟨refl, by simpa using h b⟩
  | fresh k s => exact ⟨refl, by simpa using h s⟩
  | spawn t k => exact ⟨refl, by simpa using ⟨h.2, h.1⟩⟩
  | wait c k => exact ⟨refl, fun q hq => by rw [List.mem_singleton.mp hq]; exact h⟩

theorem outside_events {n m : Node} (h : Outside n m) : m.events = n.events := by cases h <;> rfl

/-- Induction over an execution in terms of the questions. -/
theorem ask_induct {s t : Sys} {P : Node → Prop} (run : Reaches .any s t) (hp : ∀ p ∈ s.pool, NoAsk p) (h0 : P s.node)
    (silent : ∀ u v es, Reaches .any s u → Reaches .any s v → Reaches .any v t → P u.node →
      v.node.events = u.node.events ++ es → (∀ bp a, .asked bp a ∉ es) → P v.node)
    (ask : ∀ u v bp a, Reaches .any s u → Reaches .any s v → Reaches .any v t → P u.node →
      v.node.events = u.node.events ++ [.asked bp a] → P v.node) : P t.node := by
  have key : ∀ u, Reaches .any s u → Reaches .any u t → (∀ p ∈ u.pool, NoAsk p) ∧ P u.node := by
    intro u hu
    induction hu with
    | refl => intro _; exact ⟨hp, h0⟩
    | @step u v hu hs ih =>
      intro hv
      have trans : ∀ {a b c : Sys}, Reaches .any a b → Reaches .any b c → Reaches .any a c := by
        intro a b c h1 h2
        induction h2 with
        | refl => exact h1
        | step _ hs ih => exact ih.step hs
      obtain ⟨hpool, hP⟩ := ih (trans (.step (.refl _) hs) hv)
      have hsv := hu.step hs
      cases hs with
      | task l r p n n' ps ht =>
        obtain ⟨g, hq⟩ := (hpool p (by simp)).step ht
        refine ⟨?_, ?_⟩
        · intro q hq'
          simp only [List.append_assoc, List.mem_append] at hq'
          rcases hq' with h | h | h
          · exact hpool q (by simp [h])
          · exact hq q h
          · exact hpool q (by simp [h])
        · rcases g with ⟨es, h1, h2⟩ | ⟨bp, a, h1⟩
          · exact silent _ _ es hu hsv hv hP h1 h2
          · exact ask _ _ bp a hu hsv hv hP h1
      | call n pool c h =>
        refine ⟨?_, silent _ _ [.called c] hu hsv hv hP rfl (by simp)⟩
        intro q hq
        simp only [List.mem_append, List.mem_singleton] at hq
        rcases hq with h | rfl
        · exact hpool q h
        · exact noAsk_call c
      | change n n' pool h =>
        exact ⟨hpool, silent _ _ [] hu hsv hv hP (by simp [outside_events h]) (by simp)⟩
  exact (key t run (.refl t)).2

/-! ## Epidemic routing -/

/-- What matters in the log is what was said. -/
theorem sum_talk (bid node : String) (events : List Event) :
    ((events.filterMap nodeTalk).map (namedFor bid node)).sum = (events.map (namedFor bid node)).sum := by
  induction events with
  | nil => rfl
  | cons e l ih =>
    cases e <;> simp only [List.filterMap_cons, nodeTalk, List.map_cons, List.sum_cons, ih] <;> try (simp [namedFor]; done)
    rename_i x
    cases x <;> simp [aboutPeers, namedFor, ih]

theorem told_talk (ok : Bool) (bid node : String) (events : List Event) :
    (events.filterMap nodeTalk).countP (isTold ok bid node) = events.countP (isTold ok bid node) := by
  induction events with
  | nil => rfl
  | cons e l ih =>
    cases e <;> simp only [List.filterMap_cons, nodeTalk] <;> try (simpa [isTold, List.countP_cons] using ih)
    rename_i x
    cases x <;> simp [aboutPeers, List.countP_cons, ih, isTold]

/-- The neighbour will not be named for the bundle unless a failure is told. -/
def Covered (bid node : String) (t : Epidemic.Task) : Prop := ∀ c, t.core = some c → c.contains bid node = true

theorem countP_selected (node : String) (a : Answer) :
    a.clas.countP (fun s => decide (s.nextHop.node = some node)) ≤ (selected a).count node := by
  unfold selected
  rw [List.count_eq_countP, List.countP_map]
  apply List.countP_mono_left
  intro s _ h
  simp only [decide_eq_true_eq] at h
  simp [h]

theorem epidemic_answer {bid node : String} {t : Epidemic.Task} {ps : List Peer} {r : List Cla} {bp : Pack} :
    (Covered bid node t → Covered bid node (t.step (.senderForBundle ps r bp)) ∧
      namedFor bid node (.asked bp ((t.step (.senderForBundle ps r bp)).log.getLast?.bind Prod.snd)) = 0) ∧
    namedFor bid node (.asked bp ((t.step (.senderForBundle ps r bp)).log.getLast?.bind Prod.snd)) ≤ 1 ∧
    (namedFor bid node (.asked bp ((t.step (.senderForBundle ps r bp)).log.getLast?.bind Prod.snd)) = 1 →
      Covered bid node (t.step (.senderForBundle ps r bp))) := by
  unfold Epidemic.Task.step
  cases hc : t.core with
  | none => simp [namedFor, Covered, hc]
  | some c =>
    cases hs : c.senderForBundle ps r bp with
    | none => simp [hs, namedFor, Covered]
    | some x =>
      obtain ⟨c', a⟩ := x
      obtain ⟨h1, h2, h3, h4⟩ := Epidemic.loop_spec bp r ps c [] c' a hs
      have hn := Epidemic.loop_nodup bp r ps c [] c' a hs (by simp) (by simp)
      simp only [hs, List.getLast?_concat, Option.bind_some, namedFor, Covered, Option.some.injEq, forall_eq', hc]
      by_cases hb : bp.id = bid
      · subst hb
        simp only [if_true]
        have hle := countP_selected node a
        have h1' : (selected a).count node ≤ 1 := List.nodup_iff_count_le_one.mp hn node
        refine ⟨fun hcov => ⟨h2 _ hcov, ?_⟩, by omega, fun h => ?_⟩
        · have : node ∉ selected a := by
            intro hm
            rcases h1 node hm with h | h
            · simp at h
            · rw [hcov] at h; simp at h
          have := List.count_eq_zero_of_not_mem this
          omega
        · have : 0 < (selected a).count node := by omega
          rcases h3 node (List.count_pos_iff.mp this) with h | h
          · simp at h
          · exact h
      · simp only [if_neg hb]
        refine ⟨fun hcov => ⟨by rw [h4 _ _ (Ne.symm hb)]; exact hcov, trivial⟩, by omega, by simp⟩

theorem covered_step {bid node : String} {t : Epidemic.Task} {cmd : Cmd} (h : Covered bid node t)
    (hn : cmd ≠ .notify (.sendingFailed bid node)) (hs : ∀ ps r bp, cmd ≠ .senderForBundle ps r bp) :
    Covered bid node (t.step cmd) := by
  intro c hc
  unfold Epidemic.Task.step at hc
  cases hcore : t.core with
  | none => rw [hcore] at hc; cases cmd <;> simp_all
  | some d =>
    rw [hcore] at hc
    cases cmd with
    | senderForBundle ps r bp => exact absurd rfl (hs ps r bp)
    | notify x =>
      simp only [Option.some.injEq] at hc
      subst hc
      exact Epidemic.contains_notify d x bid node (h d hcore) (fun e => hn (by rw [e]))
    | command => simp only [hcore, Option.some.injEq] at hc; subst hc; exact h d hcore
    | shutdown => simp at hc

/-- Epidemic routing names a neighbour once, and once more for every failure. -/
theorem epidemic_bound (bid node : String) : ∀ (cmds : List Cmd) (t : Epidemic.Task) (T : List Event),
    T <+: (Spec.answered t cmds).filterMap routerTalk →
    (T.map (namedFor bid node)).sum ≤ T.countP (isTold false bid node) + 1 ∧
    (Covered bid node t → (T.map (namedFor bid node)).sum ≤ T.countP (isTold false bid node)) := by
  intro cmds
  induction cmds with
  | nil =>
    intro t T h
    simp only [Spec.answered, List.filterMap_nil, List.prefix_nil] at h
    subst h; simp
  | cons cmd cmds ih =>
    intro t T h
    cases cmd with
    | senderForBundle ps r bp =>
      simp only [Spec.answered, List.filterMap_cons, routerTalk] at h
      rcases List.prefix_cons_iff.mp h with rfl | ⟨T', rfl, h'⟩
      · simp
      · obtain ⟨a1, a2⟩ := ih _ _ h'
        obtain ⟨b1, b2, b3⟩ := epidemic_answer (bid := bid) (node := node) (t := t) (ps := ps) (r := r) (bp := bp)
        simp only [List.map_cons, List.sum_cons, List.countP_cons, isTold]
        generalize namedFor bid node (.asked bp ((t.step (.senderForBundle ps r bp)).log.getLast?.bind Prod.snd)) = x at *
        refine ⟨?_, fun hc => ?_⟩
        · by_cases hx : x = 1
          · have := a2 (b3 hx); simp; omega
          · simp; omega
        · obtain ⟨c1, c2⟩ := b1 hc
          have := a2 c1
          simp; omega
    | notify x =>
      simp only [Spec.answered, List.filterMap_cons, routerTalk] at h
      by_cases hx : x = .sendingFailed bid node
      · subst hx
        simp only [aboutPeers, Bool.false_eq_true, if_false] at h
        rcases List.prefix_cons_iff.mp h with rfl | ⟨T', rfl, h'⟩
        · simp
        · obtain ⟨a1, -⟩ := ih _ _ h'
          simp only [List.map_cons, List.sum_cons, List.countP_cons, isTold, namedFor]
          simp; omega
      · have hcov : Covered bid node t → Covered bid node (t.step (.notify x)) := fun hc =>
          covered_step hc (by simpa using hx) (by simp)
        by_cases hp : aboutPeers x = true
        · rw [if_pos hp] at h
          obtain ⟨a1, a2⟩ := ih _ _ h
          exact ⟨a1, fun hc => a2 (hcov hc)⟩
        · rw [if_neg hp] at h
          rcases List.prefix_cons_iff.mp h with rfl | ⟨T', rfl, h'⟩
          · simp
          · obtain ⟨a1, a2⟩ := ih _ _ h'
            simp only [List.map_cons, List.sum_cons, List.countP_cons, namedFor]
            refine ⟨by omega, fun hc => ?_⟩
            have := a2 (hcov hc)
            omega
    | command s =>
      simp only [Spec.answered, List.filterMap_cons, routerTalk] at h
      obtain ⟨a1, a2⟩ := ih _ _ h
      exact ⟨a1, fun hc => a2 (covered_step hc (by simp) (by simp))⟩
    | shutdown =>
      simp only [Spec.answered, List.filterMap_cons, routerTalk] at h
      obtain ⟨a1, a2⟩ := ih _ _ h
      exact ⟨a1, fun hc => a2 (covered_step hc (by simp) (by simp))⟩

theorem covered_says {bid node : String} {x : Notification} (h : SaysFrom bid node (.note x)) (hn : node ≠ "") (t : Epidemic.Task) :
    Covered bid node (t.step (.notify x)) := by
  intro c hc
  unfold Epidemic.Task.step at hc
  cases hcore : t.core with
  | none => rw [hcore] at hc; simp_all
  | some d =>
    rw [hcore] at hc
    simp only [Option.some.injEq] at hc
    subst hc
    cases x with
    | incomingBundle b =>
      obtain ⟨rfl, hp⟩ := h
      change (Routing.previousNode b).bind EID.node = some node at hp
      simp only [Epidemic.notify]
      cases hpn : Routing.previousNode b with
      | none => rw [hpn] at hp; simp at hp
      | some e =>
        rw [hpn] at hp
        simp only [Option.bind_some] at hp
        simp [hp, Epidemic.contains_incomingBundle, hn]
    | incomingBundleWithoutPreviousNode i m =>
      obtain ⟨rfl, rfl⟩ := h
      simp [Epidemic.notify, Epidemic.contains_incomingBundle, hn]
    | _ => exact h.elim

/-- If it is told first where the bundle came from, it names that neighbour only after failures. -/
theorem epidemic_back (bid node : String) (hn : node ≠ "") {x : Notification} (hx : SaysFrom bid node (.note x)) :
    ∀ (cmds : List Cmd) (t : Epidemic.Task) (A B T : List Event),
    (Spec.answered t cmds).filterMap routerTalk = A ++ .note x :: B → (∀ bp a, .asked bp a ∈ A → bp.id ≠ bid) →
    T <+: A ++ .note x :: B → (T.map (namedFor bid node)).sum ≤ T.countP (isTold false bid node) := by
  have unnamed : ∀ (e : Event), (∀ bp a, e = .asked bp a → bp.id ≠ bid) → namedFor bid node e = 0 := by
    intro e h
    cases e <;> try rfl
    rename_i bp a
    cases a with
    | none => rfl
    | some a => simp [namedFor, h bp (some a) rfl]
  intro cmds
  induction cmds with
  | nil => intro t A B T h; simp [Spec.answered] at h
  | cons cmd cmds ih =>
    intro t A B T h hA hT
    -- the case of a first sentence
    have head : ∀ (e : Event), e :: (Spec.answered (t.step cmd) cmds).filterMap routerTalk = A ++ .note x :: B →
        (e = .note x → cmd = .notify x) →
        (T.map (namedFor bid node)).sum ≤ T.countP (isTold false bid node) := by
      intro e he hcmd
      cases A with
      | nil =>
        simp only [List.nil_append, List.cons.injEq] at he
        obtain ⟨rfl, rfl⟩ := he
        rcases List.prefix_cons_iff.mp hT with rfl | ⟨T', rfl, h'⟩
        · simp
        · have := (epidemic_bound bid node cmds _ T' h').2 (by rw [hcmd rfl]; exact covered_says hx hn t)
          simp only [List.map_cons, List.sum_cons, List.countP_cons, namedFor]
          omega
      | cons e' A =>
        simp only [List.cons_append, List.cons.injEq] at he
        obtain ⟨rfl, he⟩ := he
        rcases List.prefix_cons_iff.mp hT with rfl | ⟨T', rfl, h'⟩
        · simp
        · have := ih _ A B T' he (fun bp a hm => hA bp a (List.mem_cons_of_mem _ hm)) h'
          have h0 := unnamed e (fun bp a ha => hA bp a (by simp [ha]))
          simp only [List.map_cons, List.sum_cons, List.countP_cons, h0]
          omega
    cases cmd with
    | senderForBundle ps r bp =>
      simp only [Spec.answered, List.filterMap_cons, routerTalk] at h
      exact head _ h (by simp)
    | notify y =>
      simp only [Spec.answered, List.filterMap_cons, routerTalk] at h
      by_cases hp : aboutPeers y = true
      · rw [if_pos hp] at h; exact ih _ A B T h hA hT
      · rw [if_neg hp] at h; exact head _ h (by simp)
    | command s =>
      simp only [Spec.answered, List.filterMap_cons, routerTalk] at h
      exact ih _ A B T h hA hT
    | shutdown =>
      simp only [Spec.answered, List.filterMap_cons, routerTalk] at h
      exact ih _ A B T h hA hT

end Dtn.Proc
