import Verif.Lemmas.Cron
import Verif.Lemmas.ProcExample
/-! Executions with the janitor that exist. -/

namespace Dtn.Cron
open Proc Spec
open Routing (Answer)

variable {su : Setup}

/-- One decision of a scheduler. -/
inductive Pick where
  | tick
  /-- the janitor makes a step, with these answers to its questions -/
  | main (a : Option Answer) (b : Bool) (s : String)
  /-- a task makes a step that the janitor has started -/
  | started (i : Nat) (a : Option Answer) (b : Bool) (s : String)
  | ended
  /-- another task makes a step -/
  | other (i : Nat) (a : Option Answer) (b : Bool) (s : String)
  | call (c : Call)
  | clock (t : Nat)
  | peers (ps : Peers)

/-- A step of a task in a list. -/
def inList (n : Node) (ps : List Prog) (i : Nat) (a : Option Answer) (b : Bool) (s : String) : Option (Node × List Prog) :=
  (runTask ⟨n, ps⟩ a b s i).map fun t => (t.node, t.pool)

theorem inList_sound {n n' : Node} {ps qs : List Prog} {i a b s} (h : inList n ps i a b s = some (n', qs)) :
    ∃ l r p new, ps = l ++ p :: r ∧ qs = l ++ new ++ r ∧ TaskStep n p n' new := by
  unfold inList at h
  cases ht : runTask ⟨n, ps⟩ a b s i with
  | none => rw [ht] at h; cases h
  | some t =>
    rw [ht] at h
    have st := runTask_sound (w := tasksOnly) ht
    obtain ⟨m, pool⟩ := t
    simp only [Option.map_some, Option.some.injEq, Prod.mk.injEq] at h
    obtain ⟨rfl, rfl⟩ := h
    cases st with
    | task l r p _ _ new h => exact ⟨l, r, p, new, rfl, rfl, h⟩
    | call _ _ _ h => exact h.elim
    | change _ _ _ h => exact h.elim

/-- One step. -/
def pick1 (su : Setup) (s : Sys) : Pick → Option Sys
  | .tick =>
    match s.phase with
    | .waiting => some ⟨(dropPeers su.peers s.node).log (.called .janitor), .round (some (su.task .janitor)) [], s.others⟩
    | _ => none
  | .main a b x =>
    match s.phase with
    | .round (some (.done _)) started => some ⟨s.node, .round none started, s.others⟩
    | .round (some .panic) started => some ⟨s.node, .stopped, started ++ s.others⟩
    | .round (some p) started =>
      match stepTask s.node a b x p with
      | some (n', k :: new) => some ⟨n', .round (some k) (new ++ started), s.others⟩
      | _ => none
    | _ => none
  | .started i a b x =>
    match s.phase with
    | .round m started => (inList s.node started i a b x).map fun r => ⟨r.1, .round m r.2, s.others⟩
    | _ => none
  | .ended =>
    match s.phase with
    | .round none [] => some ⟨s.node, .waiting, s.others⟩
    | _ => none
  | .other i a b x => (inList s.node s.others i a b x).map fun r => ⟨r.1, s.phase, r.2⟩
  | .call c => if c = .janitor then none else some ⟨s.node.log (.called c), s.phase, s.others ++ [su.task c]⟩
  | .clock t => some ⟨{ s.node with clock := t }, s.phase, s.others⟩
  | .peers ps => some ⟨{ s.node with peers := ps }, s.phase, s.others⟩

theorem pick1_sound {s t : Sys} {c : Pick} (h : pick1 su s c = some t) : Step su s t := by
  obtain ⟨n, ph, others⟩ := s
  cases c with
  | tick =>
    cases ph <;> simp only [pick1, Option.some.injEq, reduceCtorEq] at h
    subst h; exact .inl (.tick _ _)
  | main a b x =>
    cases ph with
    | waiting => cases h
    | stopped => cases h
    | round m started =>
      cases m with
      | none => cases h
      | some p =>
        have gen : (match stepTask n a b x p with
            | some (n', k :: new) => some (⟨n', .round (some k) (new ++ started), others⟩ : Sys)
            | _ => none) = some t → Step su ⟨n, .round (some p) started, others⟩ t := by
          intro h
          split at h
          · rename_i n' k new he
            simp only [Option.some.injEq] at h
            subst h
            exact .inl (.main _ _ _ _ _ _ _ (stepTask_sound he))
          · cases h
        cases p with
        | done ok => simp only [pick1, Option.some.injEq] at h; subst h; exact .inl (.returned _ _ _ _)
        | panic => simp only [pick1, Option.some.injEq] at h; subst h; exact .inl (.panicked _ _ _)
        | act f k => exact gen h
        | route bp k => exact gen h
        | choose k => exact gen h
        | fresh k => exact gen h
        | spawn t k => exact gen h
        | wait c k => exact gen h
  | started i a b x =>
    cases ph with
    | waiting => cases h
    | stopped => cases h
    | round m started =>
      simp only [pick1, Option.map_eq_some_iff, Prod.exists] at h
      obtain ⟨n', qs, h, rfl⟩ := h
      obtain ⟨l, r, p, new, rfl, rfl, st⟩ := inList_sound h
      exact .inl (.started _ _ _ _ _ _ _ _ st)
  | ended =>
    cases ph with
    | waiting => cases h
    | stopped => cases h
    | round m started =>
      cases m with
      | some p => cases h
      | none =>
        cases started with
        | cons p ps => cases h
        | nil => simp only [pick1, Option.some.injEq] at h; subst h; exact .inl (.ended _ _)
  | other i a b x =>
    simp only [pick1, Option.map_eq_some_iff, Prod.exists] at h
    obtain ⟨n', qs, h, rfl⟩ := h
    obtain ⟨l, r, p, new, rfl, rfl, st⟩ := inList_sound h
    exact .inr (.task _ _ _ _ _ _ _ st)
  | call c =>
    simp only [pick1] at h
    split at h
    · cases h
    · simp only [Option.some.injEq] at h
      subst h
      exact .inr (.call _ _ _ _ (by assumption))
  | clock t => simp only [pick1, Option.some.injEq] at h; subst h; exact .inr (.change _ _ _ _ (.clock _ _))
  | peers t => simp only [pick1, Option.some.injEq] at h; subst h; exact .inr (.change _ _ _ _ (.peers _ _))

/-- A whole schedule. -/
def picks (su : Setup) : Sys → List Pick → Option Sys
  | s, [] => some s
  | s, c :: cs =>
    match pick1 su s c with
    | none => none
    | some t => picks su t cs

theorem picks_sound {s0 s t : Sys} {cs : List Pick} (h0 : Reaches su s0 s) (h : picks su s cs = some t) : Reaches su s0 t := by
  induction cs generalizing s with
  | nil => simp only [picks, Option.some.injEq] at h; subst h; exact h0
  | cons c cs ih =>
    unfold picks at h
    cases h1 : pick1 su s c with
    | none => rw [h1] at h; cases h
    | some u => rw [h1] at h; exact ih (h0.step (pick1_sound h1)) h

/-- A state with a property is reached. -/
theorem exists_state {s : Sys} (cs : List Pick) (c : Sys → Bool) (h : (picks su s cs).any c = true) :
    ∃ t, Reaches su s t ∧ c t = true := by
  cases ht : picks su s cs with
  | none => rw [ht] at h; cases h
  | some t => rw [ht] at h; exact ⟨t, picks_sound (.refl _) ht, h⟩

/-- A schedule in which all states pass a test. -/
def picksAll (su : Setup) (c : Node → Bool) : Sys → List Pick → Option Sys
  | s, [] => some s
  | s, x :: xs =>
    match pick1 su s x with
    | none => none
    | some t => if c t.node then picksAll su c t xs else none

theorem picksAll_sound {c : Node → Bool} {s0 s t : Sys} {xs : List Pick} (h0 : JanitorThroughout su (c · = true) s0 s)
    (h : picksAll su c s xs = some t) : JanitorThroughout su (c · = true) s0 t := by
  induction xs generalizing s with
  | nil => simp only [picksAll, Option.some.injEq] at h; subst h; exact h0
  | cons x xs ih =>
    unfold picksAll at h
    cases h1 : pick1 su s x with
    | none => rw [h1] at h; cases h
    | some u =>
      rw [h1] at h
      dsimp only at h
      by_cases hc : c u.node = true
      · rw [if_pos hc] at h; exact ih (h0.step (pick1_sound h1) hc) h
      · rw [if_neg hc] at h; cases h

theorem exists_janitorThroughout {s : Sys} {I : Node → Prop} (c : Node → Bool) (hI : ∀ n, c n = true → I n) (xs : List Pick) (d : Sys → Bool)
    (h : (c s.node && (picksAll su c s xs).any d) = true) : ∃ t, JanitorThroughout su I s t ∧ d t = true := by
  rw [Bool.and_eq_true] at h
  cases ht : picksAll su c s xs with
  | none => rw [ht] at h; cases h.2
  | some t =>
    rw [ht] at h
    have := picksAll_sound (.refl h.1) ht
    refine ⟨t, ?_, h.2⟩
    clear ht h
    induction this with
    | refl h => exact .refl (hI _ h)
    | step _ st h ih => exact ih.step st (hI _ h)

/-- From every state, an execution goes on for ever. If the janitor has stopped, it may be that nothing happens any more. -/
theorem exists_forever (s : Sys) : ∃ f : Nat → Sys, f 0 = s ∧ JanitorRun su f ∧ (s.phase = .stopped → ∀ i, f i = s) := by
  classical
  let next : Sys → Sys := fun s => if h : ∃ t, Own su s t then h.choose else s
  refine ⟨fun i => next^[i] s, rfl, ⟨fun i => ?_, fun i h => ⟨i, Nat.le_refl _, ?_⟩⟩, fun h i => ?_⟩
  · rw [Function.iterate_succ_apply']
    generalize next^[i] s = s
    by_cases h : ∃ t, Own su s t
    · left
      have : next s = h.choose := dif_pos h
      rw [this]; exact h.choose_spec
    · right
      have : next s = s := dif_neg h
      rw [this]
      exact .change s.node s.node s.phase s.others (.clock _ s.node.clock)
  · rw [Function.iterate_succ_apply']
    have : next (next^[i] s) = h.choose := dif_pos h
    rw [this]; exact h.choose_spec
  · have : next s = s := dif_neg (by rintro ⟨t, ht⟩; cases ht <;> cases h)
    exact Function.iterate_fixed this i

/-- Every state that can be reached lies on an execution that goes on for ever. -/
theorem exists_run {s0 s : Sys} (h : Reaches su s0 s) (held : Held s) :
    ∃ (f : Nat → Sys) (i : Nat), f 0 = s0 ∧ f i = s ∧ JanitorRun su f ∧ (s.phase = .stopped → ∀ j, i ≤ j → f j = s) := by
  have : ∀ {a b : Sys}, Reaches su a b → ∀ f : Nat → Sys, f 0 = b → JanitorRun su f → (b.phase ≠ .stopped → ∃ j, Own su (f j) (f (j + 1))) →
      ∃ (g : Nat → Sys) (i : Nat), g 0 = a ∧ (∀ j, g (i + j) = f j) ∧ JanitorRun su g := by
    intro a b hr
    induction hr with
    | refl => exact fun f h0 hf _ => ⟨f, 0, h0, fun j => by rw [Nat.zero_add], hf⟩
    | @step t u hr st ih =>
      intro f h0 hf ho
      let g : Nat → Sys := fun i => match i with | 0 => t | i + 1 => f i
      have later : t.phase ≠ .stopped → ∃ j, Own su (g j) (g (j + 1)) := by
        intro ht
        by_cases hu : u.phase = .stopped
        · refine ⟨0, ?_⟩
          show Own su t (f 0)
          rw [h0]
          rcases st with st | st
          · exact st
          · rw [other_phase st] at hu; exact absurd hu ht
        · obtain ⟨j, hj⟩ := ho hu
          exact ⟨j + 1, hj⟩
      have hg : JanitorRun su g := by
        refine ⟨fun i => ?_, fun i h => ?_⟩
        · cases i with
          | zero => show Step su t (f 0); rw [h0]; exact st
          | succ i => exact hf.steps i
        · cases i with
          | zero =>
            obtain ⟨j, hj⟩ := later (by intro hs; obtain ⟨v, hv⟩ := h; change Own su t v at hv; cases hv <;> cases hs)
            exact ⟨j, by omega, hj⟩
          | succ i =>
            obtain ⟨k, h1, h2⟩ := hf.fair i h
            exact ⟨k + 1, by omega, h2⟩
      obtain ⟨g', i, k1, k2, k3⟩ := ih g rfl hg later
      exact ⟨g', i + 1, k1, fun j => by rw [show i + 1 + j = i + (j + 1) by omega]; exact k2 (j + 1), k3⟩
  obtain ⟨f, h0, hf, hc⟩ := exists_forever (su := su) s
  obtain ⟨g, i, k1, k2, k3⟩ := this h f h0 hf (fun on => by
    obtain ⟨t, ht⟩ := own_step (su := su) held on
    obtain ⟨j, -, hj⟩ := hf.fair 0 ⟨t, by rw [h0]; exact ht⟩
    exact ⟨j, hj⟩)
  refine ⟨g, i, k1, by have := k2 0; rw [Nat.add_zero] at this; rw [this, h0], k3, fun hs j hj => ?_⟩
  obtain ⟨j, rfl⟩ := Nat.exists_eq_add_of_le hj
  rw [k2, hc hs]

end Dtn.Cron

namespace Dtn.Proc.Ex
open Cron
open Routing (Answer)

/-- A bundle whose previous node block cannot be read. -/
def unreadable : Bundle := strange [⟨PREVIOUS_NODE_BLOCK, 4, {}, .data [3]⟩]

def peerCfg : PeerCfg := ⟨20, false⟩

/-- A neighbour that was last seen at time 0. -/
def neighbour : Peer := { eid := .dtn "n7" "", addr := .generic "x", conType := .dynamic, period := none, claList := [], lastContact := 0, fails := 0 }

/-- Can the previous node blocks of all stored bundles be read? -/
def allReadable (n : Node) : Bool :=
  n.store.bundles.all fun e => !(e.2.canonicals.any fun c => decide (c.btype = PREVIOUS_NODE_BLOCK)) || (Spec.previousNode e.2).isSome

theorem allReadable_of {n : Node} (h : allReadable n = true) : Spec.AllReadable n := by
  intro bid b hb hc
  have := List.all_eq_true.mp h (bid, b) (AList.mem_of_get? hb)
  rcases Bool.or_eq_true _ _ |>.mp this with h | h
  · obtain ⟨c, hc, ht⟩ := hc
    simp only [Bool.not_eq_true', List.any_eq_false, decide_eq_true_eq] at h
    exact absurd ht (h c hc)
  · intro hn; rw [hn] at h; cases h

/-- A bundle is received while the janitor waits; the router does not answer. -/
def arrives (b : Bundle) : List Pick := .call (.receive b) :: List.replicate 15 (.other 0 none true "r")

end Dtn.Proc.Ex
