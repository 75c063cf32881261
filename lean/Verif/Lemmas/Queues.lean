import Verif.Lemmas.ProcSteps
import Verif.Lemmas.ProcWeights
import Verif.Lemmas.ProcRemoved
import Verif.Spec.Queues
/-! The waiting bundles of an endpoint agree with what happened. -/

namespace Dtn.Proc
open Routing (Notification Answer)
open Spec

variable {e : EID} {n m : Node}

theorem waitingAt_find (e : EID) (n : Node) : waitingAt e n = ((n.agents.find e).map AppAgent.queue).getD [] := by
  unfold waitingAt Registry.find
  have : (fun a : AppAgent => decide (a.eid = e)) = fun a => decide (e = a.eid) := by
    funext a; simp only [decide_eq_decide]; exact eq_comm
  rw [this]
  cases List.find? (fun a : AppAgent => decide (e = a.eid)) n.agents <;> rfl

theorem queued_append (e : EID) (l r : List Event) : queued e (l ++ r) = queued e l ++ queued e r := by
  induction l with
  | nil => rfl
  | cons x l ih =>
    rw [List.cons_append]
    cases x with
    | delivered e' b ch =>
      cases ch with
      | none => simp only [queued, ih]; split <;> rfl
      | some c => simp only [queued, ih]
    | _ => simp only [queued, ih]

theorem fetched_append (e : EID) (l r : List Event) : fetched e (l ++ r) = fetched e l ++ fetched e r := by
  induction l with
  | nil => rfl
  | cons x l ih =>
    rw [List.cons_append]
    cases x with
    | popped e' b => simp only [fetched, ih]; split <;> rfl
    | _ => simp only [fetched, ih]

theorem queued_aside {es : List Event} (h : ∀ x ∈ es, Aside x) : queued e es = [] ∧ fetched e es = [] := by
  induction es with
  | nil => exact ⟨rfl, rfl⟩
  | cons x es ih =>
    obtain ⟨h1, h2⟩ := ih fun y hy => h y (by simp [hy])
    have hx := h x (by simp)
    cases x with
    | delivered => exact hx.elim
    | popped => exact hx.elim
    | _ => exact ⟨h1, h2⟩

/-- The queue of an endpoint agrees with what happened in between. -/
def Kept (e : EID) (n m : Node) : Prop :=
  ∃ es, m.events = n.events ++ es ∧ waitingAt e n ++ queued e es = fetched e es ++ waitingAt e m

theorem Kept.trans {a b c : Node} (h : Kept e a b) (k : Kept e b c) : Kept e a c := by
  obtain ⟨es, h1, h2⟩ := h
  obtain ⟨fs, k1, k2⟩ := k
  refine ⟨es ++ fs, by rw [k1, h1, List.append_assoc], ?_⟩
  rw [queued_append, fetched_append, ← List.append_assoc, h2, List.append_assoc, k2, List.append_assoc]

theorem Kept.same {n m : Node} (he : m.events = n.events) (hw : waitingAt e m = waitingAt e n) : Kept e n m :=
  ⟨[], by simp [he], by simp [queued, fetched, hw]⟩

theorem waitingAt_deliver (n : Node) (e e' : EID) (b : Bundle) (room : Bool) :
    Kept e n (n.deliver e' b room) := by
  unfold Node.deliver
  split
  · exact .same rfl rfl
  · rename_i a ha
    refine ⟨[.delivered e' b (a.push b room).2], rfl, ?_⟩
    rw [waitingAt_find, waitingAt_find]
    simp only [Node.log]
    rw [Registry.find_modify _ _ _ _ (by simp)]
    by_cases h : e' = e
    · subst h
      rw [ha]
      unfold AppAgent.push
      cases hdl : a.delivery with
      | none => simp [queued, fetched, hdl]
      | some ch => cases room <;> simp [queued, fetched, hdl]
    · have h' : ¬ e = e' := fun x => h x.symm
      have hq : queued e [.delivered e' b (a.push b room).2] = [] := by
        cases (a.push b room).2 <;> simp [queued, h]
      rw [hq]
      simp [h', fetched]

theorem waitingAt_pop (n : Node) (e e' : EID) : Kept e n (n.popAgent e') := by
  unfold Node.popAgent
  split
  · exact .same rfl rfl
  · rename_i a ha
    split
    · exact .same rfl rfl
    · rename_i b hb
      refine ⟨[.popped e' b], rfl, ?_⟩
      rw [waitingAt_find, waitingAt_find]
      simp only [Node.log]
      rw [Registry.find_modify _ _ _ _ (by simp)]
      by_cases h : e' = e
      · subst h
        rw [ha]
        unfold AppAgent.pop at hb ⊢
        cases hq : a.queue with
        | nil => rw [hq] at hb; cases hb
        | cons x xs =>
          rw [hq] at hb
          cases hb
          simp [queued, fetched]
          rw [hq]
      · have h' : ¬ e = e' := fun x => h x.symm
        simp [h', fetched, queued, h]

theorem kept_steps (e : EID) : Steps (Kept e) where
  aside n m es ha _ he h := by
    obtain ⟨h1, h2⟩ := queued_aside (e := e) h
    refine ⟨es, he, ?_⟩
    rw [h1, h2]
    simp [waitingAt, ha]
  deliver n e' b room := waitingAt_deliver n e e' b room
  pop n e' := waitingAt_pop n e e'

/-- The same endpoints are registered. -/
def SameEids (n m : Node) : Prop := m.agents.eids = n.agents.eids

theorem sameEids_steps : Steps SameEids where
  aside n m es ha _ _ _ := by unfold SameEids; rw [ha]
  deliver n e' b room := by
    unfold SameEids Node.deliver
    split
    · rfl
    · exact Registry.eids_modify _ _ _ (by simp)
  pop n e' := by
    unfold SameEids Node.popAgent
    split
    · rfl
    · split
      · rfl
      · exact Registry.eids_modify _ _ _ (by simp)

theorem nodup_outside (h : Outside n m) (ih : n.agents.eids.Nodup) : m.agents.eids.Nodup := by
  cases h with
  | clock | peers | cla => exact ih
  | register eid =>
    show (Registry.eids (Registry.register n.agents (AppAgent.with eid))).Nodup
    rw [Registry.eids_register]
    split
    · exact ih
    · rename_i hh
      rw [Registry.has_iff] at hh
      rw [List.nodup_append]
      refine ⟨ih, by simp, ?_⟩
      intro a ha b hb hab
      rw [List.mem_singleton] at hb
      subst hb
      exact hh (hab ▸ ha)
  | unregister eid =>
    show (Registry.eids (Registry.unregister n.agents eid)).Nodup
    rw [Registry.eids_unregister]
    exact ih.erase _
  | subscribe eid ch =>
    show (Registry.eids (Registry.modify _ _ _)).Nodup
    rw [Registry.eids_modify _ _ _ (by simp)]; exact ih
  | unsubscribe eid =>
    show (Registry.eids (Registry.modify _ _ _)).Nodup
    rw [Registry.eids_modify _ _ _ (by simp)]; exact ih

theorem nodup_always {cfg : Config} {clock : Nat} {s : Sys} (run : Reaches .any ⟨Node.start cfg clock, []⟩ s) :
    s.node.agents.eids.Nodup := by
  generalize hs : (⟨Node.start cfg clock, []⟩ : Sys) = s0 at run
  induction run with
  | refl => subst hs; exact List.nodup_nil
  | @step t u hr hst ih =>
    subst hs
    cases hst with
    | task l r p n n' ps ht =>
      have : SameEids n n' := sameEids_steps.step hr ht
      dsimp only at ih ⊢
      rw [this]; exact ih
    | call n pool c hc => exact ih
    | change n n' pool h => exact nodup_outside h ih

theorem Reaches.keepingToAny {s t : Sys} (h : Reaches (keeping e) s t) : Reaches .any s t := by
  induction h with
  | refl => exact .refl _
  | step _ hs ih =>
    refine ih.step ?_
    cases hs with
    | task l r p n n' ps h => exact .task l r p n n' ps h
    | call n pool c h => exact .call n pool c h
    | change n n' pool h => exact .change _ _ _ h.1

theorem kept_outside (h : Outside n m) (nd : n.agents.eids.Nodup) (he : e ∈ n.agents.eids) (hm : e ∈ m.agents.eids) :
    Kept e n m := by
  cases h with
  | clock | peers | cla => exact .same rfl rfl
  | register eid =>
    refine .same rfl ?_
    rw [waitingAt_find, waitingAt_find]
    dsimp only
    rw [Registry.find_register]
    split
    · rename_i h
      exact absurd ((Registry.find_isSome _ _).mpr he) (by rw [h.2]; simp)
    · rfl
  | unregister eid =>
    refine .same rfl ?_
    rw [waitingAt_find, waitingAt_find]
    dsimp only at hm ⊢
    rw [Registry.eids_unregister] at hm
    have hne : e ≠ eid := by
      rintro rfl
      exact (List.Nodup.mem_erase_iff nd).mp hm |>.1 rfl
    rw [Registry.find_unregister_ne _ hne]
  | subscribe eid ch =>
    refine .same rfl ?_
    rw [waitingAt_find, waitingAt_find]
    dsimp only
    rw [Registry.find_modify _ _ _ _ (by simp)]
    split
    · rename_i h; subst h; cases n.agents.find e <;> rfl
    · rfl
  | unsubscribe eid =>
    refine .same rfl ?_
    rw [waitingAt_find, waitingAt_find]
    dsimp only
    rw [Registry.find_modify _ _ _ _ (by simp)]
    split
    · rename_i h; subst h; cases n.agents.find e <;> rfl
    · rfl

theorem kept_run {cfg : Config} {clock : Nat} {s t : Sys} (before : Reaches .any ⟨Node.start cfg clock, []⟩ s)
    (he : e ∈ s.node.agents.eids) (run : Reaches (keeping e) s t) : Kept e s.node t.node ∧ e ∈ t.node.agents.eids := by
  induction run with
  | refl => exact ⟨.same rfl rfl, he⟩
  | @step t u hr hst ih =>
    obtain ⟨k, ht⟩ := ih
    have hb : Reaches .any ⟨Node.start cfg clock, []⟩ t := before.join hr.keepingToAny
    cases hst with
    | task l r p n n' ps h =>
      refine ⟨k.trans ((kept_steps e).step hb h), ?_⟩
      have : SameEids n n' := sameEids_steps.step hb h
      dsimp only at ht ⊢
      rw [this]; exact ht
    | call n pool c hc => exact ⟨k.trans ⟨[.called c], rfl, by simp [queued, fetched, waitingAt, Node.log]⟩, ht⟩
    | change n n' pool h => exact ⟨k.trans (kept_outside h.1 (nodup_always hb) ht h.2), h.2⟩

/-- Channels stay what they are, and nothing is given to a channel that is not that of the endpoint. -/
def Chan (n m : Node) : Prop :=
  (∀ e, (m.agents.find e).map AppAgent.delivery = (n.agents.find e).map AppAgent.delivery) ∧
  ∃ es, m.events = n.events ++ es ∧
    ∀ e b ch, Event.delivered e b (some ch) ∈ es → (n.agents.find e).map AppAgent.delivery = some (some ch)

theorem Chan.trans {a b c : Node} (h : Chan a b) (k : Chan b c) : Chan a c := by
  obtain ⟨h0, es, h1, h2⟩ := h
  obtain ⟨k0, fs, k1, k2⟩ := k
  refine ⟨fun e => (k0 e).trans (h0 e), es ++ fs, by rw [k1, h1, List.append_assoc], ?_⟩
  intro e b ch hm
  rcases List.mem_append.mp hm with hm | hm
  · exact h2 _ _ _ hm
  · rw [← h0]; exact k2 _ _ _ hm

theorem Chan.time (n : Node) (t : Nat) : Chan n { n with clock := t } := ⟨fun _ => rfl, [], by simp, by simp⟩

theorem chan_steps : Steps Chan where
  aside n m es ha _ he h := by
    refine ⟨fun e => by rw [ha], es, he, ?_⟩
    intro e b ch hm
    exact (h _ hm).elim
  deliver n e b room := by
    unfold Node.deliver
    split
    · exact ⟨fun _ => rfl, [], by simp, by simp⟩
    · rename_i a ha
      refine ⟨?_, [.delivered e b (a.push b room).2], rfl, ?_⟩
      · intro e'
        simp only [Node.log]
        rw [Registry.find_modify _ _ _ _ (by simp)]
        split
        · rename_i h; subst h
          rw [ha]
          simp only [Option.map_some]
          unfold AppAgent.push
          cases hd : a.delivery with
          | none => simp
          | some c => cases room <;> simp [hd]
        · rfl
      · intro e' b' ch hm
        rw [List.mem_singleton] at hm
        cases hp : (a.push b room).2 with
        | none => rw [hp] at hm; cases hm
        | some c =>
          rw [hp] at hm
          cases hm
          rw [ha]
          unfold AppAgent.push at hp
          cases hd : a.delivery with
          | none => rw [hd] at hp; cases hp
          | some d =>
            rw [hd] at hp
            cases room
            · cases hp
            · simp only [Bool.not_true, Bool.false_eq_true, if_false, Option.some.injEq] at hp
              simp [hd, hp]
  pop n e := by
    unfold Node.popAgent
    split
    · exact ⟨fun _ => rfl, [], by simp, by simp⟩
    · rename_i a ha
      split
      · exact ⟨fun _ => rfl, [], by simp, by simp⟩
      · rename_i b hb
        refine ⟨?_, [.popped e b], rfl, by simp⟩
        intro e'
        simp only [Node.log]
        rw [Registry.find_modify _ _ _ _ (by simp)]
        split
        · rename_i h; subst h
          rw [ha]
          simp only [Option.map_some]
          unfold AppAgent.pop
          split <;> rfl
        · rfl

/-- What a task alone adds. -/
theorem adds_quiet {W : Weights} (hans : ∀ a, W.answers a) {pool : List Prog} {d : Int} (i : Good n)
    (hrg : ∀ p ∈ pool, RG Good Base p (fun _ _ => True) n) (h : AddsAll W pool d) {t : Sys}
    (run : Reaches .quiet ⟨n, pool⟩ t) : ∃ d', AddsAll W t.pool d' ∧ W.total t.node + d' ≤ W.total n + d := by
  generalize hs : (⟨n, pool⟩ : Sys) = s0 at run
  induction run with
  | refl => subst hs; exact ⟨d, h, Int.le_refl _⟩
  | @step t u hr hst ih =>
    subst hs
    obtain ⟨d0, h1, h2⟩ := ih
    have inv := (quiet_good i hrg hr).2.1.inv
    cases hst with
    | task l r p n n' ps ht =>
      obtain ⟨d1, d2, h3, h4, h5⟩ := AddsAll.append.mp h1
      obtain ⟨d3, d4, h6, h7, h8⟩ := h4
      obtain ⟨d5, h9, h10⟩ := AddsAll.taskStep ht inv h6 fun _ a _ => hans a
      refine ⟨d1 + d5 + d4, AddsAll.append.mpr ⟨d1 + d5, d4, AddsAll.append.mpr ⟨d1, d5, h3, h9, by omega⟩, h7, by omega⟩, ?_⟩
      dsimp only at h2 h10 ⊢
      omega
    | call n pool c hc => exact hc.elim
    | change n n' pool hc =>
      obtain ⟨t, -, rfl⟩ := hc
      refine ⟨d0, h1, ?_⟩
      dsimp only at h2 ⊢
      exact h2

/-- The bundle is received or submitted. -/
def isComing (bid : String) : Event → Bool
  | .called (.receive b) => decide (b.id = bid)
  | .called (.send b) => decide (b.id = bid)
  | _ => false

theorem W_once (bid : String) :
    ({ ev := fun e => one (isDeliveryId bid) e - one (isComing bid) e
       give := fun i => if i = bid then 1 else 0
       disp := fun i => if i = bid then 1 else 0 } : Weights).OK := by
  constructor <;> intros
  all_goals wsolve [isDeliveryId, isComing]

theorem sum_append_map (f : Event → Int) (l r : List Event) :
    ((l ++ r).map f).sum = (l.map f).sum + (r.map f).sum := by simp

/-- A bundle the node takes on is given to an agent at most once. -/
theorem takesOn_once {c : Call} {b : Bundle} (i : Good n) (ht : TakesOn n b c)
    (hr : Reaches .quiet ⟨n, [c.prog]⟩ ⟨m, []⟩) (hno : ∀ c', Event.called c' ∉ newEvents n m) :
    (newEvents n m).countP (isDeliveryId b.id) ≤ 1 := by
  have hcoming : isComing b.id (.called c) = true := by
    rcases ht with ⟨rfl, -⟩ | ⟨rfl, -⟩ <;> simp [isComing]
  have hrg : ∀ p ∈ [c.prog], RG Good Base p (fun _ _ => True) n := by simpa using rg_call Good.acts c
  have hd : AddsAll _ [c.prog] _ := ⟨_, 0, adds_call (W_once b.id) c, Int.le_refl _, Int.le_refl _⟩
  obtain ⟨d', h1, h2⟩ := adds_quiet (fun _ => trivial) i hrg hd hr
  have h1 : 0 ≤ d' := h1
  have hp := (quiet_good i hrg hr).1.past
  have he := newEvents_of_prefix hp
  simp only [Weights.total] at h2
  dsimp only at he
  rw [he] at h2
  simp only [sum_append_map, sum_sub, sum_one] at h2
  have hz : (newEvents n m).countP (isComing b.id) = 0 := by
    rw [List.countP_eq_zero]
    intro x hx
    cases x with
    | called c' => exact absurd hx (hno c')
    | _ => simp [isComing]
  have hn : isDeliveryId b.id (.called c) = false := rfl
  rw [hz] at h2
  simp only [one, hcoming, hn, if_true, Bool.false_eq_true, if_false] at h2
  omega

/-- All that happens, and what waits for the clients afterwards. -/
theorem takesOn_events {c : Call} {b : Bundle} (i : Good n) (ht : TakesOn n b c)
    (hrec : b.primary.destination ∈ n.agents.eids → b.isAdmin = true → HasRecord n.cfg b)
    (hr : Reaches .quiet ⟨n, [c.prog]⟩ ⟨m, []⟩) :
    ∀ x ∈ newEvents n m, Handling b x ∨ ∃ bp : Pack, bp.id = b.id ∧ ForwardEvent bp.id x := by
  obtain ⟨n', hl, hb, -, -, -, hloc, hrem⟩ := takesOn_run i ht hrec hr
  rw [newEvents_append hl.past hb.past]
  intro x hx
  rcases List.mem_append.mp hx with hx | hx
  · exact .inl (hl.all _ hx)
  · by_cases hh : b.primary.destination.nodeId = n.cfg.hostEid.nodeId
    · obtain ⟨t, rfl⟩ := hloc hh
      rw [newEvents_eq (es := []) (by simp [Node.at])] at hx
      simp at hx
    · obtain ⟨bp, hid, hr', i', -⟩ := hrem hh
      exact .inr ⟨bp, hid, forward_events i' hr' _ hx⟩

theorem queued_of_once {e : EID} {b : Bundle} {es : List Event}
    (hall : ∀ e' b' ch, Event.delivered e' b' ch ∈ es → e' = e ∧ b' = b)
    (honce : es.countP (isDeliveryId b.id) ≤ 1) {ch : Option Nat} (hd : Event.delivered e b ch ∈ es) :
    queued e es = (if ch = none then [b] else []) ∧ ∀ ch', Event.delivered e b ch' ∈ es → ch' = ch := by
  obtain ⟨l, r, rfl⟩ := List.append_of_mem hd
  rw [List.countP_append, List.countP_cons] at honce
  have h1 : isDeliveryId b.id (.delivered e b ch) = true := by simp [isDeliveryId]
  rw [h1, if_pos rfl] at honce
  have hl : l.countP (isDeliveryId b.id) = 0 := by omega
  have hr : r.countP (isDeliveryId b.id) = 0 := by omega
  rw [List.countP_eq_zero] at hl hr
  have none : ∀ xs : List Event, (∀ x ∈ xs, ¬ isDeliveryId b.id x = true) →
      (∀ e' b' ch, Event.delivered e' b' ch ∈ xs → e' = e ∧ b' = b) → ∀ e' b' ch, Event.delivered e' b' ch ∉ xs := by
    intro xs hx ha e' b' ch' hm
    obtain ⟨rfl, rfl⟩ := ha _ _ _ hm
    exact hx _ hm (by simp [isDeliveryId])
  have nil : ∀ xs : List Event, (∀ e' b' ch, Event.delivered e' b' ch ∉ xs) → queued e xs = [] := by
    intro xs hx
    induction xs with
    | nil => rfl
    | cons x xs ih =>
      have := ih fun e' b' ch hm => hx e' b' ch (by simp [hm])
      cases x with
      | delivered e' b' ch' => exact absurd (List.mem_cons_self) (hx e' b' ch')
      | _ => exact this
  have nl := none l hl fun e' b' ch' h => hall e' b' ch' (by simp [h])
  have nr := none r hr fun e' b' ch' h => hall e' b' ch' (by simp [h])
  refine ⟨?_, ?_⟩
  · rw [queued_append, nil l nl, List.nil_append]
    cases ch with
    | none => simp [queued, nil r nr]
    | some c => simp [queued, nil r nr]
  · intro ch' hm
    rcases List.mem_append.mp hm with hm | hm
    · exact absurd hm (nl _ _ _)
    · rcases List.mem_cons.mp hm with hm | hm
      · cases hm; rfl
      · exact absurd hm (nr _ _ _)

theorem fetched_nil {es : List Event} (h : ∀ b, Event.popped e b ∉ es) : fetched e es = [] := by
  induction es with
  | nil => rfl
  | cons x xs ih =>
    have := ih fun b hm => h b (by simp [hm])
    cases x with
    | popped e' b =>
      simp only [fetched]
      split
      · rename_i hh; subst hh; exact absurd List.mem_cons_self (h b)
      · exact this
    | _ => exact this

theorem queued_nil {es : List Event} (h : ∀ b, Event.delivered e b none ∉ es) : queued e es = [] := by
  induction es with
  | nil => rfl
  | cons x xs ih =>
    have := ih fun b hm => h b (by simp [hm])
    cases x with
    | delivered e' b ch =>
      cases ch with
      | none =>
        simp only [queued]
        split
        · rename_i hh; subst hh; exact absurd List.mem_cons_self (h b)
        · exact this
      | some c => exact this
    | _ => exact this

theorem subscribedBy_find (e : EID) (n : Node) : subscribedBy e n = ((n.agents.find e).map AppAgent.delivery).getD none := by
  unfold subscribedBy Registry.find
  simp only [eq_comm (a := e)]
  cases List.find? (fun a => decide (a.eid = e)) n.agents <;> rfl

/-- A quiet run keeps all endpoints. -/
theorem Reaches.quietKeeping {cfg : Config} {clock : Nat} {s t : Sys} (before : Reaches .any ⟨Node.start cfg clock, []⟩ s)
    (he : e ∈ s.node.agents.eids) (run : Reaches .quiet s t) : Reaches (keeping e) s t ∧ e ∈ t.node.agents.eids := by
  induction run with
  | refl => exact ⟨.refl _, he⟩
  | @step t u hr hst ih =>
    obtain ⟨h1, h2⟩ := ih
    cases hst with
    | task l r p n n' ps h =>
      have : SameEids n n' := sameEids_steps.step (before.join hr.toAny) h
      exact ⟨h1.step (.task l r p n n' ps h), by dsimp only at h2 ⊢; rw [this]; exact h2⟩
    | call n pool c h => exact h.elim
    | change n n' pool h =>
      obtain ⟨t, -, rfl⟩ := h
      exact ⟨h1.step (.change _ _ _ ⟨.clock _ _, h2⟩), h2⟩

end Dtn.Proc
