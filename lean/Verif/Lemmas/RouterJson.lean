import Verif.Spec.RouterJson
import Verif.Lemmas.EclaJson
/-! Lemmas about the JSON text of the packets of external routers. -/

namespace Dtn.RouterJson
open Serde EclaJson Spec.RouterJson
open Spec.EclaJson (Has)
open Spec.Rfc8259 (Gram Text)
open Routing.External (Hop)

/-- The reader reads exactly the values of the kind. -/
def Reads {α : Type} (r : Value → Option α) (R : α → Value → Prop) : Prop := ∀ v a, r v = some a ↔ R a v

theorem get_iff {α : Type} {r : Value → Option α} {R : α → Value → Prop} (h : Reads r R) {l : List (String × Value)} {k : String} {a : α} :
    get l k r = some a ↔ Field l k (R a) := by
  unfold get Field
  rw [Option.bind_eq_some_iff]
  constructor
  · rintro ⟨v, h1, h2⟩; exact ⟨v, field_iff.1 h1, (h v a).1 h2⟩
  · rintro ⟨v, h1, h2⟩; exact ⟨v, field_iff.2 h1, (h v a).2 h2⟩

theorem getOpt_iff {α : Type} {r : Value → Option α} {R : α → Value → Prop} (h : Reads r R) {l : List (String × Value)} {k : String} {o : Option α} :
    getOpt l k r = some o ↔ Optional l k R o := by
  unfold getOpt
  have e : (l.filter fun f => f.1 == k) = l.filter fun f => f.1 = k := by congr 1
  have e2 : (∀ f ∈ l, f.1 ≠ k) ↔ (l.filter fun f => f.1 = k) = [] := by simp [List.filter_eq_nil_iff]
  cases o with
  | none =>
    unfold Optional Has
    rw [e, e2]
    cases hl : l.filter fun f => f.1 = k with
    | nil => simp
    | cons f rest =>
      have hf : f.1 = k := by
        have : f ∈ l.filter fun f => f.1 = k := by rw [hl]; simp
        simpa using (List.mem_filter.1 this).2
      obtain ⟨a, b⟩ := f
      simp only at hf; subst hf
      cases rest with
      | nil => cases b <;> simp
      | cons g rest => cases b <;> simp
  | some a =>
    unfold Optional Has
    rw [e]
    cases hl : l.filter fun f => f.1 = k with
    | nil => simp
    | cons f rest =>
      have hf : f.1 = k := by
        have : f ∈ l.filter fun f => f.1 = k := by rw [hl]; simp
        simpa using (List.mem_filter.1 this).2
      obtain ⟨a', b⟩ := f
      simp only at hf; subst hf
      cases rest with
      | nil =>
        have hb := h b a
        cases b <;> simp [hb]
      | cons g rest => cases b <;> simp

theorem mapM_iff {α β : Type} {r : β → Option α} {R : α → β → Prop} (h : ∀ v a, r v = some a ↔ R a v) {l : List β} {as : List α} :
    l.mapM r = some as ↔ Each R as l := by
  induction l generalizing as with
  | nil =>
    simp only [List.mapM_nil, Option.pure_def, Option.some.injEq]
    constructor
    · rintro rfl; exact .nil
    · intro h; cases h; rfl
  | cons v l ih =>
    simp only [List.mapM_cons, Option.bind_eq_bind, Option.bind_eq_some_iff, Option.pure_def, Option.some.injEq]
    constructor
    · rintro ⟨a, h1, as', h2, rfl⟩; exact .cons ((h v a).1 h1) (ih.1 h2)
    · intro h'
      cases h' with
      | cons h1 h2 => exact ⟨_, (h v _).2 h1, _, ih.2 h2, rfl⟩

theorem reads_list {α : Type} {r : Value → Option α} {R : α → Value → Prop} (h : Reads r R) : Reads (readList r) (Listed R) := by
  intro v as
  unfold Listed
  cases v with
  | list l =>
    rw [readList, mapM_iff h]
    constructor
    · intro h; exact ⟨l, rfl, h⟩
    · rintro ⟨vs, e, h⟩; cases e; exact h
  | _ => simp [readList]

theorem reads_text : Reads readText fun s v => v = .str s := by
  intro v s; cases v <;> simp [readText]

theorem reads_bool : Reads readBool fun s v => v = .bool s := by
  intro v s; cases v <;> simp [readBool]

theorem reads_num (bound : Nat) : Reads (readNum bound) (Number bound) := by
  intro v n
  unfold Number
  cases v with
  | num k =>
    simp only [readNum, Value.num.injEq]
    constructor
    · intro h; split at h
      · cases h; exact ⟨by assumption, rfl⟩
      · cases h
    · rintro ⟨h, rfl⟩; rw [if_pos h]
  | _ => simp [readNum]

theorem field_eq {l : List (String × Value)} {k : String} {w : Value} : (Field l k fun v => v = w) ↔ Has l k w := by
  unfold Field
  constructor
  · rintro ⟨v, h, rfl⟩; exact h
  · intro h; exact ⟨_, h, rfl⟩

theorem reads_constraint : Reads readConstraint fun c v => ∃ s, (c, s) ∈ names ∧ v = .str s := by
  intro v c
  constructor
  · intro h
    unfold readConstraint at h
    split at h <;> cases h <;> exact ⟨_, by simp [names], rfl⟩
  · rintro ⟨s, h, rfl⟩
    simp only [names, List.mem_cons, Prod.mk.injEq, List.not_mem_nil, or_false] at h
    rcases h with ⟨rfl, rfl⟩ | ⟨rfl, rfl⟩ | ⟨rfl, rfl⟩ | ⟨rfl, rfl⟩ | ⟨rfl, rfl⟩ | ⟨rfl, rfl⟩ <;> rfl

theorem cset_ext {s t : CSet} (h : ∀ c, s.has c = t.has c) : s = t := by
  cases s; cases t
  have h1 := h .dispatchPending; have h2 := h .forwardPending; have h3 := h .reassemblyPending
  have h4 := h .contraindicated; have h5 := h .localEndpoint; have h6 := h .deleted
  simp only [CSet.has] at h1 h2 h3 h4 h5 h6
  simp [*]

theorem has_foldl (cs : List Constraint) (s : CSet) (c : Constraint) :
    (cs.foldl (fun s c => s.set true c) s).has c = true ↔ s.has c = true ∨ c ∈ cs := by
  induction cs generalizing s with
  | nil => simp
  | cons d cs ih =>
    rw [List.foldl_cons, ih]
    have : (s.set true d).has c = true ↔ s.has c = true ∨ c = d := by cases c <;> cases d <;> simp [CSet.set, CSet.has]
    rw [this, List.mem_cons, or_assoc]

theorem reads_constraints : Reads readConstraints fun s v => Constraints (fun c => s.has c) v := by
  intro v s
  unfold readConstraints Constraints
  rw [Option.map_eq_some_iff]
  have e : ∀ c, CSet.empty.has c = false := by intro c; cases c <;> rfl
  constructor
  · rintro ⟨cs, h1, rfl⟩
    refine ⟨cs, (reads_list reads_constraint v cs).1 h1, fun c => ?_⟩
    rw [has_foldl, e]; simp
  · rintro ⟨cs, h1, h2⟩
    refine ⟨cs, (reads_list reads_constraint v cs).2 h1, cset_ext fun c => ?_⟩
    rw [Bool.eq_iff_iff, has_foldl, h2, e]; simp

theorem reads_eid (x : Ext) : Reads x.readEid (taken x).eid := fun _ _ => Iff.rfl

theorem reads_pack (x : Ext) : Reads (readPack x) (PackObj (taken x)) := by
  intro v bp
  unfold PackObj
  cases v with
  | obj l =>
    simp only [readPack, Option.bind_eq_bind, Option.bind_eq_some_iff, Option.pure_def, Option.some.injEq, get_iff (reads_eid x),
      get_iff (reads_num _), get_iff reads_text, get_iff reads_bool, get_iff reads_constraints, Value.obj.injEq]
    constructor
    · rintro ⟨_, h1, _, h2, _, h3, _, h4, _, h5, _, h6, _, h7, _, h8, _, h9, rfl⟩
      exact ⟨l, rfl, h1, h2, h3, h4, h5, h6, h7, h8, h9⟩
    · rintro ⟨_, rfl, h1, h2, h3, h4, h5, h6, h7, h8, h9⟩
      exact ⟨_, h1, _, h2, _, h3, _, h4, _, h5, _, h6, _, h7, _, h8, _, h9, rfl⟩
  | _ => simp [readPack]

theorem reads_addr (x : Ext) : Reads (readAddr x) (Address (taken x)) := by
  intro v a
  unfold Address
  constructor
  · intro h
    unfold readAddr at h
    split at h
    · exact .inl ⟨_, rfl, h⟩
    · cases h; exact .inr (.inl ⟨_, _, rfl, rfl⟩)
    · cases h; exact .inr (.inr ⟨_, rfl, rfl⟩)
    · cases h
  · rintro (⟨s, rfl, h⟩ | ⟨d, s, rfl, rfl⟩ | ⟨s, rfl, rfl⟩)
    · exact h
    · rfl
    · rfl

theorem reads_type : Reads readType fun t v => v = .str (match t with
    | .static => "Static"
    | .dynamic => "Dynamic") := by
  intro v t
  constructor
  · intro h
    unfold readType at h
    split at h <;> cases h <;> rfl
  · rintro rfl; cases t <;> rfl

theorem reads_period : Reads readPeriod Period := by
  intro v p
  unfold Period
  obtain ⟨p1, p2⟩ := p
  cases v with
  | obj l =>
    have ha : (l.all fun f => f.1 == "secs" || f.1 == "nanos") = true ↔ ∀ f ∈ l, f.1 = "secs" ∨ f.1 = "nanos" := by simp [List.all_eq_true]
    constructor
    · intro h
      simp only [readPeriod] at h
      split at h
      · rename_i hall
        simp only [Option.bind_eq_bind, Option.bind_eq_some_iff, get_iff (reads_num _)] at h
        obtain ⟨s, h1, n, h2, h3⟩ := h
        split at h3
        · simp only [Option.some.injEq, Prod.mk.injEq] at h3
          obtain ⟨rfl, rfl⟩ := h3
          refine ⟨l, s, n, rfl, ha.1 hall, h1, h2, ?_, ?_, by assumption⟩
          · simp only; omega
          · exact Nat.mod_lt _ (by decide)
        · cases h3
      · cases h
    · rintro ⟨l', s, n, e, h0, h1, h2, h3, h4, h5⟩
      cases e
      simp only [readPeriod]
      rw [if_pos (ha.2 h0)]
      simp only [Option.bind_eq_bind, Option.bind_eq_some_iff, get_iff (reads_num _)]
      simp only at h3 h4 h5
      have e1 : s + n / 1000000000 = p1 := by omega
      have e2 : n % 1000000000 = p2 := by omega
      exact ⟨s, h1, n, h2, by rw [e1, e2, if_pos h5]⟩
  | _ => simp [readPeriod]

theorem reads_layer : Reads readLayer Layer := by
  intro v c
  obtain ⟨n, o⟩ := c
  unfold Layer
  have hp : ∀ p, readPort p = some o ↔ match o with
      | some n => Number 65536 n p
      | none => p = .null := by
    intro p
    cases p with
    | null => cases o <;> simp [readPort, Number]
    | num k =>
      have := reads_num 65536 (.num k)
      cases o with
      | none => simp [readPort]
      | some m => simp only [readPort, Option.map_eq_some_iff, Option.some.injEq, exists_eq_right]; exact this m
    | _ => cases o <;> simp [readPort, readNum, Number]
  constructor
  · intro h
    unfold readLayer at h
    split at h
    · rename_i m p
      rw [Option.map_eq_some_iff] at h
      obtain ⟨q, h1, h2⟩ := h
      cases h2
      exact ⟨p, rfl, (hp p).1 h1⟩
    · cases h
  · rintro ⟨p, rfl, h⟩
    simp only [readLayer, Option.map_eq_some_iff]
    exact ⟨o, (hp p).2 h, rfl⟩

theorem reads_services : Reads readServices fun s v => Services s v ∧ s = [] := by
  intro v s
  unfold Services
  constructor
  · intro h
    unfold readServices at h
    split at h
    · cases h; exact ⟨⟨[], rfl, .nil⟩, rfl⟩
    · cases h
  · rintro ⟨⟨l, rfl, h⟩, rfl⟩
    cases h; rfl

theorem reads_peer (x : Ext) : Reads (readPeer x) fun p v => PeerObj (taken x) p v ∧ p.services = [] := by
  intro v p
  unfold PeerObj
  cases v with
  | obj l =>
    simp only [readPeer, Option.bind_eq_bind, Option.bind_eq_some_iff, Option.pure_def, Option.some.injEq, get_iff (reads_eid x),
      get_iff (reads_num _), get_iff (reads_addr x), get_iff reads_type, get_iff (reads_list reads_layer), get_iff reads_services,
      getOpt_iff reads_period, Value.obj.injEq]
    constructor
    · rintro ⟨_, h1, _, h2, _, h3, _, h4, _, h5, _, ⟨v, h6, h6', h6''⟩, _, h7, _, h8, rfl⟩
      exact ⟨⟨l, rfl, h1, h2, h3, h4, h5, ⟨v, h6, h6'⟩, h7, h8⟩, h6''⟩
    · rintro ⟨⟨_, rfl, h1, h2, h3, h4, h5, ⟨v, h6, h6'⟩, h7, h8⟩, h6''⟩
      exact ⟨_, h1, _, h2, _, h3, _, h4, _, h5, _, ⟨v, h6, h6', h6''⟩, _, h7, _, h8, rfl⟩
  | _ => simp [readPeer]

theorem each_and {α β : Type} {R : α → β → Prop} {Q : α → Prop} {as : List α} {bs : List β} :
    Each (fun a b => R a b ∧ Q a) as bs ↔ Each R as bs ∧ ∀ a ∈ as, Q a := by
  constructor
  · intro h
    induction h with
    | nil => exact ⟨.nil, by simp⟩
    | cons h _ ih => exact ⟨.cons h.1 ih.1, fun a ha => by rcases List.mem_cons.1 ha with rfl | ha <;> [exact h.2; exact ih.2 a ha]⟩
  · rintro ⟨h, hq⟩
    induction h with
    | nil => exact .nil
    | cons h _ ih => exact .cons ⟨h, hq _ (by simp)⟩ (ih fun a ha => hq a (by simp [ha]))

theorem reads_peers (x : Ext) : Reads (readPeers x) fun ps v =>
    (∃ l, v = .obj l ∧ Each (fun p f => f.1 = p.1 ∧ PeerObj (taken x) p.2 f.2) ps l) ∧ ∀ p ∈ ps, p.2.services = [] := by
  intro v ps
  cases v with
  | obj l =>
    rw [readPeers, mapM_iff (R := fun (p : String × PeerInfo) (f : String × Value) => (f.1 = p.1 ∧ PeerObj (taken x) p.2 f.2) ∧ p.2.services = []), each_and]
    · constructor
      · rintro ⟨h1, h2⟩; exact ⟨⟨l, rfl, h1⟩, h2⟩
      · rintro ⟨⟨l', e, h1⟩, h2⟩; cases e; exact ⟨h1, h2⟩
    · rintro ⟨k, v⟩ ⟨k', p⟩
      simp only [Option.map_eq_some_iff, Prod.mk.injEq]
      constructor
      · rintro ⟨q, h, rfl, rfl⟩; exact ⟨⟨rfl, ((reads_peer x _ _).1 h).1⟩, ((reads_peer x _ _).1 h).2⟩
      · rintro ⟨⟨rfl, h⟩, h'⟩; exact ⟨p, (reads_peer x _ _).2 ⟨h, h'⟩, rfl, rfl⟩
  | _ => simp [readPeers]

theorem reads_hop (x : Ext) : Reads (readHop x) (HopObj (taken x)) := by
  intro v h
  unfold HopObj
  cases v with
  | obj l =>
    simp only [readHop, Option.bind_eq_bind, Option.bind_eq_some_iff, Option.pure_def, Option.some.injEq, get_iff (reads_eid x),
      get_iff (reads_addr x), get_iff reads_text, getOpt_iff (reads_num _), Value.obj.injEq]
    constructor
    · rintro ⟨_, h1, _, h2, _, h3, _, h4, rfl⟩; exact ⟨l, rfl, h1, h2, h3, h4⟩
    · rintro ⟨_, rfl, h1, h2, h3, h4⟩; exact ⟨_, h1, _, h2, _, h3, _, h4, rfl⟩
  | _ => simp [readHop]

theorem reads_bundle (x : Ext) : Reads x.readBundle (taken x).bundle := fun _ _ => Iff.rfl

theorem type_iff {l : List (String × Value)} {t : String} : get l "type" readText = some t ↔ Has l "type" (.str t) := by
  rw [get_iff reads_text, field_eq]

/-- An object is read exactly if it is a packet without services. -/
theorem fromValue_iff (x : Ext) (l : List (String × Value)) (p : Packet) :
    fromValue x (.obj l) = some p ↔ Means (taken x) l p ∧ services p = [] := by
  have key : ∀ t, readContents x l t = some p ↔ (Has l "type" (.str t) → Means (taken x) l p ∧ services p = []) ∧ readContents x l t = some p := by
    intro t
    refine ⟨fun h => ⟨fun ht => ?_, h⟩, fun h => h.2⟩
    unfold readContents at h
    by_cases e : t = "RequestSenderForBundle"
    · rw [if_pos e] at h; subst e
      simp only [Option.bind_eq_bind, Option.bind_eq_some_iff, Option.pure_def, Option.some.injEq, get_iff (reads_list reads_text), get_iff (reads_pack x)] at h
      obtain ⟨_, h1, _, h2, rfl⟩ := h
      exact ⟨⟨ht, h1, h2⟩, rfl⟩
    rw [if_neg e] at h; clear e
    by_cases e : t = "ResponseSenderForBundle"
    · rw [if_pos e] at h; subst e
      simp only [Option.bind_eq_bind, Option.bind_eq_some_iff, Option.pure_def, Option.some.injEq, get_iff (reads_list (reads_hop x)), get_iff (reads_pack x),
        get_iff reads_bool, field_eq] at h
      obtain ⟨_, h1, _, h2, _, h3, rfl⟩ := h
      exact ⟨⟨ht, h1, h2, h3⟩, rfl⟩
    rw [if_neg e] at h; clear e
    by_cases e : t = "Error"
    · rw [if_pos e] at h; subst e
      simp only [Option.bind_eq_bind, Option.bind_eq_some_iff, Option.pure_def, Option.some.injEq, get_iff reads_text, field_eq] at h
      obtain ⟨_, h1, rfl⟩ := h
      exact ⟨⟨ht, h1⟩, rfl⟩
    rw [if_neg e] at h; clear e
    by_cases e : t = "Timeout"
    · rw [if_pos e] at h; subst e
      simp only [Option.bind_eq_bind, Option.bind_eq_some_iff, Option.pure_def, Option.some.injEq, get_iff (reads_pack x)] at h
      obtain ⟨_, h1, rfl⟩ := h
      exact ⟨⟨ht, h1⟩, rfl⟩
    rw [if_neg e] at h; clear e
    by_cases e : t = "SendingFailed"
    · rw [if_pos e] at h; subst e
      simp only [Option.bind_eq_bind, Option.bind_eq_some_iff, Option.pure_def, Option.some.injEq, get_iff reads_text, field_eq] at h
      obtain ⟨_, h1, _, h2, rfl⟩ := h
      exact ⟨⟨ht, h1, h2⟩, rfl⟩
    rw [if_neg e] at h; clear e
    by_cases e : t = "SendingSucceeded"
    · rw [if_pos e] at h; subst e
      simp only [Option.bind_eq_bind, Option.bind_eq_some_iff, Option.pure_def, Option.some.injEq, get_iff reads_text, field_eq] at h
      obtain ⟨_, h1, _, h2, rfl⟩ := h
      exact ⟨⟨ht, h1, h2⟩, rfl⟩
    rw [if_neg e] at h; clear e
    by_cases e : t = "IncomingBundle"
    · rw [if_pos e] at h; subst e
      simp only [Option.bind_eq_bind, Option.bind_eq_some_iff, Option.pure_def, Option.some.injEq, get_iff (reads_bundle x)] at h
      obtain ⟨_, h1, rfl⟩ := h
      exact ⟨⟨ht, h1⟩, rfl⟩
    rw [if_neg e] at h; clear e
    by_cases e : t = "IncomingBundleWithoutPreviousNode"
    · rw [if_pos e] at h; subst e
      simp only [Option.bind_eq_bind, Option.bind_eq_some_iff, Option.pure_def, Option.some.injEq, get_iff reads_text, field_eq] at h
      obtain ⟨_, h1, _, h2, rfl⟩ := h
      exact ⟨⟨ht, h1, h2⟩, rfl⟩
    rw [if_neg e] at h; clear e
    by_cases e : t = "EncounteredPeer"
    · rw [if_pos e] at h; subst e
      simp only [Option.bind_eq_bind, Option.bind_eq_some_iff, Option.pure_def, Option.some.injEq, get_iff reads_text, field_eq, get_iff (reads_eid x),
        get_iff (reads_peer x)] at h
      obtain ⟨_, h1, _, h2, q, ⟨v, h3, h3', h4⟩, rfl⟩ := h
      exact ⟨⟨ht, h1, h2, v, h3, h3'⟩, by simp [services, peers, h4]⟩
    rw [if_neg e] at h; clear e
    by_cases e : t = "DroppedPeer"
    · rw [if_pos e] at h; subst e
      simp only [Option.bind_eq_bind, Option.bind_eq_some_iff, Option.pure_def, Option.some.injEq, get_iff reads_text, field_eq, get_iff (reads_eid x)] at h
      obtain ⟨_, h1, _, h2, rfl⟩ := h
      exact ⟨⟨ht, h1, h2⟩, rfl⟩
    rw [if_neg e] at h; clear e
    by_cases e : t = "PeerState"
    · rw [if_pos e] at h; subst e
      simp only [Option.bind_eq_bind, Option.bind_eq_some_iff, Option.pure_def, Option.some.injEq, get_iff (reads_peers x)] at h
      obtain ⟨ps, ⟨v, h1, h1', h2⟩, rfl⟩ := h
      refine ⟨⟨ht, v, h1, h1'⟩, ?_⟩
      simp only [services, peers, List.flatMap_eq_nil_iff]
      intro q hq
      obtain ⟨r, hr, rfl⟩ := List.mem_map.1 hq
      exact h2 r hr
    rw [if_neg e] at h; clear e
    by_cases e : t = "ServiceState"
    · rw [if_pos e] at h; subst e
      simp only [Option.bind_eq_bind, Option.bind_eq_some_iff, Option.pure_def, Option.some.injEq, get_iff reads_services] at h
      obtain ⟨ps, ⟨v, h1, h1', h2⟩, rfl⟩ := h
      exact ⟨⟨ht, v, h1, h1'⟩, h2⟩
    rw [if_neg e] at h; clear e
    by_cases e : t = "ServiceAdd"
    · rw [if_pos e] at h; subst e
      simp only [Option.bind_eq_bind, Option.bind_eq_some_iff, Option.pure_def, Option.some.injEq, get_iff reads_text, field_eq, get_iff (reads_num _)] at h
      obtain ⟨_, h1, _, h2, rfl⟩ := h
      exact ⟨⟨ht, h1, h2⟩, rfl⟩
    rw [if_neg e] at h; cases h
  rw [fromValue, Option.bind_eq_some_iff]
  constructor
  · rintro ⟨t, ht, h⟩
    exact ((key t).1 h).1 (type_iff.1 ht)
  · rintro ⟨h, hs⟩
    have txt : ∀ {k s}, Has l k (.str s) → get l k readText = some s := fun h => (get_iff reads_text).2 (field_eq.2 h)
    cases p with
    | request clas bp =>
      obtain ⟨h0, h1, h2⟩ := h
      exact ⟨_, txt h0, by simp [readContents, (get_iff (reads_list reads_text)).2 h1, (get_iff (reads_pack x)).2 h2]⟩
    | response bp clas delete =>
      obtain ⟨h0, h1, h2, h3⟩ := h
      exact ⟨_, txt h0, by
        simp [readContents, (get_iff (reads_list (reads_hop x))).2 h2, (get_iff (reads_pack x)).2 h1, (get_iff reads_bool).2 (field_eq.2 h3)]⟩
    | error r => exact ⟨_, txt h.1, by simp [readContents, txt h.2]⟩
    | timeout bp => exact ⟨_, txt h.1, by simp [readContents, (get_iff (reads_pack x)).2 h.2]⟩
    | sendingFailed a b => exact ⟨_, txt h.1, by simp [readContents, txt h.2.1, txt h.2.2]⟩
    | sendingSucceeded a b => exact ⟨_, txt h.1, by simp [readContents, txt h.2.1, txt h.2.2]⟩
    | incoming b => exact ⟨_, txt h.1, by simp [readContents, (get_iff (reads_bundle x)).2 h.2]⟩
    | incomingWithout a b => exact ⟨_, txt h.1, by simp [readContents, txt h.2.1, txt h.2.2]⟩
    | encountered n e q =>
      obtain ⟨h0, h1, h2, v, h3, h4⟩ := h
      have hq : q.services = [] := by simpa [services, peers] using hs
      exact ⟨_, txt h0, by
        simp [readContents, txt h1, (get_iff (reads_eid x)).2 h2, (get_iff (reads_peer x) (l := l) (k := "peer") (a := q)).2 ⟨v, h3, h4, hq⟩]⟩
    | dropped n e => exact ⟨_, txt h.1, by simp [readContents, txt h.2.1, (get_iff (reads_eid x)).2 h.2.2]⟩
    | peerState ps =>
      obtain ⟨h0, v, h1, h2⟩ := h
      have hq : ∀ q ∈ ps, q.2.services = [] := by
        intro q hq
        simp only [services, peers, List.flatMap_eq_nil_iff] at hs
        exact hs _ (List.mem_map_of_mem hq)
      exact ⟨_, txt h0, by simp [readContents, (get_iff (reads_peers x) (l := l) (k := "peers") (a := ps)).2 ⟨v, h1, h2, hq⟩]⟩
    | serviceState s =>
      obtain ⟨h0, v, h1, h2⟩ := h
      exact ⟨_, txt h0, by simp [readContents, (get_iff reads_services (l := l) (k := "service_list") (a := s)).2 ⟨v, h1, h2, hs⟩]⟩
    | serviceAdd t s => exact ⟨_, txt h.1, by simp [readContents, (get_iff (reads_num 256)).2 h.2.1, txt h.2.2]⟩

/-! ### Writing -/

theorem each_map {α β : Type} {R : α → β → Prop} {f : α → β} {l : List α} (h : ∀ a ∈ l, R a (f a)) : Each R l (l.map f) := by
  induction l with
  | nil => exact .nil
  | cons a l ih => exact .cons (h a (by simp)) (ih fun b hb => h b (by simp [hb]))

theorem listed_map {α : Type} {R : α → Value → Prop} {f : α → Value} {l : List α} (h : ∀ a ∈ l, R a (f a)) : Listed R l (.list (l.map f)) :=
  ⟨_, rfl, each_map h⟩

theorem pack_spec {x : Ext} (hx : Complete x) {F : Forms} {bp : Pack} (h1 : F.eid bp.source (eidValue bp.source))
    (h2 : F.eid bp.destination (eidValue bp.destination)) (h : bp.receivedTime < 2 ^ 64 ∧ bp.creationTime < 2 ^ 64 ∧ bp.lifetime < 2 ^ 64 ∧ bp.size < 2 ^ 64) :
    PackObj F bp (packValue x bp) := by
  refine ⟨_, rfl, ⟨_, rfl, h1⟩, ⟨_, rfl, h2⟩, ⟨_, rfl, h.1, rfl⟩, ⟨_, rfl, h.2.1, rfl⟩, ⟨_, rfl, h.2.2.1, rfl⟩, ⟨_, rfl, rfl⟩, ⟨_, rfl, rfl⟩,
    ⟨_, rfl, h.2.2.2, rfl⟩, ⟨_, rfl, x.order bp.constraints, listed_map ?_, fun c => (hx _ c).symm⟩⟩
  intro c _
  exact ⟨constraintName c, by cases c <;> simp [names, constraintName], rfl⟩

theorem addr_spec {F : Forms} {a : PeerAddress} (h : ∀ s, IsIp a s → F.ip a s) : Address F a (addrValue a) := by
  cases a with
  | ipv4 s => exact .inl ⟨s, rfl, h s (.inl rfl)⟩
  | ipv6 s => exact .inl ⟨s, rfl, h s (.inr rfl)⟩
  | broadcastGeneric d s => exact .inr (.inl ⟨d, s, rfl, rfl⟩)
  | generic s => exact .inr (.inr ⟨s, rfl, rfl⟩)

theorem services_spec {l : List (Nat × String)} (h : ∀ s ∈ l, s.1 < 256) : Services l (servicesValue l) := by
  refine ⟨_, rfl, each_map fun s hs => ⟨h s hs, ?_, rfl⟩⟩
  have : s.1 < 2 ^ 64 := Nat.lt_trans (h s hs) (by decide)
  exact num_toString this

theorem peer_spec {F : Forms} {p : PeerInfo} (h1 : F.eid p.eid (eidValue p.eid)) (h2 : ∀ s, IsIp p.addr s → F.ip p.addr s)
    (h : p.lastContact < 2 ^ 64 ∧ p.fails < 65536 ∧ (∀ s n, p.period = some (s, n) → s < 2 ^ 64 ∧ n < 1000000000) ∧
      ∀ c ∈ p.claList, ∀ n, c.2 = some n → n < 65536) (hs : ∀ s ∈ p.services, s.1 < 256) : PeerObj F p (peerValue p) := by
  refine ⟨_, rfl, ⟨_, rfl, h1⟩, ⟨_, rfl, addr_spec h2⟩, ⟨_, rfl, ?_⟩, ?_, ⟨_, rfl, listed_map ?_⟩, ⟨_, rfl, services_spec hs⟩, ⟨_, rfl, h.1, rfl⟩,
    ⟨_, rfl, h.2.1, rfl⟩⟩
  · cases p.conType <;> rfl
  · have hp := h.2.2.1
    cases hq : p.period with
    | none => left; rfl
    | some q =>
      obtain ⟨s, n⟩ := q
      have := hp s n hq
      refine ⟨_, ?_, rfl, _, s, n, rfl, by simp, ⟨_, rfl, this.1, rfl⟩, ⟨_, rfl, Nat.lt_trans this.2 (by decide), rfl⟩, rfl, this.2, this.1⟩
      simp [periodValue]
  · intro c hc
    refine ⟨_, rfl, ?_⟩
    obtain ⟨n, o⟩ := c
    cases o with
    | none => rfl
    | some m => exact ⟨h.2.2.2 _ hc m rfl, rfl⟩

theorem hop_spec {F : Forms} {h : Hop} (h1 : F.eid h.nextHop (eidValue h.nextHop)) (h2 : ∀ s, IsIp h.remote s → F.ip h.remote s)
    (hp : ∀ n, h.port = some n → n < 65536) : HopObj F h (hopValue h) := by
  refine ⟨_, rfl, ⟨_, rfl, addr_spec h2⟩, ?_, ⟨_, rfl, rfl⟩, ⟨_, rfl, h1⟩⟩
  cases hq : h.port with
  | none => left; rfl
  | some n => exact ⟨_, by simp [portValue], rfl, hp n hq, rfl⟩

theorem gram_addr (n : Nat) (a : PeerAddress) : Gram (n + 2) (.value (addrValue a)) (chars (addrValue a)) := by
  cases a <;> refine gram_obj fun y hy => ?_ <;> simp only [List.mem_cons, List.not_mem_nil, or_false] at hy <;> subst hy
  · exact gram_str _ _
  · exact gram_str _ _
  · refine gram_list fun y hy => ?_
    simp only [List.mem_cons, List.not_mem_nil, or_false] at hy
    rcases hy with rfl | rfl <;> exact gram_str _ _
  · exact gram_str _ _

theorem gram_port {o : Option Nat} (h : ∀ n, o = some n → n < 65536) (k : Nat) : Gram k (.value (portValue o)) (chars (portValue o)) := by
  cases o with
  | none => exact gram_null _
  | some n => exact gram_num _ (Nat.lt_trans (h n rfl) (by decide))

theorem gram_pack {x : Ext} {bp : Pack} (he : ∀ n s, EID.ipn n s ∈ [bp.source, bp.destination] → n < 2 ^ 64 ∧ s < 2 ^ 64)
    (h : bp.receivedTime < 2 ^ 64 ∧ bp.creationTime < 2 ^ 64 ∧ bp.lifetime < 2 ^ 64 ∧ bp.size < 2 ^ 64) (k : Nat) :
    Gram (k + 3) (.value (packValue x bp)) (chars (packValue x bp)) := by
  refine gram_obj fun y hy => ?_
  simp only [List.mem_cons, List.not_mem_nil, or_false] at hy
  rcases hy with rfl | rfl | rfl | rfl | rfl | rfl | rfl | rfl | rfl
  · exact eid_gram (fun n s e => he n s (by simp [e])) k
  · exact eid_gram (fun n s e => he n s (by simp [e])) k
  · exact gram_num _ h.1
  · exact gram_num _ h.2.1
  · exact gram_num _ h.2.2.1
  · exact gram_str _ _
  · exact gram_bool _ _
  · exact gram_num _ h.2.2.2
  · refine gram_list fun y hy => ?_
    obtain ⟨c, _, rfl⟩ := List.mem_map.1 hy
    exact gram_str _ _

theorem gram_services (l : List (Nat × String)) (k : Nat) : Gram (k + 1) (.value (servicesValue l)) (chars (servicesValue l)) := by
  refine gram_obj fun y hy => ?_
  obtain ⟨c, _, rfl⟩ := List.mem_map.1 hy
  exact gram_str _ _

theorem gram_peer {p : PeerInfo} (he : ∀ n s, EID.ipn n s = p.eid → n < 2 ^ 64 ∧ s < 2 ^ 64)
    (h : p.lastContact < 2 ^ 64 ∧ p.fails < 65536 ∧ (∀ s n, p.period = some (s, n) → s < 2 ^ 64 ∧ n < 1000000000) ∧
      ∀ c ∈ p.claList, ∀ n, c.2 = some n → n < 65536) (k : Nat) : Gram (k + 3) (.value (peerValue p)) (chars (peerValue p)) := by
  refine gram_obj fun y hy => ?_
  simp only [List.mem_cons, List.not_mem_nil, or_false] at hy
  rcases hy with rfl | rfl | rfl | rfl | rfl | rfl | rfl | rfl
  · exact eid_gram (fun n s e => he n s e.symm) k
  · exact gram_addr _ _
  · simp only [typeValue]; split <;> exact gram_str _ _
  · cases hq : p.period with
    | none => exact gram_null _
    | some q =>
      obtain ⟨s, n⟩ := q
      have := h.2.2.1 s n hq
      refine gram_obj fun y hy => ?_
      simp only [List.mem_cons, List.not_mem_nil, or_false] at hy
      rcases hy with rfl | rfl
      · exact gram_num _ this.1
      · exact gram_num _ (Nat.lt_trans this.2 (by decide))
  · refine gram_list fun y hy => ?_
    obtain ⟨c, hc, rfl⟩ := List.mem_map.1 hy
    refine gram_list fun y hy => ?_
    simp only [List.mem_cons, List.not_mem_nil, or_false] at hy
    rcases hy with rfl | rfl
    · exact gram_str _ _
    · exact gram_port (h.2.2.2 c hc) _
  · exact gram_services _ _
  · exact gram_num _ h.1
  · exact gram_num _ (Nat.lt_trans h.2.1 (by decide))

theorem gram_hop {q : Hop} (he : ∀ n s, EID.ipn n s = q.nextHop → n < 2 ^ 64 ∧ s < 2 ^ 64) (hp : ∀ n, q.port = some n → n < 65536) (k : Nat) :
    Gram (k + 3) (.value (hopValue q)) (chars (hopValue q)) := by
  refine gram_obj fun y hy => ?_
  simp only [List.mem_cons, List.not_mem_nil, or_false] at hy
  rcases hy with rfl | rfl | rfl | rfl
  · exact gram_addr _ _
  · exact gram_port hp _
  · exact gram_str _ _
  · exact eid_gram (fun n s e => he n s e.symm) k

/-- What is written is the object that means the packet. -/
theorem write_spec {x : Ext} (hx : Complete x) {p : Packet} (sized : Sized p) (F : Forms) (he : ∀ e ∈ eids p, F.eid e (eidValue e))
    (hi : ∀ a ∈ addresses p, ∀ s, IsIp a s → F.ip a s)
    (hb : ∀ b, p = .incoming b → F.bundle b (x.bundle b) ∧ Gram 126 (.value (x.bundle b)) (chars (x.bundle b))) :
    ∃ l, toValue x p = .obj l ∧ Text 127 (.obj l) (write x p) ∧ Means F l p := by
  obtain ⟨s1, s2, s3, s4, s5, s6⟩ := sized
  cases p with
  | request clas bp =>
    have b0 := s2 bp (by simp [packs])
    refine ⟨_, rfl, text_gram (gram_obj (n := 126) ?_), rfl, ⟨_, rfl, listed_map fun _ _ => rfl⟩,
      ⟨_, rfl, pack_spec hx (he _ (by simp [eids, packs])) (he _ (by simp [eids, packs])) b0⟩⟩
    intro y hy
    simp only [List.mem_cons, List.not_mem_nil, or_false] at hy
    rcases hy with rfl | rfl | rfl
    · exact gram_str _ _
    · refine gram_list fun y hy => ?_
      obtain ⟨c, _, rfl⟩ := List.mem_map.1 hy
      exact gram_str _ _
    · exact gram_pack (fun n s h => s1 n s (by simp only [eids, packs, List.mem_append]; exact .inl (.inl (.inl (by simpa using h))))) b0 _
  | response bp clas delete =>
    have b0 := s2 bp (by simp [packs])
    have hh : ∀ q ∈ clas, q.nextHop ∈ eids (.response bp clas delete) ∧ q.remote ∈ addresses (.response bp clas delete) := by
      intro q hq
      refine ⟨?_, ?_⟩
      · simp only [eids, packs, hops, peers, List.mem_append, List.mem_map]; exact .inl (.inl (.inr ⟨q, hq, rfl⟩))
      · simp only [addresses, hops, List.mem_append, List.mem_map]; exact .inl ⟨q, hq, rfl⟩
    refine ⟨_, rfl, text_gram (gram_obj (n := 126) ?_), rfl, ⟨_, rfl, pack_spec hx (he _ (by simp [eids, packs])) (he _ (by simp [eids, packs])) b0⟩,
      ⟨_, rfl, listed_map fun q hq => hop_spec (he _ (hh q hq).1) (hi _ (hh q hq).2) (s3 q hq)⟩, rfl⟩
    intro y hy
    simp only [List.mem_cons, List.not_mem_nil, or_false] at hy
    rcases hy with rfl | rfl | rfl | rfl
    · exact gram_str _ _
    · exact gram_pack (fun n s h => s1 n s (by simp only [eids, packs, List.mem_append]; exact .inl (.inl (.inl (by simpa using h))))) b0 _
    · refine gram_list fun y hy => ?_
      obtain ⟨q, hq, rfl⟩ := List.mem_map.1 hy
      exact gram_hop (fun n s e => s1 n s (e ▸ (hh q hq).1)) (s3 q hq) _
    · exact gram_bool _ _
  | error r =>
    refine ⟨_, rfl, text_gram (gram_obj (n := 126) ?_), rfl, rfl⟩
    intro y hy
    simp only [List.mem_cons, List.not_mem_nil, or_false] at hy
    rcases hy with rfl | rfl <;> exact gram_str _ _
  | timeout bp =>
    have b0 := s2 bp (by simp [packs])
    refine ⟨_, rfl, text_gram (gram_obj (n := 126) ?_), rfl, ⟨_, rfl, pack_spec hx (he _ (by simp [eids, packs])) (he _ (by simp [eids, packs])) b0⟩⟩
    intro y hy
    simp only [List.mem_cons, List.not_mem_nil, or_false] at hy
    rcases hy with rfl | rfl
    · exact gram_str _ _
    · exact gram_pack (fun n s h => s1 n s (by simp only [eids, packs, List.mem_append]; exact .inl (.inl (.inl (by simpa using h))))) b0 _
  | sendingFailed a b =>
    refine ⟨_, rfl, text_gram (gram_obj (n := 126) ?_), rfl, rfl, rfl⟩
    intro y hy
    simp only [List.mem_cons, List.not_mem_nil, or_false] at hy
    rcases hy with rfl | rfl | rfl <;> exact gram_str _ _
  | sendingSucceeded a b =>
    refine ⟨_, rfl, text_gram (gram_obj (n := 126) ?_), rfl, rfl, rfl⟩
    intro y hy
    simp only [List.mem_cons, List.not_mem_nil, or_false] at hy
    rcases hy with rfl | rfl | rfl <;> exact gram_str _ _
  | incoming b =>
    refine ⟨_, rfl, text_gram (gram_obj (n := 126) ?_), rfl, ⟨_, rfl, (hb b rfl).1⟩⟩
    intro y hy
    simp only [List.mem_cons, List.not_mem_nil, or_false] at hy
    rcases hy with rfl | rfl
    · exact gram_str _ _
    · exact (hb b rfl).2
  | incomingWithout a b =>
    refine ⟨_, rfl, text_gram (gram_obj (n := 126) ?_), rfl, rfl, rfl⟩
    intro y hy
    simp only [List.mem_cons, List.not_mem_nil, or_false] at hy
    rcases hy with rfl | rfl | rfl <;> exact gram_str _ _
  | encountered n e q =>
    have h4 := s4 q (by simp [peers])
    refine ⟨_, rfl, text_gram (gram_obj (n := 126) ?_), rfl, rfl, ⟨_, rfl, he _ (by simp [eids])⟩,
      ⟨_, rfl, peer_spec (he _ (by simp [eids, peers])) (hi _ (by simp [addresses, peers])) h4 fun s hs => s5 s (by simpa [services, peers] using hs)⟩⟩
    intro y hy
    simp only [List.mem_cons, List.not_mem_nil, or_false] at hy
    rcases hy with rfl | rfl | rfl | rfl
    · exact gram_str _ _
    · exact gram_str _ _
    · exact eid_gram (fun n s h => s1 n s (by simp [eids, h])) _
    · exact gram_peer (fun n s h => s1 n s (by simp [eids, peers, h])) h4 _
  | dropped n e =>
    refine ⟨_, rfl, text_gram (gram_obj (n := 126) ?_), rfl, rfl, ⟨_, rfl, he _ (by simp [eids])⟩⟩
    intro y hy
    simp only [List.mem_cons, List.not_mem_nil, or_false] at hy
    rcases hy with rfl | rfl | rfl
    · exact gram_str _ _
    · exact gram_str _ _
    · exact eid_gram (fun n s h => s1 n s (by simp [eids, h])) _
  | peerState ps =>
    have hp : ∀ q ∈ ps, q.2 ∈ peers (.peerState ps) := fun q hq => List.mem_map_of_mem hq
    have h1 : ∀ q ∈ ps, q.2.eid ∈ eids (.peerState ps) := by
      intro q hq
      simp only [eids, packs, hops, List.mem_append, List.mem_map]; exact .inl (.inr ⟨_, hp q hq, rfl⟩)
    have h2 : ∀ q ∈ ps, q.2.addr ∈ addresses (.peerState ps) := by
      intro q hq
      simp only [addresses, hops, List.mem_append, List.mem_map]; exact .inr ⟨_, hp q hq, rfl⟩
    refine ⟨_, rfl, text_gram (gram_obj (n := 126) ?_), rfl, ⟨_, rfl, _, rfl, each_map fun q hq => ⟨rfl, peer_spec (he _ (h1 q hq)) (hi _ (h2 q hq))
      (s4 _ (hp q hq)) fun s hs => s5 s (List.mem_flatMap.2 ⟨_, hp q hq, hs⟩)⟩⟩⟩
    intro y hy
    simp only [List.mem_cons, List.not_mem_nil, or_false] at hy
    rcases hy with rfl | rfl
    · exact gram_str _ _
    · refine gram_obj fun y hy => ?_
      obtain ⟨q, hq, rfl⟩ := List.mem_map.1 hy
      exact gram_peer (fun n s h => s1 n s (h ▸ h1 q hq)) (s4 _ (hp q hq)) _
  | serviceState s =>
    refine ⟨_, rfl, text_gram (gram_obj (n := 126) ?_), rfl, ⟨_, rfl, services_spec fun t ht => s5 t ht⟩⟩
    intro y hy
    simp only [List.mem_cons, List.not_mem_nil, or_false] at hy
    rcases hy with rfl | rfl
    · exact gram_str _ _
    · exact gram_services _ _
  | serviceAdd t s =>
    have := s6 t s rfl
    refine ⟨_, rfl, text_gram (gram_obj (n := 126) ?_), rfl, ⟨_, rfl, this, rfl⟩, rfl⟩
    intro y hy
    simp only [List.mem_cons, List.not_mem_nil, or_false] at hy
    rcases hy with rfl | rfl | rfl
    · exact gram_str _ _
    · exact gram_num _ (Nat.lt_trans this (by decide))
    · exact gram_str _ _

theorem items_nil {l : List Value} (h : ∀ v ∈ l, others v = []) : othersOfItems l = [] := by
  induction l with
  | nil => rfl
  | cons v l ih => rw [othersOfItems, h v (by simp), ih fun w hw => h w (by simp [hw])]; rfl

theorem fields_nil {l : List (String × Value)} (h : ∀ f ∈ l, others f.2 = []) : othersOfFields l = [] := by
  induction l with
  | nil => rfl
  | cons f l ih => rw [othersOfFields, h f (by simp), ih fun w hw => h w (by simp [hw])]; rfl

/-- Packets have no other numbers, except in bundles. -/
theorem no_others (x : Ext) (p : Packet) (t : List Char) (h : Spec.Rfc8259.Other (toValue x p) t) : ∃ b, p = .incoming b ∧ Spec.Rfc8259.Other (x.bundle b) t := by
  rw [← others_iff] at h
  have he : ∀ e, others (eidValue e) = [] := by intro e; cases e <;> simp [eidValue, others, othersOfItems]
  have hl : ∀ {α : Type} (f : α → Value) (l : List α), (∀ a, others (f a) = []) → othersOfItems (l.map f) = [] := by
    intro α f l h
    refine items_nil fun v hv => ?_
    obtain ⟨a, -, rfl⟩ := List.mem_map.1 hv
    exact h a
  have hp : ∀ bp, others (packValue x bp) = [] := by
    intro bp
    have := hl (fun c => Value.str (constraintName c)) (x.order bp.constraints) fun _ => by simp [others]
    simp [packValue, others, othersOfFields, he, this]
  have ha : ∀ a, others (addrValue a) = [] := by intro a; cases a <;> simp [addrValue, others, othersOfFields, othersOfItems]
  have ho : ∀ o, others (portValue o) = [] := by intro o; cases o <;> simp [portValue, others]
  have hh : ∀ q, others (hopValue q) = [] := by intro q; simp [hopValue, others, othersOfFields, he, ha, ho]
  have hs : ∀ s, others (servicesValue s) = [] := by
    intro s
    rw [servicesValue, others]
    refine fields_nil fun f hf => ?_
    obtain ⟨a, -, rfl⟩ := List.mem_map.1 hf
    rfl
  have hq : ∀ q, others (peerValue q) = [] := by
    intro q
    cases hper : q.period <;> cases hc : q.conType <;> simp [peerValue, periodValue, typeValue, hper, hc, others, othersOfFields, he, ha, hs, hl, othersOfItems, ho]
  cases p with
  | incoming b => exact ⟨b, rfl, (others_iff _ _).1 (by simpa [toValue, others, othersOfFields] using h)⟩
  | peerState ps =>
    have : othersOfFields (ps.map fun q => (q.1, peerValue q.2)) = [] := by
      refine fields_nil fun f hf => ?_
      obtain ⟨a, -, rfl⟩ := List.mem_map.1 hf
      exact hq a.2
    simp [toValue, others, othersOfFields, this] at h
  | request clas bp =>
    have := hl Value.str clas fun _ => by simp [others]
    simp [toValue, others, othersOfFields, hp, this] at h
  | _ => simp [toValue, others, othersOfFields, hp, he, hl, hh, hq, hs] at h

end Dtn.RouterJson
