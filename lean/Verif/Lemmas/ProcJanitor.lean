import Verif.Lemmas.ProcOnly
/-! The janitor: for which bundles the router is asked. -/

namespace Dtn.Proc
open Routing (Notification Answer)
open Spec

theorem askedIds_append (a b : List Event) : askedIds (a ++ b) = askedIds a ++ askedIds b := List.filterMap_append

/-- The router is not asked. -/
def SameAsked (n m : Node) : Prop := askedIds m.events = askedIds n.events

theorem SameAsked.log {n m : Node} {e : Event} (h : m.events = n.events ++ [e]) (he : ∀ bp a, e ≠ .asked bp a) : SameAsked n m := by
  unfold SameAsked
  rw [h, askedIds_append]
  have : askedIds [e] = [] := by
    cases e with
    | asked bp a => exact absurd rfl (he bp a)
    | _ => rfl
  rw [this, List.append_nil]

theorem SameAsked.same {n m : Node} (h : m.events = n.events) : SameAsked n m := by unfold SameAsked; rw [h]

theorem SameAsked.remove {n : Node} {bid : String} {c : Cause} : SameAsked n (n.remove bid c) := by
  unfold Node.remove
  split
  · exact .log rfl (by simp)
  · exact .same rfl

theorem SameAsked.sync {n : Node} {bp : Pack} {c : Cause} : SameAsked n (n.sync bp c) := by
  unfold Node.sync
  split
  · exact .remove
  · exact .same rfl

theorem sending_sameAsked (bid : String) : Sending SameAsked bid where
  refl _ := rfl
  sync _ _ _ _ _ := .sync
  delete _ _ _ _ _ := .sync
  router _ _ _ := .remove
  byRecord _ _ _ _ := .remove
  report _ _ _ _ := .log rfl (by simp)
  queue _ _ _ := .sync
  sending _ _ _ := .log rfl (by simp)
  outcome _ _ _ _ := .log rfl (by simp)
  failed _ _ := .log rfl (by simp)
  succeeded _ _ := .log rfl (by simp)
  other _ _ h _ := .same h

/-- There are metadata for these bundles. -/
def Knows (K : List String) (m : Node) : Prop := ∀ id ∈ K, m.store.getMetadata id ≠ none

/-- The program, with all tasks it starts, asks about exactly these bundles, in some order, on a node that knows the bundles in `K`. -/
def Asking (K : List String) : Prog → List String → Prop
  | .done _, ids => ids = []
  | .panic, ids => ids = []
  | .act f k, ids => ∀ m, m.store.Inv → Knows K m → SameAsked m (f m) ∧ Asking K (k m) ids
  | .route bp k, ids => ∃ rest, ids = bp.id :: rest ∧ ∀ a, Asking K (k a) rest
  | .choose k, ids => ∀ b, Asking K (k b) ids
  | .fresh k, ids => ∀ s, Asking K (k s) ids
  | .spawn t k, ids => ∃ i j, ids = i ++ j ∧ Asking K t i ∧ Asking K k j
  | .wait _ k, ids => Asking K k ids

/-- The program asks about these bundles, in this order, and stops early only if it panics. -/
def Ordered (K : List String) : Prog → List String → Prop
  | .done _, ids => ids = []
  | .panic, _ => True
  | .act f k, ids => ∀ m, m.store.Inv → Knows K m → SameAsked m (f m) ∧ Ordered K (k m) ids
  | .route bp k, ids => ∃ rest, ids = bp.id :: rest ∧ ∀ a, Ordered K (k a) rest
  | .choose k, ids => ∀ b, Ordered K (k b) ids
  | .fresh k, ids => ∀ s, Ordered K (k s) ids
  | .spawn t k, ids => Only SameAsked t ∧ Ordered K k ids
  | .wait _ k, ids => Ordered K k ids

variable {K : List String}

/-- A node to talk about. -/
def someNode : Node := Node.start { hostEid := .none, statusReports := false, decode := fun _ => none, encode := fun _ => [] } 0

theorem Asking.of_silent {p : Prog} (h : Only SameAsked p) : Asking K p [] := by
  induction p with
  | done | panic => rfl
  | act f k ih => exact fun m i _ => ⟨(h m i).1, ih m (h m i).2⟩
  | route bp k ih =>
    have := (h none).1 someNode
    simp [SameAsked, Node.log, askedIds, someNode, Node.start] at this
  | choose k ih => exact fun b => ih b (h b)
  | fresh k ih => exact fun b => ih b (h b)
  | spawn t k iht ihk => exact ⟨[], [], rfl, iht h.1, ihk h.2⟩
  | wait c k ih => exact ih h

/-- Tasks of a pool, together. -/
def PoolAsks (K : List String) : List Prog → List String → Prop
  | [], ids => ids = []
  | p :: ps, ids => ∃ i j, Asking K p i ∧ PoolAsks K ps j ∧ ids.Perm (i ++ j)

theorem PoolAsks.perm {ps : List Prog} {i j : List String} (h : PoolAsks K ps i) (hp : i.Perm j) : PoolAsks K ps j := by
  cases ps with
  | nil => cases h; exact List.nil_perm.mp hp
  | cons p ps => obtain ⟨a, b, h1, h2, h3⟩ := h; exact ⟨a, b, h1, h2, hp.symm.trans h3⟩

theorem poolAsks_append {a b : List Prog} {ids : List String} :
    PoolAsks K (a ++ b) ids ↔ ∃ i j, PoolAsks K a i ∧ PoolAsks K b j ∧ ids.Perm (i ++ j) := by
  induction a generalizing ids with
  | nil =>
    constructor
    · intro h; exact ⟨[], ids, rfl, h, by simp⟩
    · rintro ⟨i, j, rfl, h, hp⟩; exact h.perm hp.symm
  | cons p a ih =>
    constructor
    · rintro ⟨i, j, h1, h2, hp⟩
      obtain ⟨k, l, h3, h4, hp'⟩ := ih.mp h2
      exact ⟨i ++ k, l, ⟨i, k, h1, h3, .refl _⟩, h4, by
        rw [List.append_assoc]; exact hp.trans (hp'.append_left i)⟩
    · rintro ⟨i, j, ⟨k, l, h1, h2, hp'⟩, h3, hp⟩
      refine ⟨k, l ++ j, h1, ih.mpr ⟨l, j, h2, h3, .refl _⟩, ?_⟩
      rw [← List.append_assoc]
      exact hp.trans (hp'.append_right j)

theorem Asking.step {n m : Node} {p : Prog} {ps : List Prog} {ids : List String} (i : n.store.Inv) (kn : Knows K n) (h : Asking K p ids)
    (s : TaskStep n p m ps) : ∃ now later, askedIds m.events = askedIds n.events ++ now ∧ PoolAsks K ps later ∧ ids.Perm (now ++ later) := by
  have one : ∀ {q : Prog} {l : List String}, Asking K q l → PoolAsks K [q] l := fun h => ⟨_, [], h, rfl, by simp⟩
  cases s with
  | done | panic => cases h; exact ⟨[], [], by simp, rfl, .refl _⟩
  | act f k => exact ⟨[], ids, by rw [List.append_nil]; exact (h n i kn).1, one (h n i kn).2, .refl _⟩
  | route bp k a =>
    obtain ⟨rest, rfl, h⟩ := h
    exact ⟨[bp.id], rest, by simp [Node.log, askedIds], one (h a), .refl _⟩
  | choose k b => exact ⟨[], ids, by simp, one (h b), .refl _⟩
  | fresh k b => exact ⟨[], ids, by simp, one (h b), .refl _⟩
  | spawn t k =>
    obtain ⟨a, b, rfl, h1, h2⟩ := h
    exact ⟨[], a ++ b, by simp, ⟨b, a, h2, one h1, List.perm_append_comm⟩, .refl _⟩
  | wait c k => exact ⟨[], ids, by simp, one h, .refl _⟩

theorem PoolAsks.reaches {s t : Sys} {ids : List String} (i : Good s.node) (kn : Knows K s.node)
    (hrg : ∀ p ∈ s.pool, RG Good Base p (fun _ _ => True) s.node) (h : PoolAsks K s.pool ids) (hr : Reaches .quiet s t) :
    ∃ now later, askedIds t.node.events = askedIds s.node.events ++ now ∧ PoolAsks K t.pool later ∧ ids.Perm (now ++ later) := by
  induction hr with
  | refl => exact ⟨[], ids, by simp, h, .refl _⟩
  | @step u v hu hs ih =>
    obtain ⟨now, later, h1, h2, h3⟩ := ih
    have iu : u.node.store.Inv := (quiet_good i hrg hu).2.1.inv
    have ku : Knows K u.node := fun id h => (quiet_good i hrg hu).1.known id (kn id h)
    cases hs with
    | task l r p n n' ps ht =>
      obtain ⟨a, b, hl, hb, hp⟩ := poolAsks_append.mp h2
      obtain ⟨c, d, hpa, hr, hp'⟩ := hb
      obtain ⟨now', later', e1, e2, e3⟩ := Asking.step iu ku hpa ht
      refine ⟨now ++ now', a ++ (later' ++ d), by simp only at h1 e1 ⊢; rw [e1, h1, List.append_assoc], ?_, ?_⟩
      · rw [List.append_assoc]
        exact poolAsks_append.mpr ⟨a, later' ++ d, hl, poolAsks_append.mpr ⟨later', d, e2, hr, .refl _⟩, .refl _⟩
      · refine h3.trans ?_
        rw [List.append_assoc]
        refine List.Perm.append_left now ?_
        refine hp.trans ?_
        refine (hp'.append_left a).trans ?_
        refine (List.Perm.append_left a (e3.append_right d)).trans ?_
        rw [List.append_assoc, ← List.append_assoc, ← List.append_assoc now' a]
        exact List.Perm.append_right _ List.perm_append_comm
    | call n pool c h => exact h.elim
    | change n n' pool h => obtain ⟨t, -, rfl⟩ := h; exact ⟨now, later, h1, h2, h3⟩

/-- When everything has ended, the router was asked about exactly these bundles. -/
theorem PoolAsks.ended {n m : Node} {pool : List Prog} {ids : List String} (i : Good n) (kn : Knows K n)
    (hrg : ∀ p ∈ pool, RG Good Base p (fun _ _ => True) n) (h : PoolAsks K pool ids) (hr : Reaches .quiet ⟨n, pool⟩ ⟨m, []⟩) :
    ∃ now, askedIds m.events = askedIds n.events ++ now ∧ ids.Perm now := by
  obtain ⟨now, later, h1, h2, h3⟩ := PoolAsks.reaches (s := ⟨n, pool⟩) (t := ⟨m, []⟩) i kn hrg h hr
  cases h2
  exact ⟨now, h1, by simpa using h3⟩

theorem Ordered.reaches {s t : Sys} {p : Prog} {l r : List Prog} {ids : List String} (hs : s.pool = l ++ p :: r)
    (hl : ∀ q ∈ l ++ r, Only SameAsked q) (h : Ordered K p ids) (i : Good s.node) (kn : Knows K s.node)
    (hrg : ∀ p ∈ s.pool, RG Good Base p (fun _ _ => True) s.node) (hr : Reaches .quiet s t) :
    ∃ now rest, askedIds t.node.events = askedIds s.node.events ++ now ∧ ids = now ++ rest ∧
      ((∃ l p r, t.pool = l ++ p :: r ∧ (∀ q ∈ l ++ r, Only SameAsked q) ∧ Ordered K p rest) ∨ ∀ q ∈ t.pool, Only SameAsked q) := by
  induction hr with
  | refl => exact ⟨[], ids, by simp, rfl, .inl ⟨l, p, r, hs, hl, h⟩⟩
  | @step u v hu hst ih =>
    obtain ⟨now, rest, h1, h2, h3⟩ := ih
    have iu : u.node.store.Inv := (quiet_good i hrg hu).2.1.inv
    have ku : Knows K u.node := fun id h => (quiet_good i hrg hu).1.known id (kn id h)
    cases hst with
    | task l' r' q n n' ps ht =>
      have silent : Only SameAsked q → SameAsked n n' ∧ ∀ x ∈ ps, Only SameAsked x :=
        fun h => Only.step (fun _ => rfl) iu h ht
      have quietly : (SameAsked n n' ∧ ∀ x ∈ ps, Only SameAsked x) → askedIds n'.events = askedIds s.node.events ++ now := by
        intro hq; simp only at h1; rw [hq.1, h1]
      rcases h3 with ⟨l, p, r, hp, hq, ho⟩ | hq
      · simp only at hp
        rcases List.append_eq_append_iff.mp hp with ⟨a, ha1, ha2⟩ | ⟨a, ha1, ha2⟩
        · cases a with
          | nil =>
            simp only [List.append_nil, List.nil_append, List.cons.injEq] at ha1 ha2
            obtain ⟨rfl, rfl⟩ := ha2
            subst ha1
            cases ht with
            | done => exact ⟨now, rest, h1, h2, .inr (by simpa using hq)⟩
            | panic => exact ⟨now, rest, h1, h2, .inr (by simpa using hq)⟩
            | act f k =>
              refine ⟨now, rest, ?_, h2, .inl ⟨l, _, r', by simp, hq, (ho n iu ku).2⟩⟩
              simp only at h1 ⊢
              rw [(ho n iu ku).1, h1]
            | route bp k a =>
              obtain ⟨rest', rfl, ho⟩ := ho
              refine ⟨now ++ [bp.id], rest', ?_, by simp [h2], .inl ⟨l, _, r', by simp, hq, ho a⟩⟩
              simp only at h1 ⊢
              simp only [Node.log]
              rw [askedIds_append, h1, List.append_assoc]; rfl
            | choose k b => exact ⟨now, rest, h1, h2, .inl ⟨l, _, r', by simp, hq, ho b⟩⟩
            | fresh k b => exact ⟨now, rest, h1, h2, .inl ⟨l, _, r', by simp, hq, ho b⟩⟩
            | spawn t k =>
              refine ⟨now, rest, h1, h2, .inl ⟨l, k, t :: r', by simp, ?_, ho.2⟩⟩
              intro x hx
              simp only [List.mem_append, List.mem_cons] at hx
              rcases hx with hx | rfl | hx
              · exact hq x (by simp [hx])
              · exact ho.1
              · exact hq x (by simp [hx])
            | wait c k => exact ⟨now, rest, h1, h2, .inl ⟨l, k, r', by simp, hq, ho⟩⟩
          | cons y a =>
            simp only [List.cons_append, List.cons.injEq] at ha2
            obtain ⟨rfl, rfl⟩ := ha2
            subst ha1
            have hs := silent (hq q (by simp))
            refine ⟨now, rest, quietly hs, h2, .inl ⟨l' ++ ps ++ a, p, r, by simp, ?_, ho⟩⟩
            intro x hx
            simp only [List.append_assoc, List.mem_append] at hx
            rcases hx with hx | hx | hx | hx
            · exact hq x (by simp [hx])
            · exact hs.2 x hx
            · exact hq x (by simp [hx])
            · exact hq x (by simp [hx])
        · cases a with
          | nil =>
            simp only [List.append_nil, List.nil_append, List.cons.injEq] at ha1 ha2
            obtain ⟨rfl, rfl⟩ := ha2
            subst ha1
            cases ht with
            | done => exact ⟨now, rest, h1, h2, .inr (by simpa using hq)⟩
            | panic => exact ⟨now, rest, h1, h2, .inr (by simpa using hq)⟩
            | act f k =>
              refine ⟨now, rest, ?_, h2, .inl ⟨l', _, r, by simp, hq, (ho n iu ku).2⟩⟩
              simp only at h1 ⊢
              rw [(ho n iu ku).1, h1]
            | route bp k a =>
              obtain ⟨rest', rfl, ho⟩ := ho
              refine ⟨now ++ [bp.id], rest', ?_, by simp [h2], .inl ⟨l', _, r, by simp, hq, ho a⟩⟩
              simp only at h1 ⊢
              simp only [Node.log]
              rw [askedIds_append, h1, List.append_assoc]; rfl
            | choose k b => exact ⟨now, rest, h1, h2, .inl ⟨l', _, r, by simp, hq, ho b⟩⟩
            | fresh k b => exact ⟨now, rest, h1, h2, .inl ⟨l', _, r, by simp, hq, ho b⟩⟩
            | spawn t k =>
              refine ⟨now, rest, h1, h2, .inl ⟨l', k, t :: r, by simp, ?_, ho.2⟩⟩
              intro x hx
              simp only [List.mem_append, List.mem_cons] at hx
              rcases hx with hx | rfl | hx
              · exact hq x (by simp [hx])
              · exact ho.1
              · exact hq x (by simp [hx])
            | wait c k => exact ⟨now, rest, h1, h2, .inl ⟨l', k, r, by simp, hq, ho⟩⟩
          | cons y a =>
            simp only [List.cons_append, List.cons.injEq] at ha2
            obtain ⟨rfl, rfl⟩ := ha2
            subst ha1
            have hs := silent (hq q (by simp))
            refine ⟨now, rest, quietly hs, h2, .inl ⟨l, p, a ++ ps ++ r', by simp, ?_, ho⟩⟩
            intro x hx
            simp only [List.append_assoc, List.mem_append] at hx
            rcases hx with hx | hx | hx | hx
            · exact hq x (by simp [hx])
            · exact hq x (by simp [hx])
            · exact hs.2 x hx
            · exact hq x (by simp [hx])
      · have hs := silent (hq q (by simp))
        refine ⟨now, rest, quietly hs, h2, .inr ?_⟩
        intro x hx
        simp only [List.append_assoc, List.mem_append] at hx
        rcases hx with hx | hx | hx
        · exact hq x (by simp [hx])
        · exact hs.2 x hx
        · exact hq x (by simp [hx])
    | call n pool c h => exact h.elim
    | change n n' pool h => obtain ⟨t, -, rfl⟩ := h; exact ⟨now, rest, h1, h2, h3⟩

/-! ### The programs -/

theorem asking_forward {bp : Pack} {k : Bool → Prog} (hb : bp.id ∈ K) (hk : ∀ ok, Only SameAsked (k ok)) : Asking K (forward bp k) [bp.id] := by
  unfold forward
  dsimp only
  have hid : ((bp.add .forwardPending).del .dispatchPending).id = bp.id := rfl
  have hany : ((bp.add .forwardPending).del .dispatchPending).hasAny = true := hasAny_of (fwdPack_has bp)
  generalize (bp.add .forwardPending).del .dispatchPending = bp' at hid hany
  intro m _ kn
  refine ⟨.sync, ?_⟩
  have : (m.store.sync bp').2 = true := by
    have hc : m.store.metadata.contains bp'.id = true := (AList.contains_iff _ _).mpr (by rw [hid]; exact Option.ne_none_iff_exists'.mp (kn _ hb))
    simp [MemStore.sync, hany, MemStore.updateMetadata, hc]
  simp only [this, Bool.not_true, Bool.false_eq_true, if_false]
  refine ⟨[], by rw [hid], fun a => .of_silent ?_⟩
  dsimp only
  split
  · exact hk _
  · split
    · split
      · exact fun m _ => ⟨.remove, hk _⟩
      · exact hk _
    · exact (sending_sameAsked bp'.id).prepare .only rfl hk

theorem closed_ordered (ids : List String) : Closed SameAsked (Ordered K · ids) :=
  ⟨trivial, fun h m i _ => h m i, id, fun h h' => ⟨h, h'⟩, id⟩

theorem ordered_forward {bp : Pack} {k : Bool → Prog} {ids : List String} (hb : bp.id ∈ K) (hk : ∀ ok, Ordered K (k ok) ids) :
    Ordered K (forward bp k) (bp.id :: ids) := by
  unfold forward
  dsimp only
  have hid : ((bp.add .forwardPending).del .dispatchPending).id = bp.id := rfl
  have hany : ((bp.add .forwardPending).del .dispatchPending).hasAny = true := hasAny_of (fwdPack_has bp)
  generalize (bp.add .forwardPending).del .dispatchPending = bp' at hid hany
  intro m _ kn
  refine ⟨.sync, ?_⟩
  have : (m.store.sync bp').2 = true := by
    have hc : m.store.metadata.contains bp'.id = true := (AList.contains_iff _ _).mpr (by rw [hid]; exact Option.ne_none_iff_exists'.mp (kn _ hb))
    simp [MemStore.sync, hany, MemStore.updateMetadata, hc]
  simp only [this, Bool.not_true, Bool.false_eq_true, if_false]
  refine ⟨ids, by rw [hid], fun a => ?_⟩
  dsimp only
  split
  · exact hk _
  · split
    · split
      · exact fun m _ _ => ⟨.remove, hk _⟩
      · exact hk _
    · exact (sending_sameAsked bp'.id).prepare (closed_ordered ids) rfl hk

theorem asking_forwardAll (ps : List Pack) (hb : ∀ p ∈ ps, p.id ∈ K) : Asking K (forwardAll true ps) (ps.map Pack.id) := by
  induction ps with
  | nil => rfl
  | cons p ps ih =>
    rw [forwardAll, if_pos rfl]
    exact ⟨[p.id], ps.map Pack.id, rfl, asking_forward (hb p (by simp)) fun _ => trivial, ih fun q hq => hb q (by simp [hq])⟩

theorem ordered_forwardAll (ps : List Pack) (hb : ∀ p ∈ ps, p.id ∈ K) : Ordered K (forwardAll false ps) (ps.map Pack.id) := by
  induction ps with
  | nil => rfl
  | cons p ps ih =>
    rw [forwardAll, if_neg (by simp)]
    exact ordered_forward (hb p (by simp)) fun _ => ih fun q hq => hb q (by simp [hq])

/-! ### Until the bundles are listed -/

/-- Only expired bundles have been removed. -/
structure Swept (n m : Node) : Prop where
  cfg : m.cfg = n.cfg
  cla : m.claActive = n.claActive
  clock : n.clock ≤ m.clock
  events : ∃ es, m.events = n.events ++ es ∧ ∀ e ∈ es, ∃ bid p now, e = .removed bid (.expired p now)

theorem Swept.refl (n : Node) : Swept n n := ⟨rfl, rfl, Nat.le_refl _, [], by simp, by simp⟩

theorem Swept.trans {a b c : Node} (h : Swept a b) (h' : Swept b c) : Swept a c := by
  obtain ⟨es, h1, h2⟩ := h.events
  obtain ⟨es', h3, h4⟩ := h'.events
  refine ⟨h'.cfg.trans h.cfg, h'.cla.trans h.cla, Nat.le_trans h.clock h'.clock, es ++ es', by rw [h3, h1, List.append_assoc], ?_⟩
  intro e he
  rcases List.mem_append.mp he with he | he
  · exact h2 e he
  · exact h4 e he

theorem Swept.time (n : Node) {t : Nat} (h : n.clock ≤ t) : Swept n (n.at t) := ⟨rfl, rfl, h, [], by simp [Node.at], by simp⟩

theorem Swept.remove (n : Node) (bid : String) (p : Pack) (now : Nat) : Swept n (n.remove bid (.expired p now)) := by
  unfold Node.remove
  split
  · exact ⟨rfl, rfl, Nat.le_refl _, [.removed bid (.expired p now)], rfl, by simp⟩
  · exact ⟨rfl, rfl, Nat.le_refl _, [], by simp, by simp⟩

variable {Q : List Prog → Node → Prop}

theorem alone_sweep {k : Prog} (ms : List Pack) {n : Node} (i : n.store.Inv)
    (hk : ∀ m, Swept n m → m.store.Inv → Alone Q k m) : Alone Q (sweep ms k) n := by
  induction ms generalizing n with
  | nil => exact hk n (.refl n) i
  | cons m ms ih =>
    refine alone_read fun t ht => ?_
    split
    · refine alone_set fun t2 ht2 => ih ?_ fun m' h' i' => hk m' ((((Swept.time n ht).trans (.time _ ht2)).trans (.remove _ _ _ _)).trans h') i'
      unfold Node.remove
      split <;> exact i.remove _
    · exact ih i fun m' h' i' => hk m' ((Swept.time n ht).trans h') i'

theorem alone_collect {k : List Pack → Prog} (bids : List String) (acc : List Pack) {n : Node}
    (hk : ∀ t, n.clock ≤ t → Alone Q (k (acc ++ (bids.filterMap n.store.getMetadata).filter fun p => !p.has .deleted)) (n.at t)) :
    Alone Q (collect bids acc k) n := by
  induction bids generalizing acc n with
  | nil =>
    have := hk n.clock (Nat.le_refl _)
    simpa [collect, Node.at] using this
  | cons bid bids ih =>
    refine alone_read fun t ht => ?_
    have he : (n.at t).store = n.store := rfl
    rw [he]
    have next : ∀ acc' : List Pack, (∀ t2, (n.at t).clock ≤ t2 →
        Alone Q (k (acc' ++ (bids.filterMap n.store.getMetadata).filter fun p => !p.has .deleted)) ((n.at t).at t2)) →
        Alone Q (collect bids acc' k) (n.at t) := fun acc' h => ih acc' h
    cases hg : n.store.getMetadata bid with
    | none =>
      refine next _ fun t2 ht2 => ?_
      have := hk t2 (Nat.le_trans ht ht2)
      rw [List.filterMap_cons, hg] at this
      exact this
    | some bp =>
      refine next _ fun t2 ht2 => ?_
      have := hk t2 (Nat.le_trans ht ht2)
      rw [List.filterMap_cons, hg] at this
      cases hd : bp.has .deleted with
      | true =>
        simp only [if_true]
        rw [List.filter_cons, hd] at this
        exact this
      | false =>
        simp only [Bool.false_eq_true, if_false, List.append_assoc]
        rw [List.filter_cons, hd] at this
        exact this

theorem forwarding_packs {s : MemStore} (inv : s.Inv) : s.forwarding.filterMap s.getMetadata = s.packs.filter (fun e => e.has .forwardPending) := by
  unfold MemStore.forwarding MemStore.filter
  have hp : AList.values s.metadata = s.packs := rfl
  rw [hp, List.filterMap_map]
  have : ∀ l : List Pack, (∀ p ∈ l, p ∈ s.packs) →
      (l.filter (fun e => [Constraint.forwardPending].all fun c => e.has c)).filterMap
        (s.getMetadata ∘ Pack.id) = l.filter (fun e => e.has .forwardPending) := by
    intro l hl
    induction l with
    | nil => rfl
    | cons p l ih =>
      have hm := (MemStore.mem_packs_iff inv p).mp (hl p (by simp))
      have ih := ih (fun q hq => hl q (by simp [hq]))
      by_cases hf : p.has .forwardPending = true
      · simp only [List.all_cons, List.all_nil, Bool.and_true] at ih ⊢
        simp [hf, hm, ih]
      · simp only [List.all_cons, List.all_nil, Bool.and_true] at ih ⊢
        simp [hf, ih]
  exact this s.packs (fun p hp => hp)

/-- The janitor lists the pending bundles and goes on to forward these, in order of creation. -/
theorem alone_processBundles {n : Node} (i : n.store.Inv) (hc : n.claActive = true) :
    Alone (fun pool m => Swept n m ∧ ∃ ps, pool = [forwardAll m.cfg.parallel ps] ∧
      ps.Perm (m.store.packs.filter fun p => p.has .forwardPending && !p.has .deleted) ∧
      ps.Pairwise (fun a b => a.creationTime ≤ b.creationTime)) processBundles n := by
  unfold processBundles
  refine alone_read fun t ht => alone_sweep _ i fun m hm im => alone_read fun t2 ht2 => ?_
  have hcm : (m.at t2).claActive = true := (hm.cla.trans (Swept.time n ht).cla).trans hc
  simp only [hcm, Bool.not_true, Bool.false_eq_true, if_false]
  refine alone_read fun t3 ht3 => alone_collect _ _ fun t4 ht4 => alone_read fun t5 ht5 => .stop ?_
  refine ⟨?_, _, rfl, ?_, ?_⟩
  · exact ((((((Swept.time n ht).trans hm).trans (.time m ht2)).trans (.time _ ht3)).trans (.time _ ht4)).trans (.time _ ht5))
  · refine (List.mergeSort_perm _ _).trans ?_
    have : ((m.at t2).at t3).store = m.store := rfl
    rw [this, List.nil_append, forwarding_packs im, List.filter_filter]
    have : ((((m.at t2).at t3).at t4).at t5).store = m.store := rfl
    rw [this]
    have e : (fun p : Pack => !p.has .deleted && p.has .forwardPending) = fun p => p.has .forwardPending && !p.has .deleted := by
      funext p; exact Bool.and_comm _ _
    rw [e]
  · have := List.pairwise_mergeSort (le := fun a b : Pack => decide (a.creationTime ≤ b.creationTime))
      (by intro a b c; simp only [decide_eq_true_eq]; omega)
      (by intro a b; simp only [Bool.or_eq_true, decide_eq_true_eq]; omega)
      ([] ++ (((m.at t2).at t3).store.forwarding.filterMap ((m.at t2).at t3).store.getMetadata).filter fun p => !p.has .deleted)
    simpa using this

theorem alone_processBundles_idle {n : Node} (i : n.store.Inv) (hc : n.claActive = false) :
    Alone (fun pool m => Swept n m ∧ pool = [.done true]) processBundles n := by
  unfold processBundles
  refine alone_read fun t ht => alone_sweep _ i fun m hm im => alone_read fun t2 ht2 => ?_
  have hcm : (m.at t2).claActive = false := (hm.cla.trans (Swept.time n ht).cla).trans hc
  simp only [hcm, Bool.not_false, if_true]
  exact .stop ⟨((Swept.time n ht).trans hm).trans (.time m ht2), rfl⟩

end Dtn.Proc
