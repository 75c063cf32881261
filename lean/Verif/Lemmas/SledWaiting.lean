import Verif.Lemmas.SledGiven
import Verif.Lemmas.WaitingRun
import Mathlib.Tactic.ByContra
/-! Programs of a node with the persistent store that do not leave a bundle behind. -/

namespace Dtn.OnSled
open Routing (Notification Answer)
open Proc (Node Prog Sys Call Settled Base Event Cause Pos Reason Config Transfer mkReport fwdPack fwdPack_has Outside TaskStep
  Place Fit AdminRecord transferTask spawnTransfers clear_none settled_sync settled_removed removeBlocks plain_cons hasAny_of known_of_stored)
open Spec

/-- As `Proc.Tends`, but from a given state on. -/
def Tends (bid : String) (J : Node → Prop) (a : Prop) : Prog → Node → Bool → Prop
  | .done _, _, o => o = false
  | .panic, _, o => o = false
  | .act f k, n, o => ∀ m, Base n m → J m → J (f m) → Tends bid J a (k m) (f m) false ∧
      (¬ Settled bid (f m) → o = true → Tends bid J a (k m) (f m) true) ∧
      (¬ Settled bid (f m) → Settled bid m → a ∧ Tends bid J a (k m) (f m) true)
  | .route _ k, n, o => ∀ m, Base n m → ∀ x, Tends bid J a (k x) m false ∧ (o = true → Tends bid J a (k x) m true)
  | .choose k, n, o => ∀ x, Tends bid J a (k x) n o
  | .fresh k, n, o => ∀ x, Tends bid J a (k x) n o
  | .spawn t k, n, o => Tends bid J a t n false ∧ Tends bid J a k n false ∧ (o = true → Tends bid J a t n true ∨ Tends bid J a k n true)
  | .wait _ k, n, o => Tends bid J a k n o

variable {bid : String} {J : Node → Prop} {a : Prop} {o : Bool} {n : Node}

theorem Tends.drop {p : Prog} : Tends bid J a p n true → Tends bid J a p n false := by
  induction p with
  | done | panic => intro h; exact absurd h (by simp [Tends])
  | act f k ih => intro h m b j j'; exact ⟨(h m b j j').1, (fun _ h => by cases h), (h m b j j').2.2⟩
  | route bp k ih => intro h m b x; exact ⟨(h m b x).1, (fun h => by cases h)⟩
  | choose k ih => intro h x; exact ih x (h x)
  | fresh k ih => intro h x; exact ih x (h x)
  | spawn t k iht ihk => intro h; exact ⟨h.1, h.2.1, (fun h => by cases h)⟩
  | wait c k ih => intro h; exact ih h

theorem Tends.calm {p : Prog} (h : Tends bid J a p n o) : Tends bid J a p n false := by
  cases o
  · exact h
  · exact h.drop

theorem Tends.mono {p : Prog} {m : Node} (b : Base n m) : Tends bid J a p n o → Tends bid J a p m o := by
  induction p generalizing o with
  | done | panic => exact id
  | act f k ih => intro h m' b'; exact h m' (b.trans b')
  | route bp k ih => intro h m' b'; exact h m' (b.trans b')
  | choose k ih => intro h x; exact ih x (h x)
  | fresh k ih => intro h x; exact ih x (h x)
  | spawn t k iht ihk => intro h; exact ⟨iht h.1, ihk h.2.1, fun e => (h.2.2 e).imp iht ihk⟩
  | wait c k ih => intro h; exact ih h

/-- What is true of all tasks of a system. -/
def Tended (bid : String) (J : Node → Prop) (a : Prop) (s : Sys) : Prop :=
  (∀ p ∈ s.pool, Tends bid J a p s.node false) ∧ (¬ Settled bid s.node → a ∧ ∃ p ∈ s.pool, Tends bid J a p s.node true)

theorem Tended.step (hc : ∀ c n, J n → J (n.log (.called c)) → ∀ m, Tends bid J a (task c) m false)
    {s t : Sys} (h : Tended bid J a s) (b : Base s.node t.node)
    (j : J s.node) (j' : J t.node) (st : Step s t) : Tended bid J a t := by
  cases st with
  | task l r p n n' ps ht =>
    dsimp only at b
    have hp := h.1 p (by simp)
    have other : ∀ {x o'}, Tends bid J a x n o' → Tends bid J a x n' o' := fun h => h.mono b
    -- who has to see to it before the step, and the step does not change the store
    have quiet : ∀ {q : Prog}, ps = [q] → n'.store = n.store → Tends bid J a q n' false → (Tends bid J a p n true → Tends bid J a q n' true) →
        Tended bid J a ⟨n', l ++ ps ++ r⟩ := by
      intro q hq hst h1 h2
      subst hq
      refine ⟨fun x hx => ?_, fun hs => ?_⟩
      · simp only [List.mem_append, List.mem_singleton] at hx
        rcases hx with (hx | rfl) | hx
        · exact other (h.1 x (by simp [hx]))
        · exact h1
        · exact other (h.1 x (by simp [hx]))
      · obtain ⟨ha, x, hx, ho⟩ := h.2 fun h => hs ((Settled.store hst).mpr h)
        refine ⟨ha, ?_⟩
        simp only [List.mem_append, List.mem_cons] at hx
        rcases hx with hx | rfl | hx
        · exact ⟨x, by simp [hx], other ho⟩
        · exact ⟨q, by simp, h2 ho⟩
        · exact ⟨x, by simp [hx], other ho⟩
    have over : ps = [] → n' = n → ¬ Tends bid J a p n true → Tended bid J a ⟨n', l ++ ps ++ r⟩ := by
      rintro rfl rfl hn
      refine ⟨fun x hx => h.1 x (by simp only [List.append_nil, List.mem_append] at hx; rcases hx with hx | hx <;> simp [hx]), fun hs => ?_⟩
      obtain ⟨ha, x, hx, ho⟩ := h.2 hs
      simp only [List.mem_append, List.mem_cons] at hx
      rcases hx with hx | rfl | hx
      · exact ⟨ha, x, by simp [hx], ho⟩
      · exact absurd ho hn
      · exact ⟨ha, x, by simp [hx], ho⟩
    cases ht with
    | done => exact over rfl rfl (by simp [Tends])
    | panic => exact over rfl rfl (by simp [Tends])
    | act f k =>
      obtain ⟨h1, -, h3⟩ := hp n (.refl n) j j'
      refine ⟨fun x hx => ?_, fun hs => ?_⟩
      · simp only [List.mem_append, List.mem_singleton] at hx
        rcases hx with (hx | rfl) | hx
        · exact other (h.1 x (by simp [hx]))
        · exact h1
        · exact other (h.1 x (by simp [hx]))
      · by_cases hq : Settled bid n
        · exact ⟨(h3 hs hq).1, k n, by simp, (h3 hs hq).2⟩
        · obtain ⟨ha, x, hx, ho⟩ := h.2 hq
          refine ⟨ha, ?_⟩
          simp only [List.mem_append, List.mem_cons] at hx
          rcases hx with hx | rfl | hx
          · exact ⟨x, by simp [hx], other ho⟩
          · exact ⟨k n, by simp, (ho n (.refl n) j j').2.1 hs rfl⟩
          · exact ⟨x, by simp [hx], other ho⟩
    | route bp k x => exact quiet rfl rfl (hp _ b x).1 fun ho => (ho _ b x).2 rfl
    | choose k x => exact quiet rfl rfl (hp x) fun ho => ho x
    | fresh k x => exact quiet rfl rfl (hp x) fun ho => ho x
    | wait c k => exact quiet rfl rfl hp fun ho => ho
    | spawn q k =>
      refine ⟨fun x hx => ?_, fun hs => ?_⟩
      · simp only [List.mem_append, List.mem_cons, List.not_mem_nil, or_false] at hx
        rcases hx with (hx | rfl | rfl) | hx
        · exact h.1 x (by simp [hx])
        · exact hp.2.1
        · exact hp.1
        · exact h.1 x (by simp [hx])
      · obtain ⟨ha, x, hx, ho⟩ := h.2 hs
        refine ⟨ha, ?_⟩
        simp only [List.mem_append, List.mem_cons] at hx
        rcases hx with hx | rfl | hx
        · exact ⟨x, by simp [hx], ho⟩
        · exact (ho.2.2 rfl).elim (fun h => ⟨q, by simp, h⟩) fun h => ⟨k, by simp, h⟩
        · exact ⟨x, by simp [hx], ho⟩
  | call n pool c =>
    refine ⟨fun x hx => ?_, fun hs => ?_⟩
    · rcases List.mem_append.mp hx with hx | hx
      · exact (h.1 x hx).mono b
      · rw [List.mem_singleton.mp hx]; exact hc c _ j j' _
    · obtain ⟨ha, x, hx, ho⟩ := h.2 fun h => hs h
      exact ⟨ha, x, by simp [hx], ho.mono b⟩
  | change n n' pool hcc =>
    refine ⟨fun x hx => (h.1 x hx).mono b, fun hs => ?_⟩
    obtain ⟨ha, x, hx, ho⟩ := h.2 fun h => hs ((Settled.store hcc.store).mpr h)
    exact ⟨ha, x, hx, ho.mono b⟩

/-! ### Rules -/

theorem tends_act {f : Node → Node} {k : Node → Prog} (hf : ∀ m, J m → J (f m) → Settled bid m → Settled bid (f m))
    (hk : ∀ m, Base n m → J m → J (f m) → Tends bid J a (k m) (f m) o) : Tends bid J a (.act f k) n o :=
  fun m b j j' => ⟨(hk m b j j').calm, fun _ ho => ho ▸ hk m b j j', fun hs h => absurd (hf m j j' h) hs⟩

theorem tends_set {f : Node → Node} {k : Prog} (hf : ∀ m, J m → J (f m) → Settled bid m → Settled bid (f m))
    (hk : ∀ m, Tends bid J a k m o) : Tends bid J a (.set f k) n o :=
  tends_act hf fun _ _ _ _ => hk _

theorem tends_read {k : Node → Prog} (hk : ∀ m, Base n m → J m → Tends bid J a (k m) m o) : Tends bid J a (.read k) n o :=
  tends_act (fun _ _ _ h => h) fun m b j _ => hk m b j

/-- Steps that make the bundle wait, or find that it is not there. -/
theorem tends_settle {f : Node → Node} {k : Node → Prog}
    (hk : ∀ m, J m → J (f m) → Tends bid J a (k m) (f m) false ∧ (¬ Settled bid (f m) → o = true → Tends bid J a (k m) (f m) true) ∧
      (¬ Settled bid (f m) → ¬ Settled bid m)) : Tends bid J a (.act f k) n o :=
  fun m _ j j' => ⟨(hk m j j').1, (hk m j j').2.1, fun hs h => absurd h ((hk m j j').2.2 hs)⟩

/-- Steps after which the task has to see to the bundle. -/
theorem tends_break {f : Node → Node} {k : Node → Prog} (ha : a)
    (hk : ∀ m, J m → J (f m) → Tends bid J a (k m) (f m) false ∧ (¬ Settled bid (f m) → Tends bid J a (k m) (f m) true)) :
    Tends bid J a (.act f k) n o :=
  fun m _ j j' => ⟨(hk m j j').1, fun hs _ => (hk m j j').2 hs, fun hs _ => ⟨ha, (hk m j j').2 hs⟩⟩

theorem own_false {p : Prop} (ho : o = true → p) (h : ¬ p) : o = false := by
  cases o
  · rfl
  · exact absurd (ho rfl) h

/-! ### Calls of the store -/

theorem Settled.update {bp : Pack} (h : bp.id ≠ bid) (s : Settled bid n) : Settled bid { n with store := (n.store.updateMetadata bp).1 } := by
  unfold Settled
  dsimp only
  rw [MemStore.getBundle_update, MemStore.getMetadata_update, if_neg (fun e => h e.1.symm)]
  exact s

theorem settled_update {bp : Pack} (i : n.store.Inv) (h : bp.id = bid) (h1 : bp.has .forwardPending = true) (h2 : bp.has .deleted = false) :
    Settled bid { n with store := (n.store.updateMetadata bp).1 } := by
  have := settled_sync i h h1 h2 .request
  unfold Node.sync at this
  rwa [if_neg (by simp [hasAny_of h1])] at this

variable {cfg : Config} (P : Place bid cfg J a)
include P

omit P in
theorem tends_get {x : String} {k : Option Bundle → Prog} (ho : o = true → x = bid)
    (hk : ∀ m b, J m → m.store.getBundle x = some b → ∀ o', (o' = true → o = true) → Tends bid J a (k (some b)) m o') :
    Tends bid J a (getBundle x k) n o := by
  unfold getBundle
  refine tends_settle fun m j _ => ?_
  have hk' := hk m
  unfold SledStore.getBundle db
  dsimp only
  unfold MemStore.getBundle at hk'
  cases hb : AList.get? m.store.bundles x with
  | none =>
    refine ⟨rfl, fun hn h => absurd (.inl ?_) hn, fun h => h⟩
    rw [← ho h]; exact hb
  | some b => exact ⟨hk' b j hb _ (by simp), fun _ h => hk' b j hb _ (fun _ => h), fun h => h⟩

theorem tends_remove {x : String} {c : Cause} {k : Bool → Prog} (hkn : o = true → n.store.getMetadata x ≠ none)
    (hk : ∀ m, Tends bid J a (k true) m o) : Tends bid J a (remove x c k) n o := by
  unfold remove
  intro m b j j'
  have hs : Settled bid m → Settled bid (removed m x c) := fun h => by
    rw [remove_eq (P.inv _ j)]; exact h.remove (P.inv _ j) _ _
  dsimp only
  rcases remove_cases m x k with ⟨h1, h2⟩ | ⟨h1, -⟩
  · rw [h1]
    have : o = false := own_false hkn (fun h => b.known _ h h2)
    subst this
    exact ⟨rfl, (fun _ h => by cases h), fun hn h => absurd (hs h) hn⟩
  · rw [h1]
    exact ⟨(hk _).calm, fun _ h => h ▸ hk _, fun hn h => absurd (hs h) hn⟩

/-- Removal of the bundle itself. -/
theorem tends_removeOwn {c : Cause} {k : Bool → Prog} (hk : ∀ m, Tends bid J a (k true) m false) : Tends bid J a (remove bid c k) n o := by
  unfold remove
  refine tends_settle fun m j _ => ?_
  have hs : Settled bid (removed m bid c) := by
    rw [remove_eq (P.inv _ j)]; exact settled_removed (P.inv _ j) _
  refine ⟨?_, fun h => absurd hs h, fun h => absurd hs h⟩
  rcases remove_cases m bid k with ⟨h1, -⟩ | ⟨h1, -⟩
  · rw [h1]; rfl
  · rw [h1]; exact hk _

/-- Metadata of another bundle. -/
theorem tends_syncOther {bp : Pack} {c : Cause} {k : Bool → Prog} (hid : bp.id ≠ bid) (hk : ∀ ok m, Tends bid J a (k ok) m false) :
    Tends bid J a (sync bp k c) n false := by
  unfold sync
  split
  · exact tends_remove P (by simp) fun m => hk _ m
  · refine tends_act (fun m _ _ h => by rw [update_eq]; exact Settled.update hid h) fun m _ _ _ => ?_
    obtain ⟨ok, h, -⟩ := update_cases m bp k
    rw [h]; exact hk _ _

/-- Metadata according to which the bundle waits. -/
theorem tends_syncWaits {bp : Pack} {c : Cause} {k : Bool → Prog} (hid : bp.id = bid) (h1 : bp.has .forwardPending = true)
    (h2 : bp.has .deleted = false) (hk : ∀ ok m, Tends bid J a (k ok) m false) : Tends bid J a (sync bp k c) n o := by
  unfold sync
  rw [if_neg (by simp [hasAny_of h1])]
  refine tends_settle fun m j _ => ?_
  have hs : Settled bid (write m ((db m).updateW bp)) := by rw [update_eq]; exact settled_update (P.inv _ j) hid h1 h2
  obtain ⟨ok, h, -⟩ := update_cases m bp k
  rw [h]
  exact ⟨hk _ _, fun h => absurd hs h, fun h => absurd hs h⟩

/-- Metadata according to which it does not. -/
theorem tends_syncBreaks {bp : Pack} {c : Cause} {k : Bool → Prog} (hany : bp.hasAny = true) (ha : bp.id = bid → a) (ho : o = true → bp.id = bid)
    (hk : ∀ ok m o', (o' = true → ok = true ∧ bp.id = bid) → Tends bid J a (k ok) m o') : Tends bid J a (sync bp k c) n o := by
  by_cases hid : bp.id = bid
  · unfold sync
    rw [if_neg (by simp [hany])]
    refine tends_break (ha hid) fun m j j' => ?_
    obtain ⟨ok, h, h'⟩ := update_cases m bp k
    rw [h]
    refine ⟨hk _ _ _ (by simp), fun hn => hk _ _ _ fun _ => ⟨h' ?_, hid⟩⟩
    have hb : m.store.getBundle bid ≠ none := fun hb => hn <| .inl <| by
      rw [update_eq]; dsimp only; rw [MemStore.getBundle_update]; exact hb
    rw [hid]
    exact known_of_stored (P.inv _ j) hb
  · rw [own_false ho hid]
    exact tends_syncOther P hid fun ok m => hk ok m _ (by simp)

/-- A bundle is put into the store, and the task sees to it. -/
theorem tends_push {b : Bundle} {k : Bool → Prog} (ha : b.id = bid → a) (ho : o = true → b.id = bid)
    (hk : ∀ ok m o', (o' = true → ok = true ∧ b.id = bid) →
      (ok = true → b.id = bid → b.primary.destination.nodeId ≠ cfg.hostEid.nodeId ∧ Spec.Plain b) → Tends bid J a (k ok) m o') :
    Tends bid J a (push b k) n o := by
  unfold push
  by_cases hid : b.id = bid
  · refine tends_break (ha hid) fun m j j' => ?_
    rw [push_cases]
    by_cases hg : Gone b.id m
    · rw [decide_eq_true hg]
      refine ⟨hk _ _ _ (by simp) (by simp), fun hn => absurd (.inl ?_) hn⟩
      rw [push_eq, if_pos hg, ← hid]; exact hg.2
    · rw [decide_eq_false hg]
      have hb : (write m ((db m).pushW m.clock b)).store.getBundle bid = some b := by
        rw [push_eq, if_neg hg]
        unfold Node.push; dsimp only; rw [MemStore.getBundle_push, if_pos hid.symm]
      have hr := P.remote _ _ j' hb
      exact ⟨hk _ _ _ (by simp) fun _ _ => hr, fun _ => hk _ _ _ (fun _ => ⟨rfl, hid⟩) fun _ _ => hr⟩
  · rw [own_false ho hid]
    refine tends_act (fun m j _ s => ?_) fun m _ _ _ => ?_
    · rw [push_eq]
      split
      · exact s
      · exact s.push hid
    · rw [push_cases]
      exact hk _ _ _ (by simp) fun _ h => absurd h hid

/-! ### Steps -/

theorem tends_removeIfSingleton {b : Bundle} {k : Prog} (hk : ∀ m, Tends bid J a k m false) :
    Tends bid J a (removeIfSingleton b k) n false := by
  unfold removeIfSingleton
  split
  · exact tends_remove P (by simp) hk
  · exact tends_read fun m _ _ => hk m

theorem tends_sendReport {bp : Pack} {cause : Bundle} {pos : Pos} {reason : Reason} {k : Prog} (ho : o = true → bp.id = bid)
    (hk : ∀ m o', (o' = true → o = true) → Tends bid J a k m o') : Tends bid J a (sendReport bp cause pos reason k) n o := by
  unfold sendReport
  split
  · exact hk _ _ id
  · refine tends_get ho fun m subject j _ o1 h1 => ?_
    dsimp only
    refine tends_read fun m2 _ j2 => ?_
    split
    · exact hk _ _ h1
    · intro x m3 b3 j3 j3'
      have hk1 : ∀ m o', (o' = true → o1 = true) → Tends bid J a k m o' := fun m o' h => hk m o' fun h' => h1 (h h')
      by_cases hg : Gone (mkReport m3 subject x pos).id m3
      · have e1 := push_gone hg
        dsimp only at j3' ⊢
        rw [push_cases, decide_eq_true hg]
        simp only [e1] at j3' ⊢
        exact ⟨hk1 _ _ (by simp), fun _ h => hk1 _ _ fun _ => h, fun hn hs => absurd hs hn⟩
      · obtain ⟨ws, e1, e2⟩ := push_fine hg
        dsimp only at j3' ⊢
        rw [push_cases, decide_eq_false hg]
        simp only [e1, e2] at j3' ⊢
        by_cases hx : x = bid
        · have key : ∀ m o', Tends bid J a (sync ((Pack.ofBundle m3.clock (mkReport m3 subject x pos)).add .forwardPending) fun _ => k) m o' := by
            intro m o'
            exact tends_syncWaits P hx (by simp [Pack.has_add]) (by simp [Pack.has_add]) fun _ m => hk1 m _ (by simp)
          have ha' : a := P.report m3 _ _ j3 j3' rfl hx
          exact ⟨key _ _, fun _ _ => key _ _, fun _ _ => ⟨ha', key _ _⟩⟩
        · have key : ∀ m o', (o' = true → o1 = true) →
              Tends bid J a (sync ((Pack.ofBundle m3.clock (mkReport m3 subject x pos)).add .forwardPending) fun _ => k) m o' := by
            intro m o' h
            unfold sync
            rw [if_neg (by simp [hasAny_of (c := .forwardPending) (bp := (Pack.ofBundle m3.clock (mkReport m3 subject x pos)).add .forwardPending) (by simp [Pack.has_add])])]
            refine tends_act (fun m4 _ _ hs => by rw [update_eq]; exact Settled.update (fun e => hx e) hs) fun m4 _ _ _ => ?_
            obtain ⟨ok, e, -⟩ := update_cases m4 ((Pack.ofBundle m3.clock (mkReport m3 subject x pos)).add .forwardPending) fun _ => k
            rw [e]
            exact hk1 _ _ h
          have hs : Settled bid m3 → Settled bid (Node.log (Node.push m3 (mkReport m3 subject x pos))
              (.report { pack := bp, cause, endpoints := m2.agents.eids, subject, report := mkReport m3 subject x pos, pos, reason })) :=
            fun h => (h.push (b := mkReport m3 subject x pos) hx).log
          exact ⟨key _ _ (by simp), fun _ h => key _ _ fun _ => h, fun hn h => absurd (hs h) hn⟩

theorem tends_reportIf {asked : Bool} {bp : Pack} {b : Bundle} {pos : Pos} {reason : Reason} {k : Prog} (ho : o = true → bp.id = bid)
    (hk : ∀ m o', (o' = true → o = true) → Tends bid J a k m o') : Tends bid J a (reportIf asked bp b pos reason k) n o := by
  refine tends_read fun m _ j => ?_
  split
  · exact tends_sendReport P ho hk
  · exact hk _ _ id

/-- Deletion, after which nobody has to see to the bundle. -/
theorem tends_delete {bp : Pack} {reason : Reason} {cause : Cause} {k : Bool → Prog} (ho : o = true → bp.id = bid) (hl : bp.has .localEndpoint = false)
    (hk : ∀ ok m, Tends bid J a (k ok) m false) : Tends bid J a (delete bp reason cause k) n o := by
  refine tends_get ho fun m b j _ o1 h1 => ?_
  dsimp only
  refine tends_reportIf P (fun h => ho (h1 h)) fun m o2 h2 => ?_
  unfold sync
  rw [if_pos (by simp [clear_none hl]), Pack.id_clear]
  by_cases hid : bp.id = bid
  · rw [hid]; exact tends_removeOwn P fun m => hk _ m
  · rw [own_false (fun h => ho (h1 (h2 h))) hid]
    exact tends_remove P (by simp) fun m => hk _ m

theorem tends_adminValid {b : Bundle} {k : Bool → Prog} (hk : ∀ ok m, Tends bid J a (k ok) m o) : Tends bid J a (adminValid b k) n o := by
  unfold adminValid
  split
  · exact hk _ _
  · split
    · exact hk _ _
    · split
      · refine tends_read fun m _ j => ?_
        split
        · unfold inspectReport
          split
          · split
            · exact hk _ _
            · refine tends_read fun m _ j => ?_
              split
              · exact hk _ _
              · rename_i hitem
                split
                · exact hk _ _
                · refine tends_remove P (fun _ => known_of_stored (P.inv _ j) ?_) fun m => hk _ m
                  rw [Bool.not_eq_true', Bool.not_eq_false] at hitem
                  exact (MemStore.hasItem_iff _ _).mp hitem
          · exact hk _ _
        · exact hk _ _
      · exact hk _ _

theorem tends_waiting {bp : Pack} {k : Bool → Prog} (h : bp.id = bid → bp.has .forwardPending = true ∧ bp.has .deleted = false)
    (ho : o = true → bp.id = bid) (hk : ∀ ok m, Tends bid J a (k ok) m false) : Tends bid J a (sync bp k) n o := by
  by_cases hid : bp.id = bid
  · exact tends_syncWaits P hid (h hid).1 (h hid).2 hk
  · rw [own_false ho hid]; exact tends_syncOther P hid hk

theorem tends_giveToAgent {eid : EID} {b : Bundle} {k : Bool → Prog} (hk : ∀ ok m, Tends bid J a (k ok) m false) :
    Tends bid J a (giveToAgent eid b k) n false := by
  intro room
  refine tends_act (fun m j _ h => h.deliver _ _ _) fun m _ _ _ => ?_
  dsimp only
  split
  · exact hk _ _
  · have count : ∀ m, Tends bid J a (Prog.set (fun n => { n with stats := { n.stats with delivered := n.stats.delivered + 1 } }) (k true)) m false :=
      fun m => tends_set (fun _ _ _ h => h) fun m => hk _ m
    split
    · exact tends_removeIfSingleton P count
    · exact count _

theorem tends_finishDelivery {bp : Pack} {b : Bundle} {k : Bool → Prog} (h : bp.id = bid → bp.has .forwardPending = true ∧ bp.has .deleted = false)
    (ho : o = true → bp.id = bid) (hk : ∀ ok m, Tends bid J a (k ok) m false) : Tends bid J a (finishDelivery bp b k) n o := by
  refine tends_waiting P h ho fun ok m => ?_
  split
  · exact hk _ _
  · exact tends_giveToAgent P hk

theorem tends_deliverBundle {bp : Pack} {b : Bundle} {k : Bool → Prog} (hf : Fit cfg bid bp) (ha : bp.id = bid → a)
    (ho : o = true → bp.id = bid) (hk : ∀ ok m, Tends bid J a (k ok) m false) : Tends bid J a (deliverBundle bp b k) n o := by
  unfold deliverBundle
  refine tends_syncBreaks P (hasAny_of (c := .localEndpoint) (by simp [Pack.has_add])) ha ho fun ok m o1 h1 => ?_
  split
  · rename_i hok
    have : o1 = false := by
      cases o1
      · rfl
      · rw [(h1 rfl).1] at hok; cases hok
    subst this
    exact hk _ _
  · refine tends_read fun m2 _ j2 => ?_
    split
    · rename_i hloc
      have hid : bp.id ≠ bid := fun hid => by
        unfold Node.isLocal at hloc
        rw [P.host _ j2] at hloc
        exact (hf hid).2.2 (by simpa using hloc)
      rw [own_false (fun h => (h1 h).2) hid]
      refine tends_reportIf P (by simp) fun m o2 h2 => ?_
      refine tends_finishDelivery P (fun h => ?_) (fun h => by simpa using h2 h) hk
      rw [Pack.id_clear] at h
      exact absurd h hid
    · exact tends_finishDelivery P (fun h => by simp [Pack.has_add, (hf h).1]) (fun h => (h1 h).2) hk

theorem tends_localDelivery {bp : Pack} {k : Bool → Prog} (hf : Fit cfg bid bp) (hl : bp.has .localEndpoint = false) (ha : bp.id = bid → a)
    (ho : o = true → bp.id = bid) (hk : ∀ ok m, Tends bid J a (k ok) m false) : Tends bid J a (localDelivery bp k) n o := by
  refine tends_get ho fun m b j _ o1 h1 => ?_
  dsimp only
  have ho1 := fun h => ho (h1 h)
  split
  · refine tends_adminValid P fun ok m => ?_
    split
    · exact tends_delete P ho1 hl fun _ m => hk _ m
    · exact tends_deliverBundle P hf ha ho1 hk
  · exact tends_deliverBundle P hf ha ho1 hk

omit P in
theorem tends_transferTask {x : String} {t : Transfer} : Tends bid J a (transferTask x t) n false := by
  refine tends_set (fun _ _ _ h => h) fun m ok => tends_set (fun _ _ _ h => h) fun m => ?_
  split
  · refine tends_set (fun _ _ _ h => h) fun m => ?_
    split
    · exact tends_set (fun _ _ _ h => h) fun m => rfl
    · exact tends_set (fun _ _ _ h => h) fun m => tends_act (fun _ _ _ h => h) fun m _ _ _ =>
        tends_set (fun _ _ _ h => h) fun m => tends_set (fun _ _ _ h => h) fun m => rfl
  · refine tends_set (fun _ _ _ h => h) fun m => tends_set (fun _ _ _ h => h) fun m => ?_
    split
    · exact tends_set (fun _ _ _ h => h) fun m => rfl
    · exact tends_set (fun _ _ _ h => h) fun m => tends_set (fun _ _ _ h => h) fun m => rfl

omit P in
theorem tends_spawnTransfers {x : String} {mk : Sender → Transfer} {k : Prog} (hk : Tends bid J a k n false) (ss : List Sender) :
    Tends bid J a (spawnTransfers x mk ss k) n false := by
  induction ss with
  | nil => exact hk
  | cons s ss ih => exact ⟨tends_transferTask, ih, fun h => by cases h⟩

theorem tends_afterTransfers {bp : Pack} {b : Bundle} {x : Answer} {g : Nat} {k : Bool → Prog}
    (h : bp.id = bid → bp.has .forwardPending = true ∧ bp.has .deleted = false)
    (hk : ∀ ok m, Tends bid J a (k ok) m false) : Tends bid J a (afterTransfers bp b x g k) n false := by
  refine tends_read fun m _ j => ?_
  split
  · refine tends_reportIf P (by simp) fun m o' ho' => ?_
    have : o' = false := by cases o'; rfl; exact absurd (ho' rfl) (by simp)
    subst this
    split
    · exact tends_remove P (by simp) fun m => hk _ m
    · split
      · refine tends_adminValid P fun _ m => ?_
        exact tends_waiting P (bp := bp.add .contraindicated) (fun hid => by simp [Pack.has_add, (h hid).1, (h hid).2]) (by simp) hk
      · exact hk _ _
  · exact hk _ _

theorem tends_prepare {bp : Pack} {x : Answer} {k : Bool → Prog} (h : bp.id = bid → bp.has .forwardPending = true ∧ bp.has .deleted = false)
    (hk : ∀ ok m, Tends bid J a (k ok) m false) : Tends bid J a (prepare bp x k) n false := by
  have del : ∀ (b : Bundle) (r : Reason) (c : Cause) m, Tends bid J a (.read fun n => delete (Pack.ofBundle n.clock b) r c fun _ => k false) m false :=
    fun b r c m => tends_read fun m _ j => tends_delete P (by simp) (by simp) fun _ m => hk _ m
  refine tends_get (by simp) fun m b j _ o1 h1 => ?_
  have : o1 = false := by cases o1; rfl; exact absurd (h1 rfl) (by simp)
  subst this
  dsimp only
  refine tends_read fun m2 _ j2 => ?_
  split
  · exact del _ _ _ _
  split
  · exact del _ _ _ _
  refine tends_read fun m3 _ j3 => ?_
  split
  · rfl
  refine tends_read fun m4 _ j4 => ?_
  split
  · rfl
  split
  · exact del _ _ _ _
  · exact tends_act (fun _ _ _ h => h) fun m _ _ _ => by
      dsimp only
      refine tends_spawnTransfers ?_ _
      exact tends_afterTransfers P h hk

theorem tends_forward {bp : Pack} {k : Bool → Prog} (h : bp.id = bid → bp.has .deleted = false) (ho : o = true → bp.id = bid)
    (hk : ∀ ok m, Tends bid J a (k ok) m false) : Tends bid J a (forward bp k) n o := by
  have h2 : (fwdPack bp).id = bid → (fwdPack bp).has .forwardPending = true ∧ (fwdPack bp).has .deleted = false := fun hid => by
    refine ⟨fwdPack_has bp, ?_⟩
    unfold fwdPack
    simp [Pack.has_add, Pack.has_del, h hid]
  unfold forward
  refine tends_waiting P (bp := fwdPack bp) h2 ho fun ok m => ?_
  split
  · exact hk _ _
  · refine fun m _ x => ⟨?_, fun h => by cases h⟩
    unfold answered
    split
    · exact hk _ _
    · split
      · split
        · exact tends_remove P (by simp) fun m => hk _ m
        · exact hk _ _
      · exact tends_prepare P h2 hk

theorem tends_dispatchRemote {bp : Pack} {k : Bool → Prog} (hf : Fit cfg bid bp) (ho : o = true → bp.id = bid)
    (hk : ∀ ok m, Tends bid J a (k ok) m false) : Tends bid J a (dispatchRemote bp k) n o := by
  have fwd : ∀ m o', (o' = true → bp.id = bid) → Tends bid J a (forward bp .done) m o' := fun m o' ho' =>
    tends_forward P (fun h => (hf h).1) ho' fun _ _ => rfl
  refine tends_read fun m _ j => ?_
  by_cases hid : bp.id = bid
  · rw [if_pos (by unfold Node.isLocal; rw [P.host _ j]; simpa using (hf hid).2.2)]
    exact ⟨fwd _ _ (by simp), hk _ _, fun _ => .inl (fwd _ _ fun _ => hid)⟩
  · rw [own_false ho hid]
    split
    · exact ⟨fwd _ _ (by simp), hk _ _, fun h => by cases h⟩
    · exact hk _ _

theorem tends_dispatch {bp : Pack} {k : Bool → Prog} (hf : Fit cfg bid bp) (hl : bp.has .localEndpoint = false) (ha : bp.id = bid → a)
    (ho : o = true → bp.id = bid) (hk : ∀ ok m, Tends bid J a (k ok) m false) : Tends bid J a (dispatch bp k) n o := by
  refine tends_get ho fun m b j _ o1 h1 => ?_
  dsimp only
  have ho1 := fun h => ho (h1 h)
  refine tends_set (fun _ _ _ h => h) fun m => tends_read fun m _ j => ?_
  split
  · refine tends_localDelivery P hf hl ha ho1 fun ok m => ?_
    split
    · exact hk _ _
    · exact tends_dispatchRemote P hf (by simp) hk
  · exact tends_dispatchRemote P hf ho1 hk

theorem tends_transmit {bp : Pack} {k : Bool → Prog} (hf : Fit cfg bid bp) (hl : bp.has .localEndpoint = false) (ha : bp.id = bid → a)
    (ho : o = true → bp.id = bid) (hk : ∀ ok m, Tends bid J a (k ok) m false) : Tends bid J a (transmit bp k) n o := by
  have hl' : (bp.add .dispatchPending).has .localEndpoint = false := by simp [Pack.has_add, hl]
  have hf' : Fit cfg bid (bp.add .dispatchPending) := fun h => ⟨by simp [Pack.has_add, (hf h).1], hl', (hf h).2.2⟩
  unfold transmit
  refine tends_syncBreaks P (hasAny_of (c := .dispatchPending) (by simp [Pack.has_add])) ha ho fun ok m o1 h1 => ?_
  split
  · rename_i hok
    rw [own_false (fun h => (h1 h).1) (fun h => by rw [h] at hok; cases hok)]
    exact hk _ _
  · refine tends_read fun m _ j => ?_
    split
    · exact tends_delete P (fun h => (h1 h).2) hl' hk
    · exact tends_dispatch P hf' hl' ha (fun h => (h1 h).2) hk

theorem tends_sendBundle {b : Bundle} (ha : b.id = bid → a) : Tends bid J a (sendBundle b) n false := by
  unfold sendBundle
  refine tends_push P ha (by simp) fun ok m o1 h1 hr => ?_
  split
  · rename_i hok
    rw [own_false (fun h => (h1 h).1) (fun h => by rw [h] at hok; cases hok)]
    rfl
  · rename_i hok
    refine tends_read fun m _ j => ?_
    exact tends_transmit P (bp := Pack.ofBundle m.clock b) (fun h => ⟨by simp, by simp, (hr (by simpa using hok) h).1⟩) (by simp) ha (fun h => (h1 h).2) fun _ _ => rfl

theorem tends_finishReceive {b : Bundle} {bp : Pack} {l : List Nat} {k : Bool → Prog} (hid : bp.id = b.id) (hdest : bp.destination = b.primary.destination)
    (hd : bp.has .deleted = false) (hl : bp.has .localEndpoint = false) (ha : b.id = bid → a) (ho : o = true → b.id = bid ∧ l = [])
    (hk : ∀ ok m, Tends bid J a (k ok) m false) : Tends bid J a (finishReceive b bp l k) n o := by
  unfold finishReceive
  split
  · rename_i hr
    cases o
    · rfl
    · rw [(ho rfl).2] at hr; cases hr
  · rename_i cs _
    refine tends_push P (b := { b with canonicals := cs }) ha (fun h => (ho h).1) fun ok m o1 h1 hr => ?_
    split
    · rename_i hok
      rw [own_false (fun h => (h1 h).1) (fun h => by rw [h] at hok; cases hok)]
      exact hk _ _
    · rename_i hok
      exact tends_dispatch P (fun h => ⟨hd, hl, by rw [hdest]; exact (hr (by simpa using hok) (by rw [← h, hid]; rfl)).1⟩) hl
        (fun h => ha (by rw [← hid]; exact h)) (fun h => by rw [hid]; exact (h1 h).2) fun _ m => hk _ m

theorem tends_scanBlocks {b : Bundle} {bp : Pack} {k : Bool → Prog} (hid : bp.id = b.id) (hdest : bp.destination = b.primary.destination)
    (hd : bp.has .deleted = false) (hl : bp.has .localEndpoint = false) (ha : b.id = bid → a)
    (hk : ∀ ok m, Tends bid J a (k ok) m false) (cs : List Block) : ∀ n o index marked,
    (o = true → b.id = bid ∧ marked = [] ∧ ∀ c ∈ cs, ¬ c.btype < 11 → c.flags.remove = false) → Tends bid J a (scanBlocks b bp k cs index marked) n o := by
  induction cs with
  | nil => intro _ _ _ _ ho; exact tends_finishReceive P hid hdest hd hl ha (fun h => ⟨(ho h).1, (ho h).2.1⟩) hk
  | cons c cs ih =>
    intro n o index marked ho
    unfold scanBlocks
    split
    · exact ih _ _ _ _ fun h => ⟨(ho h).1, (ho h).2.1, fun c hc => (ho h).2.2 c (List.mem_cons_of_mem _ hc)⟩
    · rename_i hu
      have cont : ∀ m o', (o' = true → o = true) → Tends bid J a (if c.flags.deleteBundle then delete bp .blockUnintelligible (.block b c) k
          else scanBlocks b bp k cs (index + 1) (if c.flags.remove then marked ++ [index] else marked)) m o' := by
        intro m o' ho'
        split
        · exact tends_delete P (fun h => hid.trans (ho (ho' h)).1) hl hk
        · refine ih _ _ _ _ fun h => ⟨(ho (ho' h)).1, ?_, fun c hc => (ho (ho' h)).2.2 c (List.mem_cons_of_mem _ hc)⟩
          rw [(ho (ho' h)).2.2 c (by simp) hu]
          exact (ho (ho' h)).2.1
      dsimp only
      split
      · refine tends_read fun m _ j => ?_
        split
        · exact tends_sendReport P (fun h => hid.trans (ho h).1) cont
        · exact cont _ _ id
      · exact cont _ _ id

theorem tends_receive {b : Bundle} {k : Bool → Prog} (ha : b.id = bid → a) (hk : ∀ ok m, Tends bid J a (k ok) m false) :
    Tends bid J a (receive b k) n false := by
  have rest : ∀ (o' : Bool) m, (b.id = bid → Spec.Plain b) → (o' = true → b.id = bid) → Tends bid J a (
      .set (fun n => { n with stats := { n.stats with incoming := n.stats.incoming + 1 } }) <|
      .read fun n =>
        sync ((Pack.ofBundle n.clock b).add .dispatchPending) fun ok =>
          if !ok then k false
          else reportIf b.primary.flags.reqReception ((Pack.ofBundle n.clock b).add .dispatchPending) b .received .noInformation <|
            scanBlocks b ((Pack.ofBundle n.clock b).add .dispatchPending) k b.canonicals 0 []) m o' := by
    intro o' m hp ho'
    refine tends_set (fun _ _ _ h => h) fun m => tends_read fun m2 _ j2 => ?_
    refine tends_syncBreaks P (hasAny_of (c := .dispatchPending) (by simp [Pack.has_add])) ha ho' fun ok m o1 h1 => ?_
    split
    · rename_i hok
      rw [own_false (fun h => (h1 h).1) (fun h => by rw [h] at hok; cases hok)]
      exact hk _ _
    · refine tends_reportIf P (fun h => (h1 h).2) fun m o2 h2 => ?_
      refine tends_scanBlocks P rfl rfl (by simp [Pack.has_add]) (by simp [Pack.has_add]) ha hk _ _ _ _ _ fun h => ?_
      have hid : b.id = bid := (h1 (h2 h)).2
      exact ⟨hid, rfl, fun c hc hu => plain_cons (hp hid) hc hu⟩
  unfold receive
  intro m _ j j'
  dsimp only at j' ⊢
  rcases add_eq m b with ⟨-, h1, h2⟩ | ⟨-, -, h1, h2⟩ | ⟨-, -, -, h1, h2⟩
  · rw [h1, h2]
    exact ⟨hk _ _, (fun _ h => by cases h), fun hn h => absurd h hn⟩
  · rw [h1, h2]
    exact ⟨tends_set (fun _ _ _ h => h) fun m => hk _ m, (fun _ h => by cases h), fun hn h => absurd h hn⟩
  · rw [h1] at j'
    rw [h1, h2]
    have hp : b.id = bid → Spec.Plain b := fun hid => (P.remote _ b j' (by
      show (m.store.push m.clock b).getBundle bid = some b
      rw [MemStore.getBundle_push, if_pos hid.symm])).2
    refine ⟨rest _ _ hp (by simp), (fun _ h => by cases h), fun hn h => ?_⟩
    have hid : b.id = bid := by
      by_contra hid
      exact hn (h.push hid).log
    exact ⟨ha hid, rest _ _ hp fun _ => hid⟩

theorem tends_sweep {k : Prog} (hk : ∀ m, Tends bid J a k m false) (ms : List Pack) : ∀ n, Tends bid J a (sweep ms k) n false := by
  induction ms with
  | nil => exact hk
  | cons p ms ih =>
    intro n
    refine tends_read fun m _ j => ?_
    split
    · exact tends_remove P (by simp) ih
    · exact ih _

omit P in
theorem tends_collect {k : List Pack → Prog} (hk : ∀ (l : List Pack) m, (∀ p ∈ l, p.has .deleted = false) → Tends bid J a (k l) m false)
    (bids : List String) : ∀ (acc : List Pack) n, (∀ p ∈ acc, p.has .deleted = false) → Tends bid J a (collect bids acc k) n false := by
  induction bids with
  | nil => exact hk
  | cons x bids ih =>
    intro acc n hacc
    unfold collect getMetadata
    refine tends_read fun m _ j => ?_
    split
    · dsimp only
      split
      · apply ih
        split
        · exact hacc
        · rename_i hd
          intro p hp
          rcases List.mem_append.mp hp with hp | hp
          · exact hacc p hp
          · rw [List.mem_singleton.mp hp]; simpa using hd
      · exact ih _ _ hacc
    · rfl

theorem tends_forwardAll {par : Bool} (ps : List Pack) (h : ∀ p ∈ ps, p.has .deleted = false) : ∀ n, Tends bid J a (forwardAll par ps) n false := by
  induction ps with
  | nil => intro _; rfl
  | cons p ps ih =>
    intro n
    have ih := ih fun q hq => h q (List.mem_cons_of_mem _ hq)
    unfold forwardAll
    split
    · exact ⟨tends_forward P (fun _ => h p List.mem_cons_self) (by simp) fun _ _ => rfl, ih _, fun h => by cases h⟩
    · exact tends_forward P (fun _ => h p List.mem_cons_self) (by simp) fun _ => ih

theorem tends_call (c : Call) (ha : ∀ b, c = .receive b ∨ c = .send b → b.id = bid → a) : Tends bid J a (task c) n false := by
  cases c with
  | receive b => exact tends_receive P (ha b (.inl rfl)) fun _ _ => rfl
  | send b => exact tends_sendBundle P (ha b (.inr rfl))
  | remove x => exact tends_remove P (by simp) fun _ => rfl
  | pop eid =>
    refine tends_act (fun m j _ h => h.popAgent _) fun m _ _ _ => ?_
    split
    · rfl
    · split
      · rfl
      · exact tends_removeIfSingleton P fun _ => rfl
  | janitor =>
    refine tends_read fun m _ j => tends_sweep P (fun m => tends_read fun m _ j => ?_) _ _
    split
    · rfl
    · refine tends_read fun m _ j => tends_collect (fun l m hl => tends_read fun m _ j => tends_forwardAll P _ ?_ _) _ _ _ (by simp)
      intro p hp
      exact hl p (List.mem_mergeSort.mp hp)

end Dtn.OnSled
