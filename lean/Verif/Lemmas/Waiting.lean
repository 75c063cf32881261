import Verif.Lemmas.Carried
/-! Programs that do not leave a bundle behind: whoever makes a bundle cease to wait sees to it that it waits again. -/

namespace Dtn.Proc
open Routing (Notification Answer)
open Spec

/-- The bundle is not in the store, or it waits to be forwarded. -/
def Settled (bid : String) (n : Node) : Prop :=
  n.store.getBundle bid = none ∨ ∃ p, n.store.getMetadata bid = some p ∧ p.has .forwardPending = true ∧ p.has .deleted = false

/-- In states with `J`, a task that makes a bundle cease to wait sees to it that it waits again; with the flag, the task has to see
to it already. If `a` is false, no task makes the bundle cease to wait. -/
def Tends (bid : String) (J : Node → Prop) (a : Prop) : Prog → Bool → Prop
  | .done _, o => o = false
  | .panic, o => o = false
  | .act f k, o => ∀ m, J m → J (f m) → Tends bid J a (k m) false ∧
      (¬ Settled bid (f m) → o = true → Tends bid J a (k m) true) ∧
      (¬ Settled bid (f m) → Settled bid m → a ∧ Tends bid J a (k m) true)
  | .route _ k, o => ∀ x, Tends bid J a (k x) false ∧ (o = true → Tends bid J a (k x) true)
  | .choose k, o => ∀ x, Tends bid J a (k x) o
  | .fresh k, o => ∀ x, Tends bid J a (k x) o
  | .spawn t k, o => Tends bid J a t false ∧ Tends bid J a k false ∧ (o = true → Tends bid J a t true ∨ Tends bid J a k true)
  | .wait _ k, o => Tends bid J a k o

variable {bid : String} {J : Node → Prop} {a : Prop} {o : Bool}

theorem Tends.drop {p : Prog} : Tends bid J a p true → Tends bid J a p false := by
  induction p with
  | done | panic => intro h; exact absurd h (by simp [Tends])
  | act f k ih => intro h m j j'; exact ⟨(h m j j').1, (fun _ h => by cases h), (h m j j').2.2⟩
  | route bp k ih => intro h x; exact ⟨(h x).1, (fun h => by cases h)⟩
  | choose k ih => intro h x; exact ih x (h x)
  | fresh k ih => intro h x; exact ih x (h x)
  | spawn t k iht ihk => intro h; exact ⟨h.1, h.2.1, (fun h => by cases h)⟩
  | wait c k ih => intro h; exact ih h

theorem Tends.calm {p : Prog} (h : Tends bid J a p o) : Tends bid J a p false := by
  cases o
  · exact h
  · exact h.drop

/-- What is true of all tasks of a system. -/
def Tended (bid : String) (J : Node → Prop) (a : Prop) (s : Sys) : Prop :=
  (∀ p ∈ s.pool, Tends bid J a p false) ∧ (¬ Settled bid s.node → a ∧ ∃ p ∈ s.pool, Tends bid J a p true)

theorem Settled.store {n m : Node} (h : m.store = n.store) : Settled bid m ↔ Settled bid n := by unfold Settled; rw [h]

theorem Outside.store {n m : Node} (h : Outside n m) : m.store = n.store := by cases h <;> rfl

theorem Tended.step {w : World} (hw : ∀ n m, w.change n m → Outside n m) (hc : ∀ c n, w.call c → J n → J (n.log (.called c)) → Tends bid J a c.prog false)
    {s t : Sys} (h : Tended bid J a s)
    (j : J s.node) (j' : J t.node) (st : Step w s t) : Tended bid J a t := by
  cases st with
  | task l r p n n' ps ht =>
    have hp := h.1 p (by simp)
    have others : ∀ {q}, q ∈ l ++ r → q ∈ l ++ p :: r ∧ q ∈ l ++ ps ++ r := fun hq => by
      rcases List.mem_append.mp hq with hq | hq <;> simp [hq]
    -- who has to see to it before the step, and the step does not change the store
    have quiet : ∀ {q : Prog}, ps = [q] → n'.store = n.store → Tends bid J a q false → (Tends bid J a p true → Tends bid J a q true) →
        Tended bid J a ⟨n', l ++ ps ++ r⟩ := by
      intro q hq hst h1 h2
      subst hq
      refine ⟨fun x hx => ?_, fun hs => ?_⟩
      · simp only [List.mem_append, List.mem_singleton] at hx
        rcases hx with (hx | rfl) | hx
        · exact h.1 x (by simp [hx])
        · exact h1
        · exact h.1 x (by simp [hx])
      · obtain ⟨ha, x, hx, ho⟩ := h.2 fun h => hs ((Settled.store hst).mpr h)
        refine ⟨ha, ?_⟩
        simp only [List.mem_append, List.mem_cons] at hx
        rcases hx with hx | rfl | hx
        · exact ⟨x, by simp [hx], ho⟩
        · exact ⟨q, by simp, h2 ho⟩
        · exact ⟨x, by simp [hx], ho⟩
    have over : ps = [] → n' = n → ¬ Tends bid J a p true → Tended bid J a ⟨n', l ++ ps ++ r⟩ := by
      rintro rfl rfl hn
      refine ⟨fun x hx => h.1 x (by simp only [List.append_nil, List.mem_append] at hx; rcases hx with hx | hx <;> simp [hx]), fun hs => ?_⟩
      obtain ⟨ha, x, hx, ho⟩ := h.2 hs
      simp only [List.mem_append, List.mem_cons] at hx
      rcases hx with hx | rfl | hx
      · exact ⟨ha, x, by simp [hx], ho⟩
      · exact absurd ho hn
      · exact ⟨ha, x, by simp [hx], ho⟩
    cases ht with
    | done => exact over rfl rfl (by simp [Tends])
    | panic => exact over rfl rfl (by simp [Tends])
    | act f k =>
      obtain ⟨h1, -, h3⟩ := hp n j j'
      refine ⟨fun x hx => ?_, fun hs => ?_⟩
      · simp only [List.mem_append, List.mem_singleton] at hx
        rcases hx with (hx | rfl) | hx
        · exact h.1 x (by simp [hx])
        · exact h1
        · exact h.1 x (by simp [hx])
      · by_cases hq : Settled bid n
        · exact ⟨(h3 hs hq).1, k n, by simp, (h3 hs hq).2⟩
        · obtain ⟨ha, x, hx, ho⟩ := h.2 hq
          refine ⟨ha, ?_⟩
          simp only [List.mem_append, List.mem_cons] at hx
          rcases hx with hx | rfl | hx
          · exact ⟨x, by simp [hx], ho⟩
          · exact ⟨k n, by simp, (ho n j j').2.1 hs rfl⟩
          · exact ⟨x, by simp [hx], ho⟩
    | route bp k x => exact quiet rfl rfl (hp x).1 fun ho => (ho x).2 rfl
    | choose k x => exact quiet rfl rfl (hp x) fun ho => ho x
    | fresh k x => exact quiet rfl rfl (hp x) fun ho => ho x
    | wait c k => exact quiet rfl rfl hp fun ho => ho
    | spawn q k =>
      refine ⟨fun x hx => ?_, fun hs => ?_⟩
      · simp only [List.mem_append, List.mem_cons, List.not_mem_nil, or_false] at hx
        rcases hx with (hx | rfl | rfl) | hx
        · exact h.1 x (by simp [hx])
        · exact hp.2.1
        · exact hp.1
        · exact h.1 x (by simp [hx])
      · obtain ⟨ha, x, hx, ho⟩ := h.2 hs
        refine ⟨ha, ?_⟩
        simp only [List.mem_append, List.mem_cons] at hx
        rcases hx with hx | rfl | hx
        · exact ⟨x, by simp [hx], ho⟩
        · exact (ho.2.2 rfl).elim (fun h => ⟨q, by simp, h⟩) fun h => ⟨k, by simp, h⟩
        · exact ⟨x, by simp [hx], ho⟩
  | call n pool c hcc =>
    refine ⟨fun x hx => ?_, fun hs => ?_⟩
    · rcases List.mem_append.mp hx with hx | hx
      · exact h.1 x hx
      · rw [List.mem_singleton.mp hx]; exact hc c _ hcc j j'
    · obtain ⟨ha, x, hx, ho⟩ := h.2 fun h => hs h
      exact ⟨ha, x, by simp [hx], ho⟩
  | change n n' pool hcc =>
    exact ⟨h.1, fun hs => h.2 fun h => hs ((Settled.store (hw _ _ hcc).store).mpr h)⟩

/-! ### Rules -/

/-- Steps that leave a bundle that waits waiting. -/
theorem tends_act {f : Node → Node} {k : Node → Prog} (hf : ∀ m, J m → J (f m) → Settled bid m → Settled bid (f m))
    (hk : ∀ m, J m → J (f m) → Tends bid J a (k m) o) : Tends bid J a (.act f k) o :=
  fun m j j' => ⟨(hk m j j').calm, fun _ ho => ho ▸ hk m j j', fun hs h => absurd (hf m j j' h) hs⟩

theorem tends_set {f : Node → Node} {k : Prog} (hf : ∀ m, J m → J (f m) → Settled bid m → Settled bid (f m))
    (hk : Tends bid J a k o) : Tends bid J a (.set f k) o :=
  tends_act hf fun _ _ _ => hk

theorem tends_read {k : Node → Prog} (hk : ∀ m, J m → Tends bid J a (k m) o) : Tends bid J a (.read k) o :=
  tends_act (fun _ _ _ h => h) fun m j _ => hk m j

/-- Steps that make the bundle wait, or find that it is not there. -/
theorem tends_settle {f : Node → Node} {k : Node → Prog}
    (hk : ∀ m, J m → J (f m) → Tends bid J a (k m) false ∧ (¬ Settled bid (f m) → o = true → Tends bid J a (k m) true) ∧
      (¬ Settled bid (f m) → ¬ Settled bid m)) : Tends bid J a (.act f k) o :=
  fun m j j' => ⟨(hk m j j').1, (hk m j j').2.1, fun hs h => absurd h ((hk m j j').2.2 hs)⟩

/-- Steps after which the task has to see to the bundle. -/
theorem tends_break {f : Node → Node} {k : Node → Prog} (ha : a)
    (hk : ∀ m, J m → J (f m) → Tends bid J a (k m) false ∧ (¬ Settled bid (f m) → Tends bid J a (k m) true)) : Tends bid J a (.act f k) o :=
  fun m j j' => ⟨(hk m j j').1, fun hs _ => (hk m j j').2 hs, fun hs _ => ⟨ha, (hk m j j').2 hs⟩⟩

/-! ### Steps -/

theorem Settled.push {n : Node} {b : Bundle} (h : b.id ≠ bid) (s : Settled bid n) : Settled bid (n.push b) := by
  unfold Settled Node.push
  dsimp only
  rw [MemStore.getBundle_push, MemStore.getMetadata_push, if_neg (fun e => h e.symm), if_neg (fun e => h e.1.symm)]
  exact s

theorem Settled.log {n : Node} {e : Event} (s : Settled bid n) : Settled bid (n.log e) := s

theorem Settled.addIfUnknown {n : Node} {b : Bundle} (h : b.id ≠ bid) (s : Settled bid n) : Settled bid (n.addIfUnknown b) := by
  have : Settled bid { n with store := (n.store.addIfUnknown n.clock b).1 } := by
    unfold MemStore.addIfUnknown
    split
    · exact s.push h
    · exact s
  unfold Node.addIfUnknown
  split <;> exact this

theorem settled_removed {n : Node} (i : n.store.Inv) (c : Cause) : Settled bid (n.remove bid c) := by
  have : (n.store.remove bid).1.getBundle bid = none := by rw [MemStore.getBundle_remove i, if_pos rfl]
  unfold Node.remove
  split <;> exact .inl this

theorem Settled.remove {n : Node} (i : n.store.Inv) (s : Settled bid n) (x : String) (c : Cause) : Settled bid (n.remove x c) := by
  by_cases hx : bid = x
  · subst hx; exact settled_removed i c
  · have : Settled bid { n with store := (n.store.remove x).1 } := by
      unfold Settled
      dsimp only
      rw [MemStore.getBundle_remove i, MemStore.getMetadata_remove i, if_neg hx, if_neg hx]
      exact s
    unfold Node.remove
    split <;> exact this

theorem Settled.removeIfSingleton {n : Node} (i : n.store.Inv) (s : Settled bid n) (b : Bundle) : Settled bid (n.removeIfSingleton b) := by
  unfold Node.removeIfSingleton
  split
  · exact s.remove i _ _
  · exact s

/-- Writing metadata for another bundle. -/
theorem Settled.sync {n : Node} {bp : Pack} (i : n.store.Inv) (h : bp.id ≠ bid) (s : Settled bid n) (c : Cause) : Settled bid (n.sync bp c) := by
  unfold Node.sync
  split
  · exact s.remove i _ _
  · unfold Settled
    dsimp only
    rw [MemStore.getBundle_update, MemStore.getMetadata_update, if_neg (fun e => h e.1.symm)]
    exact s

/-- Writing metadata according to which the bundle waits. -/
theorem settled_sync {n : Node} {bp : Pack} (i : n.store.Inv) (h : bp.id = bid) (h1 : bp.has .forwardPending = true) (h2 : bp.has .deleted = false)
    (c : Cause) : Settled bid (n.sync bp c) := by
  have hany : bp.hasAny = true := (Pack.hasAny_iff _).mpr ⟨_, h1⟩
  unfold Node.sync
  rw [if_neg (by simp [hany])]
  unfold Settled
  dsimp only
  rw [MemStore.getBundle_update, MemStore.getMetadata_update]
  by_cases hm : n.store.getMetadata bp.id = none
  · left
    rw [h] at hm
    cases hb : n.store.getBundle bid with
    | none => rfl
    | some b =>
      obtain ⟨p, hp⟩ := i.hasMeta _ _ hb
      rw [hm] at hp
      cases hp
  · right
    rw [if_pos ⟨h.symm, hm⟩]
    exact ⟨bp, rfl, h1, h2⟩

/-- What is known of the states, and that reports made by the node have other ids if no task may make the bundle cease to wait. -/
structure Place (bid : String) (cfg : Config) (J : Node → Prop) (a : Prop) : Prop where
  inv : ∀ m, J m → m.store.Inv
  host : ∀ m, J m → m.cfg = cfg
  remote : ∀ m b, J m → m.store.getBundle bid = some b → b.primary.destination.nodeId ≠ cfg.hostEid.nodeId ∧ Spec.Plain b
  report : ∀ m m' r, J m → J m' → m'.events = m.events ++ [.report r] → r.report.id = bid → a

variable {cfg : Config} (P : Place bid cfg J a)
include P

theorem Place.syncOk {n : Node} (j : J n) {bp : Pack} (h : bp.id = bid) (hany : bp.hasAny = true) (hb : n.store.getBundle bid ≠ none) :
    (n.store.sync bp).2 = true := by
  unfold MemStore.sync
  rw [if_neg (by simp [hany]), MemStore.update_ok, h]
  intro hm
  cases hs : n.store.getBundle bid with
  | none => exact hb hs
  | some b =>
    obtain ⟨p, hp⟩ := (P.inv _ j).hasMeta _ _ hs
    rw [hm] at hp
    cases hp

theorem tends_sendReport {bp : Pack} {cause : Bundle} {pos : Pos} {reason : Reason} {k : Prog} (hk : Tends bid J a k o) :
    Tends bid J a (sendReport bp cause pos reason k) o := by
  unfold sendReport
  split
  · exact hk
  · refine tends_read fun m j => ?_
    split
    · exact hk
    · refine tends_read fun m2 j2 => ?_
      split
      · exact hk
      · intro x
        rename_i subject _ _
        by_cases hx : x = bid
        · intro m j j'
          have key : ∀ o', Tends bid J a (.set (fun n' => n'.sync ((Pack.ofBundle m.clock (mkReport m subject x pos)).add .forwardPending)) k) o' := by
            intro o'
            refine tends_settle fun m3 j3 j3' => ?_
            have hs : Settled bid (m3.sync ((Pack.ofBundle m.clock (mkReport m subject x pos)).add .forwardPending)) :=
              settled_sync (P.inv _ j3) hx (by simp [Pack.has_add]) (by simp [Pack.has_add]) _
            exact ⟨hk.calm, fun h => absurd hs h, fun h => absurd hs h⟩
          have ha : a := P.report m _ _ j j' rfl hx
          exact ⟨key _, fun _ _ => key _, fun _ _ => ⟨ha, key _⟩⟩
        · refine tends_act (fun m _ _ h => (h.push (b := mkReport m subject x pos) hx).log) fun m _ _ => ?_
          exact tends_set (fun m3 j3 _ h => h.sync (P.inv _ j3) hx _) hk

theorem tends_reportIf {asked : Bool} {bp : Pack} {b : Bundle} {pos : Pos} {reason : Reason} {k : Prog} (hk : Tends bid J a k o) :
    Tends bid J a (reportIf asked bp b pos reason k) o := by
  refine tends_read fun m j => ?_
  split
  · exact tends_sendReport P hk
  · exact hk

omit P in
theorem clear_none {bp : Pack} (h : bp.has .localEndpoint = false) : bp.clear.hasAny = false := by
  rw [← Bool.not_eq_true, Pack.hasAny_iff]
  rintro ⟨c, hc⟩
  rw [Pack.has_clear, h] at hc
  simp at hc

omit P in
theorem settled_clear {n : Node} {bp : Pack} (i : n.store.Inv) (hl : bp.has .localEndpoint = false) (c : Cause)
    (s : bp.id = bid ∨ Settled bid n) : Settled bid (n.sync bp.clear c) := by
  unfold Node.sync
  rw [if_pos (by simp [clear_none hl]), Pack.id_clear]
  rcases s with s | s
  · rw [s]; exact settled_removed i c
  · exact s.remove i _ _

theorem tends_delete {bp : Pack} {reason : Reason} {cause : Cause} {k : Bool → Prog} (hl : bp.has .localEndpoint = false)
    (hk : ∀ ok, Tends bid J a (k ok) o) : Tends bid J a (delete bp reason cause k) o := by
  refine tends_read fun m j => ?_
  split
  · exact hk _
  · exact tends_reportIf P (tends_act (fun m j _ h => settled_clear (P.inv _ j) hl _ (.inr h)) fun m _ _ => hk _)

/-- After the bundle was deleted, nobody has to see to it. -/
theorem tends_deleteOwn {bp : Pack} {reason : Reason} {cause : Cause} {k : Bool → Prog} (hid : bp.id = bid) (hl : bp.has .localEndpoint = false)
    (hk : ∀ ok, Tends bid J a (k ok) false) : Tends bid J a (delete bp reason cause k) o := by
  refine tends_settle fun m j _ => ?_
  have rest : ∀ o' (b : Bundle), Tends bid J a (reportIf b.primary.flags.reqDeletion bp b .deleted reason <|
        .act (fun n => n.sync bp.clear cause) fun n => k (n.store.sync bp.clear).2) o' := fun o' b =>
    tends_reportIf P (tends_settle fun m j _ =>
      have hs := settled_clear (bid := bid) (P.inv _ j) hl cause (.inl hid)
      ⟨hk _, fun h => absurd hs h, fun h => absurd hs h⟩)
  split
  · rename_i hb
    rw [hid] at hb
    exact ⟨hk _, fun h => absurd (.inl hb) h, fun h => h⟩
  · exact ⟨rest _ _, fun _ _ => rest _ _, fun h => h⟩

theorem tends_adminValid {b : Bundle} {k : Bool → Prog} (hk : ∀ ok, Tends bid J a (k ok) o) : Tends bid J a (adminValid b k) o := by
  unfold adminValid
  split
  · exact hk _
  · split
    · exact hk _
    · split
      · refine tends_read fun m j => ?_
        split
        · unfold inspectReport
          split
          · split
            · exact hk _
            · refine tends_read fun m j => ?_
              split
              · exact hk _
              · split
                · exact hk _
                · exact tends_set (fun m j _ h => h.remove (P.inv _ j) _ _) (hk _)
          · exact hk _
        · exact hk _
      · exact hk _

theorem settled_pending {n : Node} (j : J n) {bp : Pack} (h1 : bp.has .forwardPending = true) (h2 : bp.id = bid → bp.has .deleted = false)
    (c : Cause) (s : Settled bid n) : Settled bid (n.sync bp c) := by
  by_cases hid : bp.id = bid
  · exact settled_sync (P.inv _ j) hid h1 (h2 hid) c
  · exact s.sync (P.inv _ j) hid c

theorem tends_contraindicated {bp : Pack} {k : Bool → Prog} (h1 : bp.has .forwardPending = true) (h2 : bp.id = bid → bp.has .deleted = false)
    (hk : ∀ ok, Tends bid J a (k ok) o) : Tends bid J a (contraindicated bp k) o :=
  tends_act (fun m j _ h => settled_pending P j (by simp [Pack.has_add, h1]) (fun h => by simp [Pack.has_add, h2 h]) _ h) fun _ _ _ => hk _

omit P in
theorem Settled.deliver {n : Node} (s : Settled bid n) (e b room) : Settled bid (n.deliver e b room) := by
  unfold Node.deliver; split <;> exact s

omit P in
theorem Settled.popAgent {n : Node} (s : Settled bid n) (e) : Settled bid (n.popAgent e) := by
  unfold Node.popAgent; split
  · exact s
  · split <;> exact s

theorem tends_giveToAgent {eid : EID} {b : Bundle} {k : Bool → Prog} (hk : ∀ ok, Tends bid J a (k ok) o) :
    Tends bid J a (giveToAgent eid b k) o := by
  intro room
  refine tends_act (fun m j _ h => h.deliver _ _ _) fun m _ _ => ?_
  dsimp only
  split
  · exact hk _
  · have count : Tends bid J a (Prog.set (fun n => { n with stats := { n.stats with delivered := n.stats.delivered + 1 } }) (k true)) o :=
      tends_set (fun _ _ _ h => h) (hk _)
    split
    · exact tends_set (fun m j _ h => h.removeIfSingleton (P.inv _ j) _) count
    · exact count

/-- What is known of the metadata a task carries: the bundle is for another node and was not deleted. -/
def Fit (cfg : Config) (bid : String) (bp : Pack) : Prop :=
  bp.id = bid → bp.has .deleted = false ∧ bp.has .localEndpoint = false ∧ bp.destination.nodeId ≠ cfg.hostEid.nodeId

theorem tends_finishDelivery {bp : Pack} {b : Bundle} {k : Bool → Prog} (h : bp.id = bid → bp.has .forwardPending = true ∧ bp.has .deleted = false)
    (ho : o = true → bp.id = bid) (hk : ∀ ok, Tends bid J a (k ok) false) : Tends bid J a (finishDelivery bp b k) o := by
  have next : ∀ m : Node, Tends bid J a (if !(m.store.sync bp).2 then k false else giveToAgent bp.destination b k) false := fun m => by
    split
    · exact hk _
    · exact tends_giveToAgent P hk
  by_cases hid : bp.id = bid
  · refine tends_settle fun m j _ => ?_
    have hs := settled_sync (P.inv _ j) hid (h hid).1 (h hid).2 .request
    exact ⟨next m, fun h => absurd hs h, fun h => absurd hs h⟩
  · cases o
    · exact tends_act (fun m j _ s => s.sync (P.inv _ j) hid _) fun m _ _ => next m
    · exact absurd (ho rfl) hid

theorem tends_deliverBundle {bp : Pack} {b : Bundle} {k : Bool → Prog} (hf : Fit cfg bid bp) (ha : bp.id = bid → a)
    (ho : o = true → bp.id = bid) (hk : ∀ ok, Tends bid J a (k ok) false) : Tends bid J a (deliverBundle bp b k) o := by
  by_cases hid : bp.id = bid
  · obtain ⟨h1, h2, h3⟩ := hf hid
    refine tends_break (ha hid) fun m j j' => ?_
    have next : ∀ o', Tends bid J a (.read fun n => if n.isLocal bp.destination then
          reportIf b.primary.flags.reqDelivery (bp.add .localEndpoint) b .delivered .noInformation
            (finishDelivery (bp.add .localEndpoint).clear b k)
        else finishDelivery ((bp.add .localEndpoint).add .forwardPending) b k) o' := fun o' => by
      refine tends_read fun m j => ?_
      rw [if_neg (by unfold Node.isLocal; rw [P.host _ j]; simpa using h3)]
      exact tends_finishDelivery P (fun _ => by simp [Pack.has_add, h1]) (fun _ => hid) hk
    split
    · rename_i hs
      refine ⟨hk _, fun hn => ?_⟩
      have hb : m.store.getBundle bid ≠ none := fun hb => hn <| .inl <| by
        have hany : (bp.add .localEndpoint).hasAny = true := (Pack.hasAny_iff _).mpr ⟨.localEndpoint, by simp [Pack.has_add]⟩
        unfold Node.sync
        rw [if_neg (by simp [hany])]
        dsimp only
        rw [MemStore.getBundle_update]
        exact hb
      have := P.syncOk j (bp := bp.add .localEndpoint) hid ((Pack.hasAny_iff _).mpr ⟨.localEndpoint, by simp [Pack.has_add]⟩) hb
      rw [this] at hs
      cases hs
    · exact ⟨next _, fun _ => next _⟩
  · have ho : o = false := by cases o; rfl; exact absurd (ho rfl) hid
    subst ho
    refine tends_act (fun m j _ s => s.sync (bp := bp.add .localEndpoint) (P.inv _ j) hid _) fun m _ _ => ?_
    split
    · exact hk _
    · refine tends_read fun m j => ?_
      split
      · refine tends_reportIf P (tends_finishDelivery P (fun h => ?_) (by simp) hk)
        rw [Pack.id_clear] at h
        exact absurd h hid
      · exact tends_finishDelivery P (fun h => absurd h hid) (by simp) hk

theorem tends_localDelivery {bp : Pack} {k : Bool → Prog} (hf : Fit cfg bid bp) (hl : bp.has .localEndpoint = false) (ha : bp.id = bid → a)
    (ho : o = true → bp.id = bid) (hk : ∀ ok, Tends bid J a (k ok) false) : Tends bid J a (localDelivery bp k) o := by
  by_cases hid : bp.id = bid
  · have next : ∀ o' b, Tends bid J a (if bp.administrative then
        adminValid b fun ok =>
          if !ok then delete bp .noInformation (.badRecord b) (fun _ => k false) else deliverBundle bp b k
      else deliverBundle bp b k) o' := fun o' b => by
      split
      · refine tends_adminValid P fun ok => ?_
        split
        · exact tends_deleteOwn P hid hl fun _ => hk _
        · exact tends_deliverBundle P hf ha (fun _ => hid) hk
      · exact tends_deliverBundle P hf ha (fun _ => hid) hk
    refine tends_settle fun m j _ => ?_
    split
    · rename_i hb
      rw [hid] at hb
      exact ⟨hk _, fun h => absurd (.inl hb) h, fun h => h⟩
    · exact ⟨next _ _, fun _ _ => next _ _, fun h => h⟩
  · have ho : o = false := by cases o; rfl; exact absurd (ho rfl) hid
    subst ho
    refine tends_read fun m j => ?_
    split
    · exact hk _
    · split
      · refine tends_adminValid P fun ok => ?_
        split
        · exact tends_delete P hl fun _ => hk _
        · exact tends_deliverBundle P hf ha (by simp) hk
      · exact tends_deliverBundle P hf ha (by simp) hk

omit P in
theorem tends_transferTask {x : String} {t : Transfer} : Tends bid J a (transferTask x t) false := by
  refine tends_set (fun _ _ _ h => h) fun ok => tends_set (fun _ _ _ h => h) ?_
  split
  · refine tends_set (fun _ _ _ h => h) ?_
    split
    · exact tends_set (fun _ _ _ h => h) rfl
    · exact tends_set (fun _ _ _ h => h) (tends_act (fun _ _ _ h => h) fun _ _ _ => tends_set (fun _ _ _ h => h) (tends_set (fun _ _ _ h => h) rfl))
  · refine tends_set (fun _ _ _ h => h) (tends_set (fun _ _ _ h => h) ?_)
    split
    · exact tends_set (fun _ _ _ h => h) rfl
    · exact tends_set (fun _ _ _ h => h) (tends_set (fun _ _ _ h => h) rfl)

omit P in
theorem tends_spawnTransfers {x : String} {mk : Sender → Transfer} {k : Prog} (hk : Tends bid J a k false) (ss : List Sender) :
    Tends bid J a (spawnTransfers x mk ss k) false := by
  induction ss with
  | nil => exact hk
  | cons s ss ih => exact ⟨tends_transferTask, ih, fun h => by cases h⟩

theorem tends_afterTransfers {bp : Pack} {b : Bundle} {x : Answer} {g : Nat} {k : Bool → Prog} (h1 : bp.has .forwardPending = true)
    (h2 : bp.id = bid → bp.has .deleted = false) (hk : ∀ ok, Tends bid J a (k ok) false) : Tends bid J a (afterTransfers bp b x g k) false := by
  refine tends_read fun m j => ?_
  split
  · refine tends_reportIf P ?_
    split
    · exact tends_act (fun m j _ h => h.remove (P.inv _ j) _ _) fun _ _ _ => hk _
    · split
      · exact tends_adminValid P fun _ => tends_contraindicated P h1 h2 hk
      · exact hk _
  · exact hk _

theorem tends_prepare {bp : Pack} {x : Answer} {k : Bool → Prog} (h1 : bp.has .forwardPending = true)
    (h2 : bp.id = bid → bp.has .deleted = false) (hk : ∀ ok, Tends bid J a (k ok) false) : Tends bid J a (prepare bp x k) false := by
  have del : ∀ (b : Bundle) (r : Reason) (c : Cause), Tends bid J a (.read fun n => delete (Pack.ofBundle n.clock b) r c fun _ => k false) false :=
    fun b r c => tends_read fun m j => tends_delete P (by simp) fun _ => hk _
  refine tends_read fun m j => ?_
  split
  · exact hk _
  refine tends_read fun m2 j2 => ?_
  split
  · exact del _ _ _
  split
  · exact del _ _ _
  refine tends_read fun m3 j3 => ?_
  split
  · rfl
  refine tends_read fun m4 j4 => ?_
  dsimp only
  split
  · exact del _ _ _
  · exact tends_act (fun _ _ _ h => h) fun m _ _ => by
      dsimp only
      refine tends_spawnTransfers ?_ _
      exact tends_afterTransfers P h1 h2 hk

theorem tends_forward {bp : Pack} {k : Bool → Prog} (h : bp.id = bid → bp.has .deleted = false) (ho : o = true → bp.id = bid)
    (hk : ∀ ok, Tends bid J a (k ok) false) : Tends bid J a (forward bp k) o := by
  have h1 : (fwdPack bp).has .forwardPending = true := fwdPack_has bp
  have h2 : (fwdPack bp).id = bid → (fwdPack bp).has .deleted = false := fun hid => by
    unfold fwdPack
    simp [Pack.has_add, Pack.has_del, h hid]
  have next : ∀ m : Node, Tends bid J a (if !(m.store.sync (fwdPack bp)).2 then k false else .route (fwdPack bp) (answered (fwdPack bp) k)) false := fun m => by
    split
    · exact hk _
    · refine fun x => ⟨?_, fun h => by cases h⟩
      unfold answered
      split
      · exact hk _
      · split
        · split
          · exact tends_act (fun m j _ h => h.remove (P.inv _ j) _ _) fun _ _ _ => hk _
          · exact hk _
        · exact tends_prepare P h1 h2 hk
  have : forward bp k = .act (fun n => n.sync (fwdPack bp)) fun n =>
      if !(n.store.sync (fwdPack bp)).2 then k false else .route (fwdPack bp) (answered (fwdPack bp) k) := by
    unfold forward answered
    rfl
  rw [this]
  by_cases hid : bp.id = bid
  · refine tends_settle fun m j _ => ?_
    have hs := settled_sync (bp := fwdPack bp) (P.inv _ j) hid h1 (h2 hid) .request
    exact ⟨next m, fun h => absurd hs h, fun h => absurd hs h⟩
  · have ho : o = false := by cases o; rfl; exact absurd (ho rfl) hid
    subst ho
    exact tends_act (fun m j _ s => s.sync (bp := fwdPack bp) (P.inv _ j) hid _) fun m _ _ => next m

theorem tends_dispatchRemote {bp : Pack} {k : Bool → Prog} (hf : Fit cfg bid bp) (ho : o = true → bp.id = bid)
    (hk : ∀ ok, Tends bid J a (k ok) false) : Tends bid J a (dispatchRemote bp k) o := by
  have fwd : ∀ o', (o' = true → bp.id = bid) → Tends bid J a (forward bp .done) o' := fun o' ho' =>
    tends_forward P (fun h => (hf h).1) ho' fun _ => rfl
  refine tends_read fun m j => ?_
  by_cases hid : bp.id = bid
  · rw [if_pos (by unfold Node.isLocal; rw [P.host _ j]; simpa using (hf hid).2.2)]
    exact ⟨fwd _ (by simp), hk _, fun _ => .inl (fwd _ fun _ => hid)⟩
  · have ho : o = false := by cases o; rfl; exact absurd (ho rfl) hid
    subst ho
    split
    · exact ⟨fwd _ (by simp), hk _, fun h => by cases h⟩
    · exact hk _

theorem tends_dispatch {bp : Pack} {k : Bool → Prog} (hf : Fit cfg bid bp) (hl : bp.has .localEndpoint = false) (ha : bp.id = bid → a)
    (ho : o = true → bp.id = bid) (hk : ∀ ok, Tends bid J a (k ok) false) : Tends bid J a (dispatch bp k) o := by
  have next : ∀ o', (o' = true → bp.id = bid) → ∀ b, Tends bid J a (.set (fun n => n.log (.note (.incomingBundle b))) <| .read fun n =>
        if n.agents.has bp.destination then localDelivery bp fun ok => if !ok then k false else dispatchRemote bp k
        else dispatchRemote bp k) o' := fun o' ho' b => by
    refine tends_set (fun _ _ _ h => h) (tends_read fun m j => ?_)
    split
    · refine tends_localDelivery P hf hl ha ho' fun ok => ?_
      split
      · exact hk _
      · exact tends_dispatchRemote P hf (by simp) hk
    · exact tends_dispatchRemote P hf ho' hk
  refine tends_settle fun m j _ => ?_
  split
  · rename_i hb
    refine ⟨rfl, fun h ho' => absurd (.inl ?_) h, fun h => h⟩
    rw [← ho ho']; exact hb
  · exact ⟨next _ (by simp) _, fun _ ho' => next _ (fun _ => ho ho') _, fun h => h⟩

/-- The first entry of the metadata, after which the task sees to the bundle. -/
theorem tends_enter {bp : Pack} {k : Prog} {kf : Prog} (hany : bp.hasAny = true) (ha : bp.id = bid → a) (ho : o = true → bp.id = bid)
    (hf : Tends bid J a kf false) (hk : ∀ o', (o' = true → bp.id = bid) → Tends bid J a k o') :
    Tends bid J a (.act (fun n => n.sync bp) fun n => if !(n.store.sync bp).2 then kf else k) o := by
  by_cases hid : bp.id = bid
  · refine tends_break (ha hid) fun m j j' => ?_
    split
    · rename_i hs
      refine ⟨hf, fun hn => ?_⟩
      have hb : m.store.getBundle bid ≠ none := fun hb => hn <| .inl <| by
        unfold Node.sync
        rw [if_neg (by simp [hany])]
        dsimp only
        rw [MemStore.getBundle_update]
        exact hb
      have := P.syncOk j hid hany hb
      rw [this] at hs
      cases hs
    · exact ⟨hk _ (by simp), fun _ => hk _ fun _ => hid⟩
  · have ho : o = false := by cases o; rfl; exact absurd (ho rfl) hid
    subst ho
    refine tends_act (fun m j _ s => s.sync (P.inv _ j) hid _) fun m _ _ => ?_
    split
    · exact hf
    · exact hk _ (by simp)

theorem tends_transmit {bp : Pack} {k : Bool → Prog} (hf : Fit cfg bid bp) (hl : bp.has .localEndpoint = false) (ha : bp.id = bid → a)
    (ho : o = true → bp.id = bid) (hk : ∀ ok, Tends bid J a (k ok) false) : Tends bid J a (transmit bp k) o := by
  have hl' : (bp.add .dispatchPending).has .localEndpoint = false := by simp [Pack.has_add, hl]
  have hf' : Fit cfg bid (bp.add .dispatchPending) := fun h => ⟨by simp [Pack.has_add, (hf h).1], hl', (hf h).2.2⟩
  refine tends_enter P ((Pack.hasAny_iff _).mpr ⟨.dispatchPending, by simp [Pack.has_add]⟩) ha ho (hk _) fun o' ho' => ?_
  refine tends_read fun m j => ?_
  split
  · by_cases hid : bp.id = bid
    · exact tends_deleteOwn P hid hl' hk
    · have ho : o' = false := by cases o'; rfl; exact absurd (ho' rfl) hid
      subst ho
      exact tends_delete P hl' hk
  · exact tends_dispatch P hf' hl' ha ho' hk

/-- A bundle is put into the store, and the task sees to it. -/
theorem tends_push {b : Bundle} {k : Prog} (ha : b.id = bid → a) (ho : o = true → b.id = bid)
    (hk : ∀ o', (o' = true → b.id = bid) → (b.id = bid → b.primary.destination.nodeId ≠ cfg.hostEid.nodeId ∧ Spec.Plain b) → Tends bid J a k o') :
    Tends bid J a (.set (fun n => n.push b) k) o := by
  by_cases hid : b.id = bid
  · refine tends_break (ha hid) fun m j j' => ?_
    have hb : (m.push b).store.getBundle bid = some b := by
      unfold Node.push; dsimp only; rw [MemStore.getBundle_push, if_pos hid.symm]
    have hr := P.remote _ _ j' hb
    exact ⟨hk _ (by simp) fun _ => hr, fun _ => hk _ (fun _ => hid) fun _ => hr⟩
  · have ho : o = false := by cases o; rfl; exact absurd (ho rfl) hid
    subst ho
    exact tends_set (fun m j _ s => s.push hid) (hk _ (by simp) fun h => absurd h hid)

theorem tends_sendBundle {b : Bundle} (ha : b.id = bid → a) : Tends bid J a (sendBundle b) false :=
  tends_push P ha (by simp) fun o' ho' hr => tends_read fun m j =>
    tends_transmit P (bp := Pack.ofBundle m.clock b) (fun h => ⟨by simp, by simp, (hr h).1⟩) (by simp) ha ho' fun _ => rfl

omit P in
theorem plain_cons {b : Bundle} {c : Block} (h : Spec.Plain b) (hc : c ∈ b.canonicals) (hu : ¬ c.btype < 11) : c.flags.remove = false :=
  h c hc (by unfold UnknownBlock; omega)

theorem tends_finishReceive {b : Bundle} {bp : Pack} {l : List Nat} {k : Bool → Prog} (hid : bp.id = b.id) (hdest : bp.destination = b.primary.destination)
    (hd : bp.has .deleted = false) (hl : bp.has .localEndpoint = false) (ha : b.id = bid → a) (ho : o = true → b.id = bid ∧ l = [])
    (hk : ∀ ok, Tends bid J a (k ok) false) : Tends bid J a (finishReceive b bp l k) o := by
  unfold finishReceive
  split
  · rename_i hr
    cases o
    · rfl
    · rw [(ho rfl).2] at hr; cases hr
  · rename_i cs _
    refine tends_push P (b := { b with canonicals := cs }) ha (fun h => (ho h).1) fun o' ho' hr => ?_
    exact tends_dispatch P (fun h => ⟨hd, hl, by rw [hdest]; exact (hr (by rw [← h, hid]; rfl)).1⟩) hl (fun h => ha (by rw [← hid]; exact h))
      (fun h => by rw [hid]; exact ho' h) fun _ => hk _

theorem tends_scanBlocks {b : Bundle} {bp : Pack} {k : Bool → Prog} (hid : bp.id = b.id) (hdest : bp.destination = b.primary.destination)
    (hd : bp.has .deleted = false) (hl : bp.has .localEndpoint = false) (ha : b.id = bid → a)
    (hk : ∀ ok, Tends bid J a (k ok) false) (cs : List Block) : ∀ index marked,
    (o = true → b.id = bid ∧ marked = [] ∧ ∀ c ∈ cs, ¬ c.btype < 11 → c.flags.remove = false) → Tends bid J a (scanBlocks b bp k cs index marked) o := by
  induction cs with
  | nil => intro _ _ ho; exact tends_finishReceive P hid hdest hd hl ha (fun h => ⟨(ho h).1, (ho h).2.1⟩) hk
  | cons c cs ih =>
    intro index marked ho
    unfold scanBlocks
    split
    · exact ih _ _ fun h => ⟨(ho h).1, (ho h).2.1, fun c hc => (ho h).2.2 c (List.mem_cons_of_mem _ hc)⟩
    · rename_i hu
      have cont : Tends bid J a (if c.flags.deleteBundle then delete bp .blockUnintelligible (.block b c) k
          else scanBlocks b bp k cs (index + 1) (if c.flags.remove then marked ++ [index] else marked)) o := by
        split
        · by_cases hb : b.id = bid
          · exact tends_deleteOwn P (hid.trans hb) hl hk
          · have ho : o = false := by cases o; rfl; exact absurd (ho rfl).1 hb
            subst ho
            exact tends_delete P hl hk
        · refine ih _ _ fun h => ⟨(ho h).1, ?_, fun c hc => (ho h).2.2 c (List.mem_cons_of_mem _ hc)⟩
          rw [(ho h).2.2 c (by simp) hu]
          exact (ho h).2.1
      dsimp only
      split
      · refine tends_read fun m j => ?_
        split
        · exact tends_sendReport P cont
        · exact cont
      · exact cont

theorem tends_receive {b : Bundle} {k : Bool → Prog} (ha : b.id = bid → a) (hk : ∀ ok, Tends bid J a (k ok) false) :
    Tends bid J a (receive b k) false := by
  have rest : ∀ (o' : Bool) (m : Node), (o' = true → b.id = bid) → (b.id = bid → (m.store.addIfUnknown m.clock b).2 = true → b.primary.destination.nodeId ≠ cfg.hostEid.nodeId ∧ Spec.Plain b) →
      (b.id = bid → (m.store.addIfUnknown m.clock b).2 = false → o' = false) → Tends bid J a (if (m.store.addIfUnknown m.clock b).2 then
      .set (fun n => { n with stats := { n.stats with incoming := n.stats.incoming + 1 } }) <|
      .read fun n =>
        .act (fun n' => n'.sync ((Pack.ofBundle n.clock b).add .dispatchPending)) fun n' =>
          if !(n'.store.sync ((Pack.ofBundle n.clock b).add .dispatchPending)).2 then k false
          else reportIf b.primary.flags.reqReception ((Pack.ofBundle n.clock b).add .dispatchPending) b .received .noInformation <|
            scanBlocks b ((Pack.ofBundle n.clock b).add .dispatchPending) k b.canonicals 0 []
      else .set (fun n => { n with stats := { n.stats with dups := n.stats.dups + 1 } }) (k true)) o' := by
    intro o' m ho' hr hd
    split
    · rename_i hs
      refine tends_set (fun _ _ _ h => h) (tends_read fun m2 j2 => ?_)
      refine tends_enter P ((Pack.hasAny_iff _).mpr ⟨.dispatchPending, by simp [Pack.has_add]⟩) ha ho' (hk _) fun o2 ho2 => ?_
      refine tends_reportIf P (tends_scanBlocks P rfl rfl (by simp [Pack.has_add]) (by simp [Pack.has_add]) ha hk _ _ _ fun h => ?_)
      exact ⟨ho2 h, rfl, fun c hc hu => plain_cons (hr (ho2 h) hs).2 hc hu⟩
    · rename_i hs
      have : o' = false := by
        cases o'
        · rfl
        · exact absurd (hd (ho' rfl) (by simpa using hs)) (by simp)
      subst this
      exact tends_set (fun _ _ _ h => h) (hk _)
  have stored : ∀ m : Node, b.id = bid → (m.store.addIfUnknown m.clock b).2 = true → (m.addIfUnknown b).store.getBundle bid = some b := by
    intro m hid hs
    unfold Node.addIfUnknown
    rw [if_pos hs]
    show (m.store.addIfUnknown m.clock b).1.getBundle bid = some b
    unfold MemStore.addIfUnknown at hs ⊢
    split
    · rw [MemStore.getBundle_push, if_pos hid.symm]
    · rename_i hc; rw [if_neg hc] at hs; cases hs
  by_cases hid : b.id = bid
  · refine fun m j j' => ?_
    have hr : b.id = bid → (m.store.addIfUnknown m.clock b).2 = true → b.primary.destination.nodeId ≠ cfg.hostEid.nodeId ∧ Spec.Plain b :=
      fun hid hs => P.remote _ _ j' (stored m hid hs)
    refine ⟨rest _ m (by simp) hr (by simp), (fun _ h => by cases h), fun hn hs => ⟨ha hid, ?_⟩⟩
    refine rest true m (fun _ => hid) hr fun _ hd => ?_
    exfalso
    apply hn
    refine (Settled.store (n := m) ?_).mpr hs
    show (m.addIfUnknown b).store = m.store
    unfold Node.addIfUnknown
    rw [if_neg (by simp [hd])]
    show (m.store.addIfUnknown m.clock b).1 = m.store
    unfold MemStore.addIfUnknown at hd ⊢
    split
    · rename_i hc; rw [if_pos hc] at hd; cases hd
    · rfl
  · exact tends_act (fun m j _ s => s.addIfUnknown hid) fun m _ _ =>
      rest _ m (by simp) (fun h => absurd h hid) (fun h => absurd h hid)

theorem tends_sweep {k : Prog} (hk : Tends bid J a k false) (ms : List Pack) : Tends bid J a (sweep ms k) false := by
  induction ms with
  | nil => exact hk
  | cons p ms ih =>
    refine tends_read fun m j => ?_
    split
    · exact tends_set (fun m j _ h => h.remove (P.inv _ j) _ _) ih
    · exact ih

omit P in
theorem tends_collect {k : List Pack → Prog} (hk : ∀ l : List Pack, (∀ p ∈ l, p.has .deleted = false) → Tends bid J a (k l) false) (bids : List String) :
    ∀ acc : List Pack, (∀ p ∈ acc, p.has .deleted = false) → Tends bid J a (collect bids acc k) false := by
  induction bids with
  | nil => exact hk
  | cons x bids ih =>
    intro acc hacc
    refine tends_read fun m j => ?_
    split
    · apply ih
      split
      · exact hacc
      · rename_i hd
        intro p hp
        rcases List.mem_append.mp hp with hp | hp
        · exact hacc p hp
        · rw [List.mem_singleton.mp hp]; simpa using hd
    · exact ih _ hacc

theorem tends_forwardAll {par : Bool} (ps : List Pack) (h : ∀ p ∈ ps, p.has .deleted = false) : Tends bid J a (forwardAll par ps) false := by
  induction ps with
  | nil => rfl
  | cons p ps ih =>
    have ih := ih fun q hq => h q (List.mem_cons_of_mem _ hq)
    unfold forwardAll
    split
    · exact ⟨tends_forward P (fun _ => h p List.mem_cons_self) (by simp) fun _ => rfl, ih, fun h => by cases h⟩
    · exact tends_forward P (fun _ => h p List.mem_cons_self) (by simp) fun _ => ih

theorem tends_call (c : Call) (ha : ∀ b, c = .receive b ∨ c = .send b → b.id = bid → a) : Tends bid J a c.prog false := by
  cases c with
  | receive b => exact tends_receive P (ha b (.inl rfl)) fun _ => rfl
  | send b => exact tends_sendBundle P (ha b (.inr rfl))
  | remove x => exact tends_set (fun m j _ h => h.remove (P.inv _ j) _ _) rfl
  | pop eid =>
    refine tends_act (fun m j _ h => h.popAgent _) fun m _ _ => ?_
    split
    · rfl
    · split
      · rfl
      · exact tends_set (fun m j _ h => h.removeIfSingleton (P.inv _ j) _) rfl
  | janitor =>
    refine tends_read fun m j => tends_sweep P (tends_read fun m j => ?_) _
    split
    · rfl
    · refine tends_read fun m j => tends_collect (fun l hl => tends_read fun m j => tends_forwardAll P _ ?_) _ _ (by simp)
      intro p hp
      exact hl p (List.mem_mergeSort.mp hp)

end Dtn.Proc
