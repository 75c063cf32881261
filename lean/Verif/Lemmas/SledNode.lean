import Verif.Model.SledNode
import Verif.Lemmas.ProcWill
/-! The actions of a node with the persistent store, and one walk through all its programs. -/

namespace Dtn.OnSled
open Proc
open Routing (Notification Answer)

/-- The id is known, but there is no bundle. -/
def Gone (bid : String) (n : Node) : Prop := n.store.getMetadata bid ≠ none ∧ n.store.getBundle bid = none

theorem contains_eq {V : Type} (m : AList String V) (k : String) : AList.contains m k = (AList.get? m k).isSome := rfl

theorem update_eq (n : Node) (bp : Pack) : write n ((db n).updateW bp) = { n with store := (n.store.updateMetadata bp).1 } := by
  unfold write SledStore.updateW MemStore.updateMetadata db setDb
  dsimp only
  split
  · rename_i h
    split at h
    · rename_i hc; cases h; rw [if_pos hc]; rfl
    · cases h
  · rename_i h
    split at h
    · exact absurd rfl (h _)
    · rename_i hc; rw [if_neg hc]

theorem update_ok (n : Node) (bp : Pack) : (∃ ws, (db n).updateW bp = .ok ws) ↔ n.store.getMetadata bp.id ≠ none := by
  unfold SledStore.updateW db MemStore.getMetadata
  rw [contains_eq]
  cases AList.get? n.store.metadata bp.id <;> simp

theorem update_cases (n : Node) (bp : Pack) (k : Bool → Prog) : ∃ ok, andThen ((db n).updateW bp) k = k ok ∧
    (n.store.getMetadata bp.id ≠ none → ok = true) := by
  unfold SledStore.updateW db MemStore.getMetadata
  dsimp only
  rw [contains_eq]
  cases AList.get? n.store.metadata bp.id with
  | none => exact ⟨false, rfl, fun h => absurd rfl h⟩
  | some p => exact ⟨true, rfl, fun _ => rfl⟩

theorem remove_eq {n : Node} (inv : n.store.Inv) (bid : String) (c : Cause) : removed n bid c = n.remove bid c := by
  unfold removed Node.remove
  cases hm : n.store.getMetadata bid with
  | none =>
    have hb : n.store.getBundle bid = none := by
      cases hb : n.store.getBundle bid with
      | none => rfl
      | some b => obtain ⟨p, hp⟩ := inv.hasMeta _ _ hb; rw [hm] at hp; cases hp
    rw [MemStore.remove_none hm]
    have h1 : (db n).hasItem bid = false := by
      unfold SledStore.hasItem db; rw [contains_eq]; dsimp only
      unfold MemStore.getBundle at hb; rw [hb]; rfl
    have h2 : (db n).removeW bid = .panic := by
      unfold SledStore.removeW SledStore.getMetadata db; dsimp only
      unfold MemStore.getMetadata at hm; rw [hm]
    rw [h1, h2]; rfl
  | some p =>
    have hid := inv.metaId _ _ hm
    rw [MemStore.remove_some hid hm]
    have h2 : (db n).removeW bid = .ok [.meta_ (p.clear.add .deleted), .dropBundle bid] := by
      unfold SledStore.removeW SledStore.getMetadata db; dsimp only
      unfold MemStore.getMetadata at hm; rw [hm]
    rw [h2]
    have h3 : (p.clear.add .deleted).id = bid := by simp [hid]
    simp only [write, SledStore.applyAll, List.foldl, SledStore.apply, setDb, db, SledStore.hasItem, h3, MemStore.tomb]

theorem remove_cases (n : Node) (bid : String) (k : Bool → Prog) :
    (andThen ((db n).removeW bid) k = .panic ∧ n.store.getMetadata bid = none) ∨
    (andThen ((db n).removeW bid) k = k true ∧ n.store.getMetadata bid ≠ none) := by
  unfold SledStore.removeW SledStore.getMetadata db MemStore.getMetadata
  dsimp only
  cases AList.get? n.store.metadata bid with
  | none => exact .inl ⟨rfl, rfl⟩
  | some p => exact .inr ⟨rfl, by simp⟩

theorem push_gone {n : Node} {b : Bundle} (h : Gone b.id n) : (db n).pushW n.clock b = .err := by
  obtain ⟨h1, h2⟩ := h
  unfold MemStore.getMetadata at h1
  unfold MemStore.getBundle at h2
  unfold SledStore.pushW db
  dsimp only
  rw [contains_eq, h2, contains_eq]
  cases hm : AList.get? n.store.metadata b.id with
  | none => exact absurd hm h1
  | some p => rfl

theorem push_fine {n : Node} {b : Bundle} (h : ¬ Gone b.id n) :
    ∃ ws, (db n).pushW n.clock b = .ok ws ∧ setDb n ((db n).applyAll ws) = n.push b := by
  unfold Gone at h
  unfold MemStore.getMetadata MemStore.getBundle at h
  unfold SledStore.pushW db Node.push MemStore.push setDb
  dsimp only
  rw [Pack.id_ofBundle, contains_eq, contains_eq]
  cases hb : AList.get? n.store.bundles b.id with
  | some b' => exact ⟨_, rfl, rfl⟩
  | none =>
    cases hm : AList.get? n.store.metadata b.id with
    | some p => exact absurd ⟨by rw [hm]; simp, hb⟩ h
    | none => exact ⟨_, rfl, rfl⟩

instance (bid : String) (n : Node) : Decidable (Gone bid n) := by unfold Gone; infer_instance

/-- The node after a call of `store_push_bundle`. -/
theorem push_eq (n : Node) (b : Bundle) : write n ((db n).pushW n.clock b) = if Gone b.id n then n else n.push b := by
  split
  · rename_i h; rw [push_gone h]; rfl
  · rename_i h
    obtain ⟨ws, h1, h2⟩ := push_fine h
    rw [h1]; exact h2

theorem push_cases (n : Node) (b : Bundle) (k : Bool → Prog) :
    andThen ((db n).pushW n.clock b) k = k (!decide (Gone b.id n)) := by
  by_cases h : Gone b.id n
  · rw [push_gone h, decide_eq_true h]; rfl
  · obtain ⟨ws, h1, -⟩ := push_fine h
    rw [h1, decide_eq_false h]; rfl

theorem add_eq (n : Node) (b : Bundle) :
    (Gone b.id n ∧ added n b = n ∧ ((db n).addIfUnknown n.clock b).2 = .err) ∨
    (n.store.getBundle b.id ≠ none ∧ added n b = n.addIfUnknown b ∧ added n b = n.log (.duplicate b) ∧
      ((db n).addIfUnknown n.clock b).2 = .ok false) ∨
    (n.store.getMetadata b.id = none ∧ n.store.getBundle b.id = none ∧ added n b = n.addIfUnknown b ∧
      added n b = (n.push b).log (.accepted b) ∧ ((db n).addIfUnknown n.clock b).2 = .ok true) := by
  have hi : (db n).hasItem b.id = n.store.hasItem b.id := rfl
  by_cases hb : n.store.getBundle b.id = none
  · have hf : n.store.hasItem b.id = false := by
      cases hh : n.store.hasItem b.id with
      | false => rfl
      | true => exact absurd hb ((MemStore.hasItem_iff _ _).mp hh)
    by_cases hm : n.store.getMetadata b.id = none
    · right; right
      have hg : ¬ Gone b.id n := fun h => h.1 hm
      obtain ⟨ws, h1, h2⟩ := push_fine hg
      have hk : (db n).addIfUnknown n.clock b = ((db n).applyAll ws, .ok true) := by
        unfold SledStore.addIfUnknown; rw [hi, hf, h1]; rfl
      have hl : added n b = (n.push b).log (.accepted b) := by
        unfold added; rw [hk]; exact congrArg (fun x => Node.log x _) h2
      refine ⟨hm, hb, ?_, hl, by rw [hk]⟩
      rw [hl]
      unfold Node.addIfUnknown MemStore.addIfUnknown
      rw [hf]; rfl
    · left
      have hg : Gone b.id n := ⟨hm, hb⟩
      have hk : (db n).addIfUnknown n.clock b = (db n, .err) := by
        unfold SledStore.addIfUnknown; rw [hi, hf, push_gone hg]; rfl
      exact ⟨hg, by unfold added; rw [hk], by rw [hk]⟩
  · right; left
    have hf : n.store.hasItem b.id = true := (MemStore.hasItem_iff _ _).mpr hb
    have hk : (db n).addIfUnknown n.clock b = (db n, .ok false) := by
      unfold SledStore.addIfUnknown; rw [hi, hf]; rfl
    have hl : added n b = n.log (.duplicate b) := by unfold added; rw [hk]
    refine ⟨hb, ?_, hl, by rw [hk]⟩
    rw [hl]
    unfold Node.addIfUnknown MemStore.addIfUnknown
    rw [hf]; rfl

/-! ### The walk -/

/-- Events that are not about bundles entering or leaving the store, or the node. -/
def Plain : Event → Prop
  | .accepted _ | .removed _ _ | .delivered _ _ _ | .popped _ _ | .sending _ | .report _ | .asked _ _ => False
  | _ => True

/-- Every step of the program, and of the tasks it starts, respects `G` in states with `J`, until `X` holds; and after each question to the
router the program does what `forward` does. -/
def Onl (J X : Node → Prop) (G : Node → Node → Prop) : Prog → Prop
  | .done _ => True
  | .panic => True
  | .act f k => ∀ m, J m → G m (f m) ∧ (X (f m) ∨ Onl J X G (k m))
  | .route bp k => (∃ k', k = answered bp k') ∧ ∀ a, Onl J X G (k a)
  | .choose k => ∀ b, Onl J X G (k b)
  | .fresh k => ∀ s, Onl J X G (k s)
  | .spawn t k => Onl J X G t ∧ Onl J X G k
  | .wait _ k => Onl J X G k

/-- What the actions must guarantee. `ok` says which bundles are handled, `oki` which ids. -/
structure Keeps (J X : Node → Prop) (ok : Bundle → Prop) (oki : String → Prop) (G : Node → Node → Prop) : Prop where
  inv : ∀ n, J n → n.store.Inv
  got : ∀ n bid b, J n → oki bid → n.store.getBundle bid = some b → ok b
  id : ∀ b, ok b → oki b.id
  new : ∀ n bid, J n → n.store.getMetadata bid = none → oki bid
  waiting : ∀ n bid, J n → bid ∈ n.store.forwarding → oki bid
  called : ∀ n b, J n → oki b.id ∨ X (n.log (.called (.send b)))
  aside : ∀ n m es, J n → Base n m → m.store = n.store → m.agents = n.agents → m.events = n.events ++ es → (∀ e ∈ es, Plain e) → G n m
  sending : ∀ n t, J n → ok t.stored → G n (n.log (.sending t))
  update : ∀ n bp, J n → oki bp.id → G n { n with store := (n.store.updateMetadata bp).1 }
  remove : ∀ n bid c, J n → G n (n.remove bid c)
  push : ∀ n b, J n → oki b.id → ¬ Gone b.id n → G n (n.push b)
  report : ∀ n r, J n → ¬ Gone r.report.id n → G n ((n.push r.report).log (.report r)) ∧
    (oki r.report.id ∨ X ((n.push r.report).log (.report r)))
  accept : ∀ n b, J n → n.store.getMetadata b.id = none → G n ((n.push b).log (.accepted b))
  deliver : ∀ n e b room, J n → ok b → G n (n.deliver e b room)
  pop : ∀ n e, J n → G n (n.popAgent e)

namespace Keeps
variable {J X : Node → Prop} {ok : Bundle → Prop} {oki : String → Prop} {G : Node → Node → Prop} (W : Keeps J X ok oki G)
include W

theorem refl {n : Node} (j : J n) : G n n := W.aside n n [] j (.refl n) rfl rfl (by simp) (by simp)

theorem same {n m : Node} (j : J n) (b : Base n m) (hs : m.store = n.store) (ha : m.agents = n.agents) (he : m.events = n.events) : G n m :=
  W.aside n m [] j b hs ha (by simp [he]) (by simp)

theorem note {n : Node} {e : Event} (j : J n) (h : Plain e) : G n (n.log e) :=
  W.aside n _ [e] j (.log _ _) rfl rfl rfl (by simpa using h)

theorem readJ {k : Node → Prog} (h : ∀ m, J m → Onl J X G (k m)) : Onl J X G (.read k) := fun m j => ⟨W.refl j, .inr (h m j)⟩

omit W in
theorem set {f : Node → Node} {k : Prog} (hf : ∀ m, J m → G m (f m)) (h : Onl J X G k) : Onl J X G (.set f k) := fun m j => ⟨hf m j, .inr h⟩

theorem removes {bid : String} {c : Cause} {k : Bool → Prog} (hk : Onl J X G (k true)) : Onl J X G (OnSled.remove bid c k) := by
  intro m j
  refine ⟨by dsimp only; rw [remove_eq (W.inv m j)]; exact W.remove _ _ _ j, .inr ?_⟩
  dsimp only
  rcases remove_cases m bid k with ⟨h, -⟩ | ⟨h, -⟩
  · rw [h]; trivial
  · rw [h]; exact hk

theorem sync {bp : Pack} {c : Cause} {k : Bool → Prog} (hi : oki bp.id) (hk : ∀ o, Onl J X G (k o)) : Onl J X G (OnSled.sync bp k c) := by
  unfold OnSled.sync
  split
  · exact W.removes (hk _)
  · intro m j
    refine ⟨by dsimp only; rw [update_eq]; exact W.update _ _ j hi, .inr ?_⟩
    dsimp only
    obtain ⟨o, h, -⟩ := update_cases m bp k
    rw [h]; exact hk _

theorem getBundle {bid : String} {k : Option Bundle → Prog} (hi : oki bid) (hk : ∀ b, ok b → b.id = bid → Onl J X G (k (some b))) :
    Onl J X G (OnSled.getBundle bid k) := by
  unfold OnSled.getBundle
  refine W.readJ fun m j => ?_
  unfold SledStore.getBundle db
  dsimp only
  cases h : AList.get? m.store.bundles bid with
  | none => trivial
  | some b => exact hk b (W.got m bid b j hi h) ((W.inv m j).bundleId _ _ h)

theorem getMetadata {bid : String} {k : Option Pack → Prog} (hk : ∀ p, p.id = bid → Onl J X G (k (some p))) : Onl J X G (OnSled.getMetadata bid k) := by
  unfold OnSled.getMetadata
  refine W.readJ fun m j => ?_
  unfold SledStore.getMetadata db
  dsimp only
  cases h : AList.get? m.store.metadata bid with
  | none => trivial
  | some p => exact hk p ((W.inv m j).metaId _ _ h)

theorem pushes {b : Bundle} {k : Bool → Prog} (hi : oki b.id) (hk : ∀ o, Onl J X G (k o)) : Onl J X G (OnSled.push b k) := by
  intro m j
  refine ⟨?_, .inr (by dsimp only; rw [push_cases]; exact hk _)⟩
  dsimp only
  rw [push_eq]
  split
  · exact W.refl j
  · rename_i h; exact W.push _ _ j hi h

theorem removeIfSingleton {b : Bundle} {k : Prog} (hk : Onl J X G k) : Onl J X G (OnSled.removeIfSingleton b k) := by
  unfold OnSled.removeIfSingleton
  split
  · exact W.removes hk
  · exact W.readJ fun _ _ => hk

theorem sendReport {bp : Pack} {cause : Bundle} {pos : Pos} {reason : Reason} {k : Prog} (hi : oki bp.id) (hk : Onl J X G k) :
    Onl J X G (OnSled.sendReport bp cause pos reason k) := by
  unfold OnSled.sendReport
  split
  · exact hk
  · refine W.getBundle hi fun b _ _ => ?_
    refine W.readJ fun m2 _ => ?_
    split
    · exact hk
    · intro s m j
      dsimp only
      by_cases h : Gone (mkReport m b s pos).id m
      · rw [push_cases, push_gone h, decide_eq_true h]
        exact ⟨W.refl j, .inr hk⟩
      · rw [push_cases, decide_eq_false h]
        obtain ⟨ws, h1, h2⟩ := push_fine h
        rw [h1]
        dsimp only
        rw [h2]
        obtain ⟨r1, r2⟩ := W.report m { pack := bp, cause, endpoints := m2.agents.eids, subject := b, report := mkReport m b s pos, pos, reason } j h
        exact ⟨r1, r2.symm.imp (fun x => x) fun hi' => by simpa using W.sync (bp := (Pack.ofBundle m.clock (mkReport m b s pos)).add .forwardPending) hi' fun _ => hk⟩

theorem reportIf {asked : Bool} {bp : Pack} {b : Bundle} {pos : Pos} {reason : Reason} {k : Prog} (hi : oki bp.id) (hk : Onl J X G k) :
    Onl J X G (OnSled.reportIf asked bp b pos reason k) := by
  unfold OnSled.reportIf
  refine W.readJ fun m _ => ?_
  split
  · exact W.sendReport hi hk
  · exact hk

theorem delete {bp : Pack} {reason : Reason} {cause : Cause} {k : Bool → Prog} (hi : oki bp.id) (hk : ∀ o, Onl J X G (k o)) :
    Onl J X G (OnSled.delete bp reason cause k) := by
  unfold OnSled.delete
  exact W.getBundle hi fun b _ _ => W.reportIf hi (W.sync (by rw [Pack.id_clear]; exact hi) hk)

theorem adminValid {b : Bundle} {k : Bool → Prog} (hk : ∀ o, Onl J X G (k o)) : Onl J X G (OnSled.adminValid b k) := by
  unfold OnSled.adminValid
  split
  · exact hk _
  · split
    · exact hk _
    · split
      · refine W.readJ fun m _ => ?_
        split
        · unfold inspectReport
          split
          · split
            · exact hk _
            · refine W.readJ fun m _ => ?_
              split
              · exact hk _
              · split
                · exact hk _
                · exact W.removes (hk _)
          · exact hk _
        · exact hk _
      · exact hk _

theorem giveToAgent {eid : EID} {b : Bundle} {k : Bool → Prog} (hb : ok b) (hk : ∀ o, Onl J X G (k o)) :
    Onl J X G (OnSled.giveToAgent eid b k) := by
  unfold OnSled.giveToAgent
  intro room m j
  refine ⟨W.deliver _ _ _ _ j hb, .inr ?_⟩
  have hc : Onl J X G (Prog.set (fun n => { n with stats := { n.stats with delivered := n.stats.delivered + 1 } }) (k true)) :=
    set (fun m j => W.same j (.stats _ _) rfl rfl rfl) (hk _)
  dsimp only
  split
  · exact hk _
  · split
    · exact W.removeIfSingleton hc
    · exact hc

theorem finishDelivery {bp : Pack} {b : Bundle} {k : Bool → Prog} (hi : oki bp.id) (hb : ok b) (hk : ∀ o, Onl J X G (k o)) :
    Onl J X G (OnSled.finishDelivery bp b k) := by
  unfold OnSled.finishDelivery
  refine W.sync hi fun o => ?_
  split
  · exact hk _
  · exact W.giveToAgent hb hk

theorem deliverBundle {bp : Pack} {b : Bundle} {k : Bool → Prog} (hi : oki bp.id) (hb : ok b) (hk : ∀ o, Onl J X G (k o)) :
    Onl J X G (OnSled.deliverBundle bp b k) := by
  unfold OnSled.deliverBundle
  refine W.sync hi fun o => ?_
  split
  · exact hk _
  · refine W.readJ fun m _ => ?_
    split
    · exact W.reportIf hi (W.finishDelivery (by rw [Pack.id_clear]; exact hi) hb hk)
    · exact W.finishDelivery hi hb hk

theorem localDelivery {bp : Pack} {k : Bool → Prog} (hi : oki bp.id) (hk : ∀ o, Onl J X G (k o)) : Onl J X G (OnSled.localDelivery bp k) := by
  unfold OnSled.localDelivery
  refine W.getBundle hi fun b hb _ => ?_
  dsimp only
  split
  · refine W.adminValid fun o => ?_
    split
    · exact W.delete hi fun _ => hk _
    · exact W.deliverBundle hi hb hk
  · exact W.deliverBundle hi hb hk

theorem contraindicated {bp : Pack} {k : Bool → Prog} (hi : oki bp.id) (hk : ∀ o, Onl J X G (k o)) : Onl J X G (OnSled.contraindicated bp k) :=
  W.sync hi hk

theorem afterTransfers {bp : Pack} {b : Bundle} {a : Answer} {g : Nat} {k : Bool → Prog} (hi : oki bp.id) (hk : ∀ o, Onl J X G (k o)) :
    Onl J X G (OnSled.afterTransfers bp b a g k) := by
  unfold OnSled.afterTransfers
  refine W.readJ fun m _ => ?_
  split
  · refine W.reportIf hi ?_
    split
    · exact W.removes (hk _)
    · split
      · exact W.adminValid fun _ => W.contraindicated hi hk
      · exact hk _
  · exact hk _

theorem endTask {g : Nat} {k : Prog} (hk : Onl J X G k) : Onl J X G (.set (fun n => n.endTask g) k) :=
  set (fun _ j => W.same j (.endTask _ _) rfl rfl rfl) hk

theorem transfer {bid : String} {t : Transfer} (h : ok t.stored) : Onl J X G (transferTask bid t) := by
  unfold transferTask
  refine set (fun m j => W.sending m t j h) ?_
  intro x
  refine set (fun m j => W.note j trivial) ?_
  split
  · refine set (fun m j => W.same j (.stats _ _) rfl rfl rfl) ?_
    split
    · exact W.endTask trivial
    · refine set (fun m j => W.note j trivial) ?_
      intro m j
      refine ⟨W.same j (.peers _ _) rfl rfl rfl, .inr ?_⟩
      exact set (fun m j => W.same j (.peers _ _) rfl rfl rfl) (W.endTask trivial)
  · refine set (fun m j => W.same j (.stats _ _) rfl rfl rfl) ?_
    refine set (fun m j => W.same j (.setSent _ _) rfl rfl rfl) ?_
    split
    · exact W.endTask trivial
    · exact set (fun m j => W.note j trivial) (W.endTask trivial)

theorem spawnTransfers {bid : String} {mk : Sender → Transfer} (h : ∀ s, ok (mk s).stored) {k : Prog} (hk : Onl J X G k) (ss : List Sender) :
    Onl J X G (spawnTransfers bid mk ss k) := by
  induction ss with
  | nil => exact hk
  | cons s ss ih => exact ⟨W.transfer (h s), ih⟩

theorem sendAll {bp : Pack} {b out : Bundle} {a : Answer} {checkedAt agedAt : Nat} {receivedAt : Option Nat} {k : Bool → Prog}
    (hi : oki bp.id) (hb : ok b) (hk : ∀ o, Onl J X G (k o)) : Onl J X G (OnSled.sendAll bp b out a checkedAt agedAt receivedAt k) := by
  unfold OnSled.sendAll
  intro m j
  refine ⟨W.same j (.newGroup _ _ _ _) rfl rfl rfl, .inr ?_⟩
  dsimp only
  refine W.spawnTransfers (fun _ => hb) ?_ _
  exact W.afterTransfers (g := m.groups.length) hi hk

theorem prepare {bp : Pack} {a : Answer} {k : Bool → Prog} (hi : oki bp.id) (hk : ∀ o, Onl J X G (k o)) : Onl J X G (OnSled.prepare bp a k) := by
  unfold OnSled.prepare
  refine W.getBundle hi fun b hb hid => ?_
  have del : ∀ (b' : Bundle) (r : Reason) (c : Cause), b'.primary = b.primary →
      Onl J X G (.read fun n => OnSled.delete (Pack.ofBundle n.clock b') r c fun _ => k false) := by
    intro b' r c hp
    refine W.readJ fun m _ => W.delete ?_ fun _ => hk _
    rw [Pack.id_ofBundle]
    unfold Bundle.id
    rw [hp]
    exact W.id b hb
  dsimp only
  refine W.readJ fun m _ => ?_
  split
  · exact del b _ _ rfl
  · split
    · exact del _ _ _ (raiseHop_primary b)
    · refine W.readJ fun m _ => ?_
      split
      · trivial
      · rename_i b2 hb2
        refine W.readJ fun m _ => ?_
        split
        · trivial
        · split
          · exact del _ _ _ ((raiseAge_primary _ _ _).trans ((setPrevious_primary hb2).trans (raiseHop_primary b)))
          · exact W.sendAll hi hb hk

theorem answered {bp : Pack} {k : Bool → Prog} (hi : oki bp.id) (hk : ∀ o, Onl J X G (k o)) (a : Option Answer) :
    Onl J X G (OnSled.answered bp k a) := by
  unfold OnSled.answered
  split
  · exact hk _
  · split
    · split
      · exact W.removes (hk _)
      · exact hk _
    · exact W.prepare hi hk

theorem forward {bp : Pack} {k : Bool → Prog} (hi : oki bp.id) (hk : ∀ o, Onl J X G (k o)) : Onl J X G (OnSled.forward bp k) := by
  unfold OnSled.forward
  refine W.sync hi fun o => ?_
  split
  · exact hk _
  · exact ⟨⟨k, rfl⟩, W.answered hi hk⟩

theorem dispatchRemote {bp : Pack} {k : Bool → Prog} (hi : oki bp.id) (hk : ∀ o, Onl J X G (k o)) : Onl J X G (OnSled.dispatchRemote bp k) := by
  unfold OnSled.dispatchRemote
  refine W.readJ fun m _ => ?_
  split
  · exact ⟨W.forward hi fun _ => trivial, hk _⟩
  · exact hk _

theorem dispatch {bp : Pack} {k : Bool → Prog} (hi : oki bp.id) (hk : ∀ o, Onl J X G (k o)) : Onl J X G (OnSled.dispatch bp k) := by
  unfold OnSled.dispatch
  refine W.getBundle hi fun b _ _ => ?_
  dsimp only
  refine set (fun m j => W.note j trivial) (W.readJ fun m _ => ?_)
  split
  · refine W.localDelivery hi fun o => ?_
    split
    · exact hk _
    · exact W.dispatchRemote hi hk
  · exact W.dispatchRemote hi hk

theorem sendBundle (b : Bundle) (hi : oki b.id) : Onl J X G (OnSled.sendBundle b) := by
  unfold OnSled.sendBundle
  refine W.pushes hi fun o => ?_
  split
  · trivial
  · refine W.readJ fun m _ => ?_
    unfold OnSled.transmit
    refine W.sync hi fun o => ?_
    split
    · trivial
    · refine W.readJ fun m _ => ?_
      split
      · exact W.delete hi fun _ => trivial
      · exact W.dispatch hi fun _ => trivial

theorem scanBlocks {b : Bundle} {bp : Pack} (hb : oki b.id) (hi : oki bp.id) (cs : List Block) :
    ∀ index marked, Onl J X G (OnSled.scanBlocks b bp .done cs index marked) := by
  induction cs with
  | nil =>
    intro index marked
    unfold OnSled.scanBlocks OnSled.finishReceive
    split
    · trivial
    · refine W.pushes hb fun o => ?_
      split
      · trivial
      · exact W.dispatch hi fun _ => trivial
  | cons c cs ih =>
    intro index marked
    unfold OnSled.scanBlocks
    split
    · exact ih _ _
    · have hc : Onl J X G (if c.flags.deleteBundle then OnSled.delete bp .blockUnintelligible (.block b c) .done
          else OnSled.scanBlocks b bp .done cs (index + 1) (if c.flags.remove then marked ++ [index] else marked)) := by
        split
        · exact W.delete hi fun _ => trivial
        · exact ih _ _
      dsimp only
      split
      · refine W.readJ fun m _ => ?_
        split
        · exact W.sendReport hi hc
        · exact hc
      · exact hc

theorem receive (b : Bundle) : Onl J X G (OnSled.receive b .done) := by
  unfold OnSled.receive
  intro m j
  rcases add_eq m b with ⟨-, h1, h2⟩ | ⟨-, -, h1, h2⟩ | ⟨h0, -, -, h1, h2⟩
  · dsimp only; rw [h1, h2]; exact ⟨W.refl j, .inr trivial⟩
  · dsimp only
    rw [h1, h2]
    exact ⟨W.note j trivial, .inr (set (fun m j => W.same j (.stats _ _) rfl rfl rfl) trivial)⟩
  · dsimp only
    rw [h1, h2]
    have hi := W.new m _ j h0
    refine ⟨W.accept _ _ j h0, .inr (set (fun m j => W.same j (.stats _ _) rfl rfl rfl) (W.readJ fun m _ => ?_))⟩
    refine W.sync hi fun o => ?_
    split
    · trivial
    · exact W.reportIf hi (W.scanBlocks hi hi _ _ _)

theorem sweep {k : Prog} (hk : Onl J X G k) (ms : List Pack) : Onl J X G (OnSled.sweep ms k) := by
  induction ms with
  | nil => exact hk
  | cons m ms ih =>
    unfold OnSled.sweep
    refine W.readJ fun n _ => ?_
    split
    · exact W.removes ih
    · exact ih

theorem collect {k : List Pack → Prog} (hk : ∀ ps, (∀ p ∈ ps, oki p.id) → Onl J X G (k ps)) (bids : List String) (hb : ∀ x ∈ bids, oki x) :
    ∀ acc, (∀ p ∈ acc, oki p.id) → Onl J X G (OnSled.collect bids acc k) := by
  induction bids with
  | nil => exact hk
  | cons x bids ih =>
    refine fun acc ha => W.getMetadata fun p hp => ih (fun y hy => hb y (by simp [hy])) _ ?_
    intro q hq
    split at hq
    · exact ha q hq
    · rcases List.mem_append.mp hq with hq | hq
      · exact ha q hq
      · rw [List.mem_singleton.mp hq, hp]; exact hb x (by simp)

theorem forwardAll {par : Bool} (bps : List Pack) (hi : ∀ p ∈ bps, oki p.id) : Onl J X G (OnSled.forwardAll par bps) := by
  induction bps with
  | nil => trivial
  | cons bp bps ih =>
    have hr := ih fun p hp => hi p (by simp [hp])
    unfold OnSled.forwardAll
    split
    · exact ⟨W.forward (hi bp (by simp)) fun _ => trivial, hr⟩
    · exact W.forward (hi bp (by simp)) fun _ => hr

theorem task (c : Call) (hc : ∀ b, c = .send b → oki b.id) : Onl J X G (OnSled.task c) := by
  cases c with
  | receive b => exact W.receive b
  | send b => exact W.sendBundle b (hc b rfl)
  | remove bid => exact W.removes trivial
  | pop eid =>
    intro m j
    refine ⟨W.pop _ _ j, .inr ?_⟩
    dsimp only
    split
    · trivial
    · split
      · trivial
      · exact W.removeIfSingleton trivial
  | janitor =>
    refine W.readJ fun m _ => W.sweep (W.readJ fun m _ => ?_) _
    split
    · trivial
    · refine W.readJ fun m j => W.collect (fun ps hps => W.readJ fun m _ => W.forwardAll _ ?_) _ (fun x hx => W.waiting m x j hx) _ (by simp)
      intro p hp
      exact hps p ((List.mergeSort_perm _ _).mem_iff.mp hp)

omit W in
/-- One step of a task: the tasks that replace it. -/
theorem next {p : Prog} {ps : List Prog} {n m : Node} (j : J n) (h : Onl J X G p) (s : TaskStep n p m ps) : X m ∨ ∀ q ∈ ps, Onl J X G q := by
  cases s with
  | done | panic => exact .inr (by simp)
  | act => exact (h n j).2.imp (fun x => x) fun h => by simpa using h
  | route bp k a => exact .inr (by simpa using h.2 a)
  | choose k b => exact .inr (by simpa using h b)
  | fresh k s => exact .inr (by simpa using h s)
  | spawn t k => exact .inr (by simpa using ⟨h.2, h.1⟩)
  | wait c k => exact .inr fun q hq => by rw [List.mem_singleton.mp hq]; exact h

/-- One step of a task: what it does. -/
theorem step {p : Prog} {ps : List Prog} {n m : Node} (hask : ∀ n bp a, J n → G n (n.log (.asked bp a))) (j : J n) (h : Onl J X G p)
    (s : TaskStep n p m ps) : G n m := by
  cases s with
  | act => exact (h n j).1
  | route bp k a => exact hask n bp a j
  | _ => exact W.refl j

/-- One step of the system: the tasks after it. -/
theorem tasks {s t : Sys} (j : J s.node) (h : ∀ p ∈ s.pool, Onl J X G p) (hs : Step s t) : X t.node ∨ ∀ p ∈ t.pool, Onl J X G p := by
  cases hs with
  | task l r p n n' ps ht =>
    refine (next j (h p (by simp)) ht).imp (fun x => x) fun hq => ?_
    intro q hq'
    simp only [List.mem_append] at hq'
    rcases hq' with (hq' | hq') | hq'
    · exact h q (by simp [hq'])
    · exact hq q hq'
    · exact h q (by simp [hq'])
  | call n pool c =>
    have hc : X (n.log (.called c)) ∨ Onl J X G (OnSled.task c) := by
      cases c with
      | send b =>
        refine (W.called n b j).symm.imp (fun x => x) fun hi => W.task _ ?_
        intro b' hb'; cases hb'; exact hi
      | _ => exact .inr (W.task _ (by simp))
    refine hc.imp (fun x => x) fun hc => ?_
    intro q hq
    rcases List.mem_append.mp hq with hq | hq
    · exact h q hq
    · rw [List.mem_singleton.mp hq]; exact hc
  | change n n' pool ho => exact .inr h

/-- One step of the system. -/
theorem live {s t : Sys} (hask : ∀ n bp a, J n → G n (n.log (.asked bp a))) (hout : ∀ n m, J n → Outside n m → G n m) (j : J s.node)
    (h : ∀ p ∈ s.pool, Onl J X G p) (hs : Step s t) : G s.node t.node ∧ (X t.node ∨ ∀ p ∈ t.pool, Onl J X G p) := by
  refine ⟨?_, W.tasks j h hs⟩
  cases hs with
  | task l r p n n' ps ht => exact W.step hask j (h p (by simp)) ht
  | call n pool c => exact W.note j trivial
  | change n n' pool ho => exact hout _ _ j ho

end Keeps
end Dtn.OnSled
