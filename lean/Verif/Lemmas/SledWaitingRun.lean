import Verif.Lemmas.SledWaiting
import Verif.Lemmas.SledCron
import Verif.Lemmas.SledExample
import Verif.Spec.SledWaiting
/-! Executions of a node with the persistent store in which a bundle goes on waiting. -/

namespace Dtn.OnSled
open Proc Spec

variable {bid : String} {J : Node → Prop} {a : Prop} {cfg : Config} {clock : Nat}

theorem tended_throughout (hc : ∀ c n, J n → J (n.log (.called c)) → ∀ m, Tends bid J a (task c) m false) {s t : Sys}
    (before : Reaches ⟨Node.start cfg clock, []⟩ s) (h : Tended bid J a s) (run : SledThroughout J s t) : Tended bid J a t := by
  induction run with
  | refl => exact h
  | step hu st j ih => exact ih.step hc (between (before.join hu.reaches) (.step (.refl _) st)).2.1.base hu.last j st

/-- A node that comes to rest has left no bundle behind. -/
theorem settled_rest {n m : Node} (before : Reaches ⟨Node.start cfg clock, []⟩ ⟨n, []⟩) (h : Settled bid n)
    (run : SledThroughout (KeptForOthers cfg bid) ⟨n, []⟩ ⟨m, []⟩) : Settled bid m := by
  have run' := run.add (J := fun m => Good m ∧ m.cfg = cfg ∧ KeptForOthers cfg bid m) fun u hu i =>
    ⟨(sled_good (before.join hu)).1, (sled_good (before.join hu)).2, i⟩
  have := tended_throughout (a := True) (fun c _ _ _ _ => tends_call place_open c fun _ _ _ => trivial) before
    ⟨by simp, fun hn => absurd h hn⟩ run'
  exact Classical.byContradiction fun h => by
    obtain ⟨-, _, hp, -⟩ := this.2 h
    cases hp

theorem calls_closed (n0 : Node) (c : Call) (n : Node) (j : Undoubled cfg bid n0 n) (j' : Undoubled cfg bid n0 (n.log (.called c))) (m : Node) :
    Tends bid (Undoubled cfg bid n0) False (task c) m false := by
  refine tends_call (place_closed n0) c fun b hb hid => j.no j' rfl ?_
  rcases hb with rfl | rfl <;> exact hid

/-- One call that is cut short, of another bundle, or not a removal. -/
theorem Settled.cut {n : Node} {op : SledStore.Op} {k : Nat} (other : op ≠ .remove bid) (i : n.store.Inv)
    (h : ∀ ws, (db n).writes op = .ok ws → k < ws.length) (s : Settled bid n) : Settled bid (setDb n ((db n).crashStep op k)) := by
  have same : setDb n (db n) = n := rfl
  have entry : ∀ p : Pack, (p.id = bid → n.store.getBundle bid = none) →
      Settled bid { n with store := { n.store with metadata := AList.insert n.store.metadata p.id p } } := by
    intro p hp
    unfold Settled at s ⊢
    dsimp only
    rw [getMetadata_insert]
    by_cases hid : p.id = bid
    · exact .inl (hp hid)
    · rw [if_neg (fun e => hid e.symm)]; exact s
  unfold SledStore.crashStep
  cases hw : (db n).writes op with
  | err => exact s
  | panic => exact s
  | ok ws =>
    have hk := h ws hw
    dsimp only
    cases k with
    | zero => exact s
    | succ k =>
      cases op with
      | push now b =>
        unfold SledStore.writes SledStore.pushW at hw
        dsimp only at hw
        split at hw
        · cases hw; simp at hk
        · rename_i hb
          split at hw
          · cases hw
          · cases hw
            have : k = 0 := by simp at hk; omega
            subst this
            refine entry (Pack.ofBundle now b) fun hid => ?_
            have : b.id = bid := hid
            subst this
            unfold MemStore.getBundle
            cases hg : AList.get? n.store.bundles b.id with
            | none => rfl
            | some x =>
              refine absurd ?_ hb
              rw [contains_eq]
              show (AList.get? n.store.bundles b.id).isSome = true
              rw [hg]; rfl
      | update bp =>
        unfold SledStore.writes SledStore.updateW at hw
        dsimp only at hw
        split at hw
        · cases hw; simp at hk
        · cases hw
      | remove x =>
        have hx : x ≠ bid := fun h => other (by rw [h])
        unfold SledStore.writes SledStore.removeW at hw
        dsimp only at hw
        split at hw
        · cases hw
        · cases hw
        · cases hw; simp at hk
        · rename_i p hp
          cases hw
          have : k = 0 := by simp at hk; omega
          subst this
          have hq : n.store.getMetadata x = some p := by
            unfold SledStore.getMetadata db at hp
            split at hp
            · cases hp; assumption
            · cases hp
          have hid : p.id = x := i.metaId _ _ hq
          refine entry (p.clear.add .deleted) fun h => absurd ?_ hx
          rw [← hid]; simpa using h

/-- From a node at rest on, a bundle that does not come in again goes on waiting. -/
theorem settled_after {n : Node} (before : Reaches ⟨Node.start cfg clock, []⟩ ⟨n, []⟩) (h : Settled bid n) {t : Sys}
    (run : SledKept bid (fun m => KeptForOthers cfg bid m ∧ NotBroughtAgain n bid m) ⟨n, []⟩ t) : Settled bid t.node := by
  have all : Reaches ⟨n, []⟩ t ∧ Undoubled cfg bid n t.node ∧ Tended bid (Undoubled cfg bid n) False t := by
    have undoubled : ∀ {u : Sys}, Reaches ⟨n, []⟩ u → KeptForOthers cfg bid u.node ∧ NotBroughtAgain n bid u.node → Undoubled cfg bid n u.node :=
      fun hu i => ⟨(sled_good (before.join hu)).1, (sled_good (before.join hu)).2, i.1, (between before hu).2.1.base.past, i.2⟩
    have calm : ∀ {m : Node}, Settled bid m → Tended bid (Undoubled cfg bid n) False ⟨m, []⟩ := fun h => ⟨by simp, fun hn => absurd h hn⟩
    have settled : ∀ {m : Node} {pool}, Tended bid (Undoubled cfg bid n) False ⟨m, pool⟩ → Settled bid m :=
      fun ht => Classical.byContradiction fun hn => (ht.2 hn).1
    induction run with
    | refl i => exact ⟨.refl _, undoubled (.refl _) i, calm h⟩
    | step _ st i ih =>
      have r := ih.1.step st
      exact ⟨r, undoubled r i, ih.2.2.step (calls_closed n) (between (before.join ih.1) (.step (.refl _) st)).2.1.base ih.2.1 (undoubled r i) st⟩
    | restart c _ i ih =>
      have r := ih.1.restart c
      have hs := settled ih.2.2
      exact ⟨r, undoubled r i, calm hs⟩
    | cut c op k other hk _ i ih =>
      have r := ih.1.cut c op k hk
      exact ⟨r, undoubled r i, calm (Settled.cut (bid := bid) other (sled_good (before.join ih.1)).1.inv hk (settled ih.2.2))⟩
  exact Classical.byContradiction fun hn => (all.2.2.2 hn).1

/-- An execution without stops. -/
theorem _root_.Dtn.Spec.SledThroughout.kept {I : Node → Prop} {s t : Sys} (h : SledThroughout I s t) : SledKept bid I s t := by
  induction h with
  | refl i => exact .refl i
  | step _ st i ih => exact ih.step st i

end Dtn.OnSled

namespace Dtn.Cron
open Proc Spec

variable {pc : PeerCfg} {J : Node → Prop}

/-- A step of the node with the janitor, as steps of the node. -/
theorem step_sled (hJ : ∀ n ps, J n → J { n with peers := ps }) {s t : Sys} (h : Step (.sled pc) s t) {s0 : Proc.Sys} {pool : List Prog}
    (hr : SledThroughout J s0 ⟨s.node, pool⟩) (j : J t.node) (hp : (s.phase.own ++ s.others).Perm pool) :
    ∃ pool', SledThroughout J s0 ⟨t.node, pool'⟩ ∧ (t.phase.own ++ t.others).Perm pool' := by
  have one : ∀ {n' : Node} {q : List Prog}, OnSled.Step ⟨s.node, s.phase.own ++ s.others⟩ ⟨n', q⟩ → J n' →
      ∃ pool', SledThroughout J s0 ⟨n', pool'⟩ ∧ q.Perm pool' := by
    intro n' q h j
    obtain ⟨r, h1, h2⟩ := sled_perm h hp
    exact ⟨r, hr.step h1 j, h2⟩
  rcases h with h | h
  · cases h with
    | tick n others =>
      have s1 : OnSled.Step ⟨n, pool⟩ ⟨dropPeers pc n, pool⟩ := .change _ _ _ (.peers _ _)
      have s2 : OnSled.Step ⟨dropPeers pc n, pool⟩ ⟨(dropPeers pc n).log (.called .janitor), pool ++ [OnSled.task .janitor]⟩ :=
        .call _ _ _
      refine ⟨_, (hr.step s1 (hJ _ _ hr.last)).step s2 j, ?_⟩
      exact (List.perm_append_comm (l₁ := [OnSled.task .janitor])).trans (hp.append_right _)
    | main n n' p k new started others h =>
      have := one (OnSled.Step.task [] (started ++ others) p n n' (k :: new) h) j
      simpa [Phase.own] using this
    | returned n ok started others =>
      have := one (OnSled.Step.task [] (started ++ others) _ n n _ (.done n ok)) j
      simpa [Phase.own] using this
    | panicked n started others =>
      have := one (OnSled.Step.task [] (started ++ others) _ n n _ (.panic n)) j
      simpa [Phase.own] using this
    | started n n' main l r p ps others h =>
      refine one (n' := n') ?_ j
      have := OnSled.Step.task (main.toList ++ l) (r ++ others) p n n' ps h
      simpa [Phase.own] using this
    | ended n others => exact ⟨pool, hr, hp⟩
  · cases h with
    | task n n' ph l r p ps h =>
      refine one (n' := n') ?_ j
      have := OnSled.Step.task (ph.own ++ l) r p n n' ps h
      simpa using this
    | call n ph others c h =>
      refine one ?_ j
      have := OnSled.Step.call n (ph.own ++ others) c
      simpa [Setup.sled] using this
    | change n n' ph others h => exact one (.change _ _ _ h) j

theorem run_sled (hJ : ∀ n ps, J n → J { n with peers := ps }) {f : Nat → Sys} (run : JanitorRun (.sled pc) f) (i : Nat)
    (j : ∀ k, J (f (i + k)).node) (k : Nat) : ∃ pool', SledThroughout J ⟨(f i).node, (f i).phase.own ++ (f i).others⟩ ⟨(f (i + k)).node, pool'⟩ ∧
      ((f (i + k)).phase.own ++ (f (i + k)).others).Perm pool' := by
  induction k with
  | zero => exact ⟨_, .refl (j 0), .refl _⟩
  | succ k ih =>
    obtain ⟨pool, h1, h2⟩ := ih
    exact step_sled hJ (run.steps (i + k)) h1 (j (k + 1)) h2

end Dtn.Cron
