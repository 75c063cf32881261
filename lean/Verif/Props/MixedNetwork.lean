import Verif.Lemmas.MixedNetwork
import Verif.Lemmas.SledExample
import Verif.Props.Network
import Verif.Props.SledNode
/-! Property C133: what bundles go through in a network in which some nodes keep their bundles in memory and others in a database. Any
of them may be restarted at any time, those with a database also between the writes of one operation. -/

namespace Dtn.Props
open Proc Net Spec

variable {ι : Type} [DecidableEq ι] {disk : ι → Bool} {pushed : Bundle → Prop}

/-- C133 (integrity). Every bundle that an application gets, anywhere in the network, was submitted by an application somewhere (or made
by a node as a status report): its primary block is the same, it has no payload or other fixed block the original does not have, and all
of them if no unknown block asks to be removed. It is addressed to the endpoint it is given to, unless different bundles were submitted
under one id. -/
theorem C133_integrity {start net : Network ι} (fresh : Fresh start) (run : MixedRun disk pushed start net) {i : ι} {e : EID} {b : Bundle}
    (got : Got net i e b) :
    ∃ b0, Source pushed net b0 ∧ b.primary = b0.primary ∧ (∀ c ∈ fixedBlocks b, c ∈ fixedBlocks b0) ∧
      (Plain b0 → (fixedBlocks b).Perm (fixedBlocks b0)) ∧
      ((∀ x y, Source pushed net x → Source pushed net y → x.id = y.id → x.primary.destination = y.primary.destination) →
        b.primary.destination = e) := by
  have h := mixed_always fresh run
  have hm : MeantFor (net i).node e b := by
    rcases got with ⟨ch, hg⟩ | hg
    · exact (h.sound i).fine _ hg
    · exact (h.sound i).fine _ hg
  obtain ⟨hk, b', hk', hid, hd⟩ := hm
  obtain ⟨b0, k, h1, h2⟩ := known_from (h.sound i) (fun x hx => .inr ⟨i, hx⟩) hk
  obtain ⟨b1, k1, h3, h4⟩ := known_from (h.sound i) (fun x hx => .inr ⟨i, hx⟩) hk'
  refine ⟨b0, h1, path_primary h2, path_nothing_new h2, path_nothing_lost h2, fun u => ?_⟩
  rw [← hd, path_primary h2, path_primary h4]
  refine u b0 b1 h1 h3 ?_
  have e1 : b'.primary.bid = b.primary.bid := hid
  rw [path_primary h2, path_primary h4] at e1
  exact e1.symm

/-- C133 (kept). The same for every bundle in the store of a node. -/
theorem C133_kept {start net : Network ι} (fresh : Fresh start) (run : MixedRun disk pushed start net) {i : ι} {bid : String} {b : Bundle}
    (stored : (net i).node.store.getBundle bid = some b) :
    b.id = bid ∧ ∃ b0, Source pushed net b0 ∧ b.primary = b0.primary ∧ (∀ c ∈ fixedBlocks b, c ∈ fixedBlocks b0) ∧
      (Plain b0 → (fixedBlocks b).Perm (fixedBlocks b0)) := by
  have h := mixed_always fresh run
  obtain ⟨hid, hk⟩ := (h.sound i).stored bid b stored
  obtain ⟨b0, k, h1, h2⟩ := known_from (h.sound i) (fun x hx => .inr ⟨i, hx⟩) hk
  exact ⟨hid, b0, h1, path_primary h2, path_nothing_new h2, path_nothing_lost h2⟩

/-- C133 (on the way, part). The same for every copy handed to a convergence layer; and it has been passed on by at most as many nodes as
its hop limit allows, whatever restarts there were. Missing: limits of 255 (`C15_hop_limit_violated`) and bundles with an unknown block
that asks for removal (`C19_wrong_block_violated`). -/
theorem C133_hops_partial {start net : Network ι} (fresh : Fresh start) (run : MixedRun disk pushed start net) {i : ι} {t : Transfer}
    (sent : Event.sending t ∈ (net i).node.events) :
    ∃ b0 k, Source pushed net b0 ∧ Path (hostsOf net) b0 k t.out ∧ 0 < k ∧
      t.out.primary = b0.primary ∧ (∀ c ∈ fixedBlocks t.out, c ∈ fixedBlocks b0) ∧ (Plain b0 → (fixedBlocks t.out).Perm (fixedBlocks b0)) ∧
      ∀ limit count, Plain b0 → AtMostOne HOP_COUNT_BLOCK b0 → hopCount b0 = some (limit, count) → limit < 255 → count ≤ limit →
        hopCount t.out = some (limit, count + k) ∧ count + k ≤ limit := by
  have h := mixed_always fresh run
  obtain ⟨b0, k, h1, -, h2⟩ := sent_from (h.sound i) (fun x hx => .inr ⟨i, hx⟩) (h.names i) sent
  refine ⟨b0, k + 1, h1, h2, by omega, path_primary h2, path_nothing_new h2, path_nothing_lost h2, ?_⟩
  intro limit count hp one hc hl hle
  exact (path_hops h2 hp one hc hl hle).2

/-- C133 (not lost). A bundle that a node with a database holds stays with it until the node removes it, whatever happens in the network
and whatever restarts there are; and what it has removed does not come back. -/
theorem C133_not_lost {start mid net : Network ι} (fresh : Fresh start) (before : MixedRun disk pushed start mid)
    (run : MixedRun disk pushed mid net) {i : ι} (database : disk i = true) (bid : String) :
    ((mid i).node.store.getBundle bid ≠ none →
      (net i).node.store.getBundle bid ≠ none ∨ ∃ c, .removed bid c ∈ newEvents (mid i).node (net i).node) ∧
    ((∃ c, .removed bid c ∈ (mid i).node.events) → (net i).node.store.getBundle bid = none) := by
  obtain ⟨cfg, clock, h⟩ := fresh i
  have h1 := before.alone database
  rw [h] at h1
  exact ⟨fun hs => C128_kept h1 hs (run.alone database), fun ⟨c, hc⟩ => C128_dropped h1 hc (run.alone database)⟩

open Ex110

/-- A bundle is submitted on a node with a database that has no neighbour yet. The node is stopped and started again, then sends the bundle
to a node without a database, where it is delivered. -/
theorem mixedWitness : ∃ net, Fresh first ∧ MixedRun id (fun _ => False) first net ∧ Got net false (.dtn "n1" "x") arrived ∧
    (∃ t, Event.sending t ∈ (net true).node.events ∧ t.out = arrived) ∧ Event.called (.send bundle) ∈ (net true).node.events ∧
    (net true).node.store.getBundle "b" = some bundle ∧ Plain bundle ∧ AtMostOne HOP_COUNT_BLOCK bundle ∧ hopCount bundle = some (5, 0) := by
  obtain ⟨s0, s, k1, k2, hp⟩ := OnSled.exists_moves (n := Node.start cfg2 946684800100)
    ([.register (.dtn "n2" "a"), .call (.send bundle)] ++ OnSled.going 30)
    ([.cla true, .call .janitor] ++ OnSled.going 60 (some (Ex.answer false))) (fun s => ⟨OnSled.restarted s.node 946684800200, []⟩)
    (fun _ s => Ex.hasSending (fun t => decide (t.out = arrived)) s && decide (receivedBy s = []) &&
      decide (Event.called (.send bundle) ∈ s.node.events) && decide (s.node.store.getBundle "b" = some bundle)) (by decide +kernel)
  have hs : OnSled.Reaches ⟨Node.start cfg2 946684800100, []⟩ s := OnSled.Reaches.join (.restart _ k1) k2
  simp only [Bool.and_eq_true, decide_eq_true_eq] at hp
  obtain ⟨⟨⟨hp, hq⟩, hsend⟩, hst⟩ := hp
  obtain ⟨t, ht, hto⟩ := Ex.sending_of hp
  obtain ⟨u, hu, hup⟩ := exists_run (n := Ex.start)
    ([.register (.dtn "n1" "x"), .call (.receive arrived)] ++ go 60)
    (fun s => Ex109.hasDelivery (.dtn "n1" "x") (fun b => decide (b = arrived)) s && decide (receivedBy s = [arrived]))
    (by decide +kernel)
  simp only [Bool.and_eq_true, decide_eq_true_eq] at hup
  obtain ⟨b, ch, hb, hba⟩ := Ex109.delivery_of hup.1
  simp only [decide_eq_true_eq] at hto hba
  subst hba
  obtain ⟨_, -, -, -, -, -, p1, p2, p3⟩ := networkWitness
  have fresh : Fresh first := by
    intro i; cases i
    · exact ⟨Ex.cfg, 946684800100, rfl⟩
    · exact ⟨cfg2, 946684800100, rfl⟩
  have r1 : MixedRun id (fun _ => False) first (first.set true s) :=
    (mixed_node (i := true) rfl hs (Sound.start _ _) (by intro p h; cases h) (by
      intro b hb; have := mem_receivedBy hb; rw [hq] at this; cases this)).1
  have r2 : MixedRun id (fun _ => False) (first.set true s) ((first.set true s).set false u) := by
    refine mixed_memory (i := false) rfl ?_ ?_ ?_ ?_
    · rw [set_other _ _ (by simp)]; exact hu
    · rw [set_other _ _ (by simp)]; exact Sound.start _ _
    · rw [set_other _ _ (by simp)]; intro p h; cases h
    · intro b hb
      have := mem_receivedBy hb
      rw [hup.2, List.mem_singleton] at this
      exact .inr ⟨true, t, by rw [set_same]; exact ht, hto.trans this.symm⟩
  refine ⟨_, fresh, r1.trans r2, .inl ⟨ch, by rw [set_same]; exact hb⟩, ⟨t, ?_, hto⟩, ?_, ?_, p1, p2, p3⟩
  · rw [set_other _ _ (by simp), set_same]; exact ht
  · rw [set_other _ _ (by simp), set_same]; exact hsend
  · rw [set_other _ _ (by simp), set_same]; exact hst

/-- Both nodes of that network are restarted afterwards: the one with the database still has the bundle, the other one has nothing. -/
example : ∃ mid net, Fresh first ∧ MixedRun id (fun _ => False) first mid ∧ MixedRun id (fun _ => False) mid net ∧
    (mid true).node.store.getBundle "b" ≠ none ∧ (net true).node.store.getBundle "b" ≠ none ∧ (net false).node.store = .new ∧
    (net true).node.agents = [] := by
  obtain ⟨mid, hf, hr, -, -, -, hs, -⟩ := mixedWitness
  refine ⟨mid, _, hf, hr, ((MixedRun.refl mid).step (.restart mid true 946684800300 rfl)).step
    (.forget _ false _ rfl (.memory _ (mid false).node.cfg [] 946684800300 (by rw [set_other _ _ (by simp)]) (by simp)) rfl), ?_, ?_, ?_, ?_⟩
  · rw [hs]; simp
  · rw [set_other _ _ (by simp), set_same]
    show (mid true).node.store.getBundle "b" ≠ none
    rw [hs]; simp
  · rw [set_same]
  · rw [set_other _ _ (by simp), set_same]; rfl

end Dtn.Props
