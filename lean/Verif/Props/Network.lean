import Verif.Lemmas.Network
import Verif.Lemmas.ProcExample
import Verif.Props.Origin
/-!
C110 and C111: what bundles go through in a network.

The nodes of the network run at the same time and may be restarted at any time; what they send may be lost, duplicated, delayed
and arrive in any order, at any node (`Model/Network.lean`).
-/

namespace Dtn.Props
open Proc Net Spec

variable {ι : Type} [DecidableEq ι] {pushed : Bundle → Prop}

/-- C110. Every bundle that an application gets, anywhere in the network, was submitted by an application somewhere (or made
by a node as a status report): its primary block, with source, destination, creation time and lifetime, is the same, it has no
payload or other fixed block the original does not have, and all of them if no unknown block asks to be removed. It is
addressed to the endpoint it is given to, unless different bundles were submitted under one id. -/
theorem C110_integrity {start net : Network ι} (fresh : Fresh start) (run : Run pushed start net) {i : ι} {e : EID} {b : Bundle}
    (got : Got net i e b) :
    ∃ b0, Source pushed net b0 ∧ b.primary = b0.primary ∧ (∀ c ∈ fixedBlocks b, c ∈ fixedBlocks b0) ∧
      (Plain b0 → (fixedBlocks b).Perm (fixedBlocks b0)) ∧
      ((∀ x y, Source pushed net x → Source pushed net y → x.id = y.id → x.primary.destination = y.primary.destination) →
        b.primary.destination = e) := by
  have h := held_always fresh run
  have hm : MeantFor (net i).node e b := by
    rcases got with ⟨ch, hg⟩ | hg
    · exact (h.sound i).fine _ hg
    · exact (h.sound i).fine _ hg
  obtain ⟨hk, b', hk', hid, hd⟩ := hm
  obtain ⟨b0, k, h1, h2⟩ := known_from (h.sound i) (fun x hx => .inr ⟨i, hx⟩) hk
  obtain ⟨b1, k1, h3, h4⟩ := known_from (h.sound i) (fun x hx => .inr ⟨i, hx⟩) hk'
  refine ⟨b0, h1, path_primary h2, path_nothing_new h2, path_nothing_lost h2, fun u => ?_⟩
  rw [← hd, path_primary h2, path_primary h4]
  refine u b0 b1 h1 h3 ?_
  have e1 : b'.primary.bid = b.primary.bid := hid
  rw [path_primary h2, path_primary h4] at e1
  exact e1.symm

/-- C110 (on the way). The same for every copy that a node hands to a convergence layer. -/
theorem C110_on_the_way {start net : Network ι} (fresh : Fresh start) (run : Run pushed start net) {i : ι} {t : Transfer}
    (sent : Event.sending t ∈ (net i).node.events) :
    ∃ b0, Source pushed net b0 ∧ t.out.primary = b0.primary ∧ (∀ c ∈ fixedBlocks t.out, c ∈ fixedBlocks b0) ∧
      (Plain b0 → (fixedBlocks t.out).Perm (fixedBlocks b0)) := by
  have h := held_always fresh run
  obtain ⟨b0, k, h1, -, h2⟩ := sent_from (h.sound i) (fun x hx => .inr ⟨i, hx⟩) (h.names i) sent
  exact ⟨b0, h1, path_primary h2, path_nothing_new h2, path_nothing_lost h2⟩

/-- C111 (part). A copy that a node hands on has been passed on by at most as many nodes as the hop limit of the bundle
allows, and its hop count says how many these were: it was submitted with some hop count, and passed on `k` times, this time
included. Missing: limits of 255, for which the count starts again at 0 (`C15_hop_limit_violated`), and bundles with an unknown
block that asks for removal, for which the hop count block may be removed instead (`C19_wrong_block_violated`). -/
theorem C111_hops_partial {start net : Network ι} (fresh : Fresh start) (run : Run pushed start net) {i : ι} {t : Transfer}
    (sent : Event.sending t ∈ (net i).node.events) :
    ∃ b0 k, Source pushed net b0 ∧ Path (hostsOf net) b0 k t.out ∧ 0 < k ∧
      ∀ limit count, Plain b0 → AtMostOne HOP_COUNT_BLOCK b0 → hopCount b0 = some (limit, count) → limit < 255 → count ≤ limit →
        hopCount t.out = some (limit, count + k) ∧ count + k ≤ limit := by
  have h := held_always fresh run
  obtain ⟨b0, k, h1, -, h2⟩ := sent_from (h.sound i) (fun x hx => .inr ⟨i, hx⟩) (h.names i) sent
  refine ⟨b0, k + 1, h1, h2, by omega, ?_⟩
  intro limit count hp one hc hl hle
  exact (path_hops h2 hp one hc hl hle).2

namespace Ex110

/-- Node `n2`, with an application `a` that sends a bundle to `n1`, and node `n1`. -/
def cfg2 : Config := { Ex.cfg with hostEid := .dtn "n2" "" }

def first : Network Bool := fun i => if i then ⟨Node.start cfg2 946684800100, []⟩ else ⟨Ex.start, []⟩

/-- A bundle for application `x` on `n1`. -/
def bundle : Bundle :=
  { primary := { Ex.primary with destination := .dtn "n1" "x" }
    canonicals := [⟨PREVIOUS_NODE_BLOCK, 3, {}, .previousNode .none⟩, ⟨HOP_COUNT_BLOCK, 2, {}, .hopCount 5 0⟩, Ex.payload] }

/-- What arrives. -/
def arrived : Bundle :=
  { bundle with
    canonicals := [⟨PREVIOUS_NODE_BLOCK, 3, {}, .previousNode (.dtn "n2" "")⟩, ⟨HOP_COUNT_BLOCK, 2, {}, .hopCount 5 1⟩,
      Ex.payload] }

/-- The bundles received so far. -/
def receivedBy (s : Sys) : List Bundle :=
  s.node.events.filterMap fun e => match e with | .called (.receive b) => some b | _ => none

theorem mem_receivedBy {s : Sys} {b : Bundle} (h : Event.called (.receive b) ∈ s.node.events) : b ∈ receivedBy s :=
  List.mem_filterMap.mpr ⟨_, h, rfl⟩

end Ex110
open Ex110

/-- Two nodes: a bundle submitted on one is delivered on the other. -/
theorem networkWitness : ∃ net, Fresh first ∧ Run (fun _ => False) first net ∧ Got net false (.dtn "n1" "x") arrived ∧
    (∃ t, Event.sending t ∈ (net true).node.events ∧ t.out = arrived) ∧ Event.called (.send bundle) ∈ (net true).node.events ∧
    Plain bundle ∧ AtMostOne HOP_COUNT_BLOCK bundle ∧ hopCount bundle = some (5, 0) := by
  obtain ⟨s, hs, hp⟩ := exists_run (n := Node.start cfg2 946684800100)
    ([.register (.dtn "n2" "a"), .call (.send bundle)] ++ go 60 (some (Ex.answer true)))
    (fun s => Ex.hasSending (fun t => decide (t.out = arrived)) s && decide (receivedBy s = []) &&
      decide (Event.called (.send bundle) ∈ s.node.events)) (by decide +kernel)
  simp only [Bool.and_eq_true, decide_eq_true_eq] at hp
  obtain ⟨⟨hp, hq⟩, hsend⟩ := hp
  obtain ⟨t, ht, hto⟩ := Ex.sending_of hp
  obtain ⟨u, hu, hup⟩ := exists_run (n := Ex.start)
    ([.register (.dtn "n1" "x"), .call (.receive arrived)] ++ go 60)
    (fun s => Ex109.hasDelivery (.dtn "n1" "x") (fun b => decide (b = arrived)) s && decide (receivedBy s = [arrived]))
    (by decide +kernel)
  simp only [Bool.and_eq_true, decide_eq_true_eq] at hup
  obtain ⟨b, ch, hb, hba⟩ := Ex109.delivery_of hup.1
  simp only [decide_eq_true_eq] at hto hba
  subst hba
  have fresh : Fresh first := by
    intro i; cases i
    · exact ⟨Ex.cfg, 946684800100, rfl⟩
    · exact ⟨cfg2, 946684800100, rfl⟩
  have r1 : Run (fun _ => False) first (first.set true s) :=
    run_node (i := true) hs (Sound.start _ _) (by intro p h; cases h) (by
      intro b hb; have := mem_receivedBy hb; rw [hq] at this; cases this)
  have r2 : Run (fun _ => False) (first.set true s) ((first.set true s).set false u) := by
    refine run_node (i := false) ?_ ?_ ?_ ?_
    · rw [set_other _ _ (by simp)]; exact hu
    · rw [set_other _ _ (by simp)]; exact Sound.start _ _
    · rw [set_other _ _ (by simp)]; intro p h; cases h
    · intro b hb
      have := mem_receivedBy hb
      rw [hup.2, List.mem_singleton] at this
      exact .inr ⟨true, t, by rw [set_same]; exact ht, hto.trans this.symm⟩
  refine ⟨_, fresh, r1.trans r2, .inl ⟨ch, by rw [set_same]; exact hb⟩, ⟨t, ?_, hto⟩, ?_, ?_, ?_, ?_⟩
  · rw [set_other _ _ (by simp), set_same]; exact ht
  · rw [set_other _ _ (by simp), set_same]; exact hsend
  · intro c hc hu
    simp only [bundle, Ex.payload, List.mem_cons, List.not_mem_nil, or_false] at hc
    rcases hc with rfl | rfl | rfl <;> rfl
  · unfold AtMostOne; decide
  · decide

end Dtn.Props
