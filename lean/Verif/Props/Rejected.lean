import Verif.Lemmas.Rejected
import Verif.Lemmas.CarriedExample
import Verif.Props.Foreign
/-! Property C19, for bundles received while the node does other things. -/

namespace Dtn.Props
open Proc Spec

/-- C19 (deletion, whatever else happens). If whatever comes to the node under an id are receptions of bundles with an unknown block that
asks for their deletion, however many and whenever, then the router is never told or asked about a bundle of this id, it is given to no
application and handed to no convergence layer, and when everything that runs has ended it is not in the store. -/
theorem C19_deleted_always {cfg : Config} {clock : Nat} {s : Sys} {bid : String} (run : Reaches .any ⟨Node.start cfg clock, []⟩ s)
    (asks : ∀ e ∈ s.node.events, Brings bid e →
      ∃ b, e = .called (.receive b) ∧ ∃ c ∈ b.canonicals, UnknownBlock c ∧ c.flags.deleteBundle = true) :
    (∀ e ∈ s.node.events, ¬ TakenUp bid e) ∧ (s.pool = [] → s.node.store.getBundle bid = none) := by
  have key := shunned_while (bid := bid) (A := fun _ => True)
    (B := fun e => Brings bid e ∧ ¬ ∃ b, e = .called (.receive b) ∧ Asks b) (by
      intro c hc
      by_cases hb : Brings bid (.called c)
      · have : ∃ b, Event.called c = .called (.receive b) ∧ Asks b := Classical.byContradiction fun h => hc ⟨hb, h⟩
        obtain ⟨b, h, ha⟩ := this
        cases h
        have : b.id = bid := hb
        exact this ▸ shuns_receive_asks ha
      · exact shuns_call c hb) (.refl _) (start_shunned cfg clock) (reaches_throughout run)
  rcases key with ⟨r, h1, h2⟩ | ⟨e, h1, h2, h3⟩ | ⟨h1, -, h3⟩
  · obtain ⟨b, h, -⟩ := asks _ h1 h2
    cases h
  · exact absurd (asks e (List.mem_of_mem_drop h1) h2) h3
  · refine ⟨h1.silent, fun hp => Classical.byContradiction fun h => ?_⟩
    obtain ⟨p, hm, -⟩ := h3 h
    rw [hp] at hm
    cases hm

/-- A test for the hypothesis. -/
def onlyFatal (e : Event) : Bool := !brings "b" e || decide (e = .called (.receive (Ex.strange [Ex.known, Ex.fatal])))

/-- Such a bundle comes in twice, next to another one, and the node comes to rest. -/
example : ∃ s b, Reaches .any ⟨Ex.start, []⟩ s ∧ s.pool = [] ∧ Event.called (.receive b) ∈ s.node.events ∧ b.id = "b" ∧
    (∃ t, Event.sending t ∈ s.node.events) ∧ (∀ e ∈ s.node.events, Brings "b" e →
      ∃ b, e = .called (.receive b) ∧ ∃ c ∈ b.canonicals, UnknownBlock c ∧ c.flags.deleteBundle = true) := by
  obtain ⟨s, h1, h2⟩ := exists_run (n := Ex.start)
    ([.call (.receive (Ex.strange [Ex.known, Ex.fatal])), .call (.receive Ex113.other), .call (.receive (Ex.strange [Ex.known, Ex.fatal]))] ++
      List.replicate 4 (.run 1 (some (Ex.answer false)) true "r") ++ go 90 (some (Ex.answer false)))
    (fun s => s.pool.isEmpty && decide (Event.called (.receive (Ex.strange [Ex.known, Ex.fatal])) ∈ s.node.events) &&
      Ex.hasSending (fun _ => true) s && s.node.events.all onlyFatal) (by decide +kernel)
  simp only [Bool.and_eq_true, List.isEmpty_iff, decide_eq_true_eq] at h2
  obtain ⟨t, ht, -⟩ := Ex.sending_of h2.1.2
  refine ⟨s, _, h1, h2.1.1.1, h2.1.1.2, rfl, ⟨t, ht⟩, fun e he hb => ?_⟩
  have h := List.all_eq_true.mp h2.2 e he
  unfold onlyFatal at h
  by_cases hq : brings "b" e = true
  · simp only [hq, Bool.not_true, Bool.false_or, decide_eq_true_eq] at h
    refine ⟨_, h, Ex.fatal, by decide +kernel, ?_⟩
    unfold UnknownBlock
    decide +kernel
  · exact absurd hb (brings_of (by simpa using hq))

end Dtn.Props
