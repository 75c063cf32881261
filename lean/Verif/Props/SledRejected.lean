import Verif.Lemmas.SledRejected
import Verif.Lemmas.SledExample
import Verif.Props.Rejected
import Verif.Props.SledForeign
/-! Property C130: bundles with an unknown block that asks for their deletion, received by a node with the persistent store. -/

namespace Dtn.Props
open Proc Spec OnSled

/-- Calls that bring only bundles that ask for their deletion. -/
theorem shuns_asking {bid : String} {A : Node → Prop} (c : Call)
    (h : ¬ (Brings bid (.called c) ∧ ¬ ∃ b, Event.called c = .called (.receive b) ∧ Asks b)) : Shuns bid A (OnSled.task c) := by
  by_cases hb : Brings bid (.called c)
  · have : ∃ b, Event.called c = .called (.receive b) ∧ Asks b := Classical.byContradiction fun g => h ⟨hb, g⟩
    obtain ⟨b, e, ha⟩ := this
    cases e
    have : b.id = bid := hb
    exact this ▸ OnSled.shuns_receive_asks ha
  · exact OnSled.shuns_task c hb

/-- C130 (unknown blocks). If whatever comes to the node under an id are receptions of bundles with an unknown block that asks for their
deletion, then the router is never told or asked about a bundle of this id, it is given to no application and handed to no convergence
layer, whatever else happens and however often the process is stopped and started again. -/
theorem C130_deleted_never {cfg : Config} {clock : Nat} {s : Sys} {bid : String} (run : OnSled.Reaches ⟨Node.start cfg clock, []⟩ s)
    (asks : ∀ e ∈ s.node.events, Brings bid e →
      ∃ b, e = .called (.receive b) ∧ ∃ c ∈ b.canonicals, UnknownBlock c ∧ c.flags.deleteBundle = true) :
    ∀ e ∈ s.node.events, ¬ TakenUp bid e := by
  rcases shun_history_while (bid := bid) (A := fun _ => True)
      (B := fun e => Brings bid e ∧ ¬ ∃ b, e = .called (.receive b) ∧ Asks b) (fun c h => shuns_asking c h) (.refl _) (start_shun cfg clock)
    (reaches_sledHistory run) with ⟨r, h1, h2⟩ | ⟨e, h1, h2, h3⟩ | h
  · obtain ⟨b, h, -⟩ := asks _ h1 h2
    cases h
  · exact absurd (asks e (List.mem_of_mem_drop h1) h2) h3
  · exact h.1.silent

/-- C130 (unknown blocks, part). If the process is not stopped in the meantime, and the id is not in the database at first, it is not
there either when everything that runs has ended. Missing: a stop of the process between storing the bundle and looking at its blocks,
after which it stays in the database as in `C131_left_violated`. -/
theorem C130_deleted_gone_partial {cfg : Config} {clock : Nat} {s : Sys} {m : Node} {bid : String}
    (before : OnSled.Reaches ⟨Node.start cfg clock, []⟩ s) (new : s.node.store.getBundle bid = none)
    (run : SledThroughout (fun _ => True) s ⟨m, []⟩)
    (asks : ∀ e ∈ m.events, Brings bid e →
      ∃ b, e = .called (.receive b) ∧ ∃ c ∈ b.canonicals, UnknownBlock c ∧ c.flags.deleteBundle = true) :
    m.store.getBundle bid = none := by
  obtain ⟨es, past⟩ := reaches_past before run.reaches
  have none_of : ∀ {n : Node}, (∀ e ∈ n.events, e ∈ m.events) → ¬ Clash bid n := by
    rintro n hn ⟨r, h1, h2⟩
    obtain ⟨b, h, -⟩ := asks _ (hn _ h1) h2
    cases h
  have sub : ∀ e ∈ s.node.events, e ∈ m.events := fun e he => by
    show e ∈ (⟨m, []⟩ : Sys).node.events
    rw [← past]; exact List.mem_append_left _ he
  rcases shun_history_while (bid := bid) (A := fun _ => True)
      (B := fun e => Brings bid e ∧ ¬ ∃ b, e = .called (.receive b) ∧ Asks b) (fun c h => shuns_asking c h) (.refl _) (start_shun cfg clock)
    (reaches_sledHistory before) with h | ⟨e, h1, h2, h3⟩ | h
  · exact absurd h (none_of sub)
  · exact absurd (asks e (sub e (List.mem_of_mem_drop h1)) h2) h3
  · rcases shun_throughout_while (bid := bid) (A := fun _ => True)
      (B := fun e => Brings bid e ∧ ¬ ∃ b, e = .called (.receive b) ∧ Asks b) (fun c h => shuns_asking c h) before
      ⟨h.1, h.2.1, fun _ hh => absurd new hh⟩ run with k | ⟨e, h1, h2, h3⟩ | ⟨-, -, k⟩
    · exact absurd k (none_of fun _ he => he)
    · exact absurd (asks e (List.mem_of_mem_drop h1) h2) h3
    · refine Classical.byContradiction fun hne => ?_
      obtain ⟨p, hp, -⟩ := k trivial hne
      cases hp

/-- What the test says. -/
theorem onlyFatal_of {es : List Event} (h : es.all onlyFatal = true) : ∀ e ∈ es, Brings "b" e →
    ∃ b, e = .called (.receive b) ∧ ∃ c ∈ b.canonicals, UnknownBlock c ∧ c.flags.deleteBundle = true := by
  intro e he hb
  have h := List.all_eq_true.mp h e he
  unfold onlyFatal at h
  by_cases hq : brings "b" e = true
  · simp only [hq, Bool.not_true, Bool.false_or, decide_eq_true_eq] at h
    refine ⟨_, h, Ex.fatal, by decide +kernel, ?_⟩
    unfold UnknownBlock
    decide +kernel
  · exact absurd hb (brings_of (by simpa using hq))

/-- Such a bundle comes in next to another one, before and after a restart, and then the node comes to rest. -/
example : ∃ s m, OnSled.Reaches ⟨Node.start Ex.cfg 946684800100, []⟩ s ∧ s.node.store.getBundle "b" = none ∧ s.pool ≠ [] ∧
    SledThroughout (fun _ => True) s ⟨m, []⟩ ∧ Event.called (.receive (Ex.strange [Ex.known, Ex.fatal])) ∈ m.events ∧
    (∀ e ∈ m.events, Brings "b" e →
      ∃ b, e = .called (.receive b) ∧ ∃ c ∈ b.canonicals, UnknownBlock c ∧ c.flags.deleteBundle = true) := by
  obtain ⟨n, tasks, m, h1, h2, h3⟩ := exists_sled (n := Node.start Ex.cfg 946684800100)
    ([.call (.receive (Ex.strange [Ex.known, Ex.fatal]))] ++ going 30 (some (Ex.answer false)) ++
      [.restart 946684800200, .call (.receive Ex113.other)] ++ going 4 ++ [.call (.receive (Ex.strange [Ex.known, Ex.fatal]))])
    id (List.replicate 1 (.run 1 (some (Ex.answer false)) true "r") ++ going 90 (some (Ex.answer false)))
    (fun _ _ => true)
    (fun s m => decide (s.node.store.getBundle "b" = none) && !s.pool.isEmpty &&
      decide (Event.called (.receive (Ex.strange [Ex.known, Ex.fatal])) ∈ m.events) && m.events.all onlyFatal) (by decide +kernel)
  simp only [Bool.and_eq_true, decide_eq_true_eq] at h3
  exact ⟨⟨n, tasks⟩, m, h1, h3.1.1.1, by simpa using h3.1.1.2, h2.weaken fun _ _ => trivial, h3.1.2, onlyFatal_of h3.2⟩

end Dtn.Props
