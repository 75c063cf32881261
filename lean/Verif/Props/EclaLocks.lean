import Verif.Lemmas.EclaLocks
/-!
Property C75: the operations of the external convergence layers do not wait for each other for ever.
-/

namespace Dtn.Props
open Spec.EclaLocks EclaLocks

/-- C75: connections, packets and announcements, in any number and order, never deadlock. Missing: bundles handed to
modules at the same time (see below). -/
theorem C75_no_deadlock_without_submissions_partial (cs : List Call) (h : NoSubmission cs) (is : List Nat)
    (ts : List Thread) (hr : run (begin cs) is = some ts) : ¬ Deadlock ts := by
  refine no_deadlock (rank := rank) (B := 3) (by intro l; cases l <;> decide) (ok_run ?_ hr)
  intro t ht
  obtain ⟨c, hc, rfl⟩ := List.mem_map.mp ht
  exact ok_acts (fun ls e => h ls (e ▸ hc))

example : NoSubmission [.packet .tcp .registered, .announce [.tcp, .websocket], .disconnect .tcp true] ∧
    (run (begin [.packet .tcp .registered, .announce [.tcp, .websocket], .disconnect .tcp true]) [0, 2, 0, 2]).isSome =
      true := by
  constructor
  · intro ls; simp
  · decide

/-- C75: bundles handed to modules never deadlock with each other or with connections coming and going. Missing: packets
and announcements at the same time. -/
theorem C75_no_deadlock_with_submissions_partial (cs : List Call) (h : OnlySubmissions cs) (is : List Nat)
    (ts : List Thread) (hr : run (begin cs) is = some ts) : ¬ Deadlock ts := by
  refine no_deadlock (rank := rank') (B := 3) (by intro l; cases l <;> decide) (ok_run ?_ hr)
  intro t ht
  obtain ⟨c, hc, rfl⟩ := List.mem_map.mp ht
  exact ok_submit (h c hc)

example : OnlySubmissions [.submit [.tcp], .submit [], .connect .websocket] := by
  intro c hc; simp at hc; rcases hc with rfl | rfl | rfl <;> simp

/-- C75 fails: a packet of any module (or an announcement) and a bundle handed to any module block each other if each has
taken its first lock. -/
theorem C75_packet_and_submission_violated (l : Ecla.Layer) (k : Case) (ls : List Ecla.Layer) :
    ∃ ts, run (begin [.packet l k, .submit ls]) [0, 1] = some ts ∧ Deadlock ts := by
  refine ⟨[⟨[.modules], _⟩, ⟨[.connectors], _⟩], rfl, ?_, ?_⟩
  · intro h
    have := h _ (List.mem_cons_self)
    cases this
  · intro i
    match i with
    | 0 => rfl
    | 1 => rfl
    | i + 2 => rfl

/-- C75 fails in the same way for an announcement. -/
theorem C75_announcement_and_submission_violated (l : Ecla.Layer) (ls ls' : List Ecla.Layer) :
    ∃ ts, run (begin [.announce (l :: ls), .submit ls']) [0, 1] = some ts ∧ Deadlock ts := by
  refine ⟨[⟨[.modules], _⟩, ⟨[.connectors], _⟩], rfl, ?_, ?_⟩
  · intro h
    have := h _ (List.mem_cons_self)
    cases this
  · intro i
    match i with
    | 0 => rfl
    | 1 => rfl
    | i + 2 => rfl

end Dtn.Props
