import Verif.Lemmas.Locks
/-!
Property C100: the tasks of the daemon do not wait for each other for ever: every call returns, however the scheduler
interleaves it with other calls.
-/

namespace Dtn.Props
open Spec.Locks Locks

/-- C100: no deadlock among any number of concurrent calls, in any interleaving, as long as either nobody looks at the
start page (and the daemon has started) or the janitor meets no dynamic peer, and packets of external modules do not
coincide with bundles handed to them. Missing: the two coincidences (see below and C75). -/
theorem C100_no_deadlock_partial (cs : List Call) (h1 : NoStartPage cs ∨ NoDynamicPeer cs)
    (h2 : NoModuleSubmission cs ∨ OnlyModuleSubmissions cs) (is : List Nat) (ts : List Thread)
    (hr : run (begin cs) is = some ts) : ¬ Deadlock ts := by
  obtain ⟨p, m, h⟩ := ok_begin h1 h2
  exact no_deadlock rank_lt (ok_run h hr)

/-- C100: under the same conditions every schedule is finite, and from wherever the calls have got to all of them can be
brought to an end; since a schedule that cannot be continued is no deadlock, it is one in which all calls have returned. -/
theorem C100_all_return_partial (cs : List Call) (h1 : NoStartPage cs ∨ NoDynamicPeer cs)
    (h2 : NoModuleSubmission cs ∨ OnlyModuleSubmissions cs) (is : List Nat) (ts : List Thread)
    (hr : run (begin cs) is = some ts) :
    is.length ≤ size cs ∧ (is.length = size cs → Finished ts) ∧ ∃ js us, run (begin cs) (is ++ js) = some us ∧ Finished us := by
  have hl := left_run hr
  rw [left_begin] at hl
  obtain ⟨p, m, h⟩ := ok_begin h1 h2
  refine ⟨by omega, ?_, ?_⟩
  · intro he t ht
    exact List.length_eq_zero_iff.mp (by have := rest_le ht; omega)
  · obtain ⟨js, us, hjs, hf⟩ := can_finish rank_lt (ok_run h hr)
    exact ⟨js, us, by rw [run_append hr]; exact hjs, hf⟩

example : (NoStartPage [.janitor [.static, .dynamic] [.one .store, .deliver .removed], .fetch .removed, .route [] 3,
      .websocket 1 [none, some [.removed, .removed]], .ecla (.packet .tcp .registered), .plain [.peers, .config]]) ∧
    (run (begin [.janitor [.static, .dynamic] [.one .store, .deliver .removed], .fetch .removed, .route [] 3])
      [0, 1, 1, 1, 0, 0, 1]).isSome = true := by
  constructor
  · intro c hc
    simp only [List.mem_cons, List.not_mem_nil, or_false] at hc
    rcases hc with rfl | rfl | rfl | rfl | rfl | rfl <;> simp
  · decide

example : NoDynamicPeer [.indexPage, .janitor [.static] [], .ecla (.submit [.tcp])] ∧
    OnlyModuleSubmissions [.indexPage, .janitor [.static] [], .ecla (.submit [.tcp])] := by
  constructor
  · intro ks ps h; simp at h; rcases h with ⟨rfl, rfl⟩; simp
  · intro c h; simp at h; subst h; simp

/-- C100 fails: whatever else is going on, a request for the start page and a round of the janitor that meets a dynamic
peer can get into a state from which neither of them ever returns; nor does any other call from then on that reads the
configuration or the peer table. -/
theorem C100_start_page_violated (ks : List Kind) (ps : List Piece) (cs : List Call) (hk : Kind.dynamic ∈ ks) :
    ∃ is ts, run (begin (.indexPage :: .janitor ks ps :: cs)) is = some ts ∧ Never ts 0 ∧ Never ts 1 ∧
      ∀ i c, cs[i]? = some c → (Act.acq .config ∈ c.acts ∨ Act.acq .peers ∈ c.acts) → Never ts (i + 2) := by
  obtain ⟨ts, hr, hs, hrest⟩ := reach_stuck (ps := ps) cs hk
  refine ⟨_, ts, hr, ?_, ?_, ?_⟩
  · rintro js us hu ⟨t, ht, hn⟩
    obtain ⟨t', r, ht', -, he⟩ := (hs.run hu).a
    rw [ht] at ht'; cases ht'
    rw [hn] at he; cases he
  · rintro js us hu ⟨t, ht, hn⟩
    obtain ⟨t', r, ht', -, he⟩ := (hs.run hu).b
    rw [ht] at ht'; cases ht'
    rw [hn] at he; cases he
  · rintro i c hc hw js us hu ⟨t, ht, hn⟩
    have hi : ts[i + 2]? = some ⟨[], c.acts⟩ := by rw [hrest i]; simp [begin, hc]
    rcases hw with hw | hw
    · obtain ⟨u, hu', hm⟩ := hs.wants hu (.inl rfl) hi hw
      rw [ht] at hu'; cases hu'
      rw [hn] at hm; cases hm
    · obtain ⟨u, hu', hm⟩ := hs.wants hu (.inr rfl) hi hw
      rw [ht] at hu'; cases hu'
      rw [hn] at hm; cases hm

example : Kind.dynamic ∈ [Kind.static, .dynamic] ∧ Act.acq .config ∈ (Call.fetch .kept).acts ∧
    Act.acq .peers ∈ (Call.route [] 2).acts := by decide

end Dtn.Props
