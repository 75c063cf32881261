import Verif.Lemmas.TcpclCalm
import Verif.Spec.TcpCalm
import Verif.Props.TcpclSession
/-! C119: two nodes exchanging bundles over a connection never end it by mistake. -/

namespace Dtn.Props
open Dtn.Tcpcl Dtn.Spec Dtn.Spec.TcpCalmSpec

/-- Sessions that have ended stay so. -/
theorem not_bothRun_step {e : Env} {p : Pair} (ev : Pair.Ev) (h : ¬ BothRun p) : ¬ BothRun (p.step e ev) := by
  intro hr
  apply h
  obtain ⟨ha, hb⟩ := hr
  unfold Pair.step at ha hb
  cases ev with
  | toA has =>
    simp only at ha hb
    split at ha
    · rename_i h'; rw [h'] at hb; exact ⟨ha, hb⟩
    · rename_i h'; rw [h'] at hb; exact ⟨step_live ha, hb⟩
  | toB has =>
    simp only at ha hb
    split at ha
    · rename_i h'; rw [h'] at hb; exact ⟨ha, hb⟩
    · rename_i h'; rw [h'] at hb; exact ⟨ha, step_live hb⟩
  | atA ev => exact ⟨step_live ha, hb⟩
  | atB ev => exact ⟨ha, step_live hb⟩

theorem timeout_ends {e : Env} {s : Sess} (hk : s.keepaliveReceived = false) : (s.step e .timeout).isTerminated = true := by
  unfold Sess.step
  by_cases ht : s.isTerminated = true
  · rw [if_pos ht]; exact ht
  · rw [if_neg ht]
    simp only
    by_cases hs : s.keepaliveSent = true
    · simp [hs, hk, Sess.terminate, Sess.terminated, Sess.isTerminated]
    · simp [hs, Sess.send, hk, Sess.terminate, Sess.terminated, Sess.isTerminated]

theorem closed_ends {e : Env} {s : Sess} (hi : s.tx = .idle) : (s.step e .closed).isTerminated = true := by
  unfold Sess.step
  by_cases ht : s.isTerminated = true
  · rw [if_pos ht]; exact ht
  · rw [if_neg ht]
    simp [hi, Sess.terminate, Sess.terminated, Sess.isTerminated]

theorem lost_ends {e : Env} {s : Sess} : (s.step e .lost).isTerminated = true := by
  unfold Sess.step
  by_cases ht : s.isTerminated = true
  · rw [if_pos ht]; exact ht
  · rw [if_neg ht]
    simp [Sess.terminated, Sess.isTerminated]

/-- One step of two sessions that fit: they go on so, or a session ends by a disturbance. -/
theorem calm_step {e : Env} (he : e.parses [] = false) {p : Pair} (h : Calm e p) (ev : Pair.Ev)
    (hb : ∀ d, ev = .atA (.request d) ∨ ev = .atB (.request d) → e.parses d = true) :
    Calm e (p.step e ev) ∨ (Disturbance ev ∧ ¬ BothRun (p.step e ev)) := by
  cases ev with
  | toA has => exact Or.inl (h.toA he has)
  | toB has => exact Or.inl (h.toB he has)
  | atA ev =>
    cases ev with
    | request d => exact Or.inl (h.requestA he (hb d (Or.inl rfl)))
    | closed =>
      by_cases hi : p.a.tx = .idle
      · right
        refine ⟨trivial, fun hr => ?_⟩
        have := closed_ends (e := e) hi
        rw [show (p.a.step e .closed).isTerminated = false from hr.1] at this
        cases this
      · left
        have : p.step e (.atA .closed) = p := by
          simp only [Pair.step, Pair.LocalEv.toEv]
          unfold Sess.step
          rw [if_neg (by simp [h.liveA])]
          simp only
          rw [if_neg hi]
        rw [this]; exact h
    | timeout =>
      by_cases hk : p.a.keepaliveReceived = true
      · exact Or.inl (h.timeoutA hk)
      · right
        refine ⟨trivial, fun hr => ?_⟩
        have := timeout_ends (e := e) (Bool.eq_false_iff.mpr hk)
        rw [show (p.a.step e .timeout).isTerminated = false from hr.1] at this
        cases this
    | lost =>
      right
      refine ⟨trivial, fun hr => ?_⟩
      have := lost_ends (e := e) (s := p.a)
      rw [show (p.a.step e .lost).isTerminated = false from hr.1] at this
      cases this
  | atB ev =>
    cases ev with
    | request d => exact Or.inl (h.requestB he (hb d (Or.inr rfl)))
    | closed =>
      by_cases hi : p.b.tx = .idle
      · right
        refine ⟨trivial, fun hr => ?_⟩
        have := closed_ends (e := e) hi
        rw [show (p.b.step e .closed).isTerminated = false from hr.2] at this
        cases this
      · left
        have : p.step e (.atB .closed) = p := by
          simp only [Pair.step, Pair.LocalEv.toEv]
          unfold Sess.step
          rw [if_neg (by simp [h.liveB])]
          simp only
          rw [if_neg hi]
        rw [this]; exact h
    | timeout =>
      by_cases hk : p.b.keepaliveReceived = true
      · exact Or.inl (h.timeoutB hk)
      · right
        refine ⟨trivial, fun hr => ?_⟩
        have := timeout_ends (e := e) (Bool.eq_false_iff.mpr hk)
        rw [show (p.b.step e .timeout).isTerminated = false from hr.2] at this
        cases this
    | lost =>
      right
      refine ⟨trivial, fun hr => ?_⟩
      have := lost_ends (e := e) (s := p.b)
      rw [show (p.b.step e .lost).isTerminated = false from hr.2] at this
      cases this

theorem not_bothRun_run {e : Env} (evs : List Pair.Ev) : ∀ {p : Pair}, ¬ BothRun p → ¬ BothRun (p.run e evs) := by
  induction evs with
  | nil => exact id
  | cons ev evs ih => exact fun h => ih (not_bothRun_step ev h)

theorem calm_run {e : Env} (he : e.parses [] = false) (evs : List Pair.Ev) : ∀ {p : Pair}, Calm e p → Bundles e evs →
    BothRun (p.run e evs) → Calm e (p.run e evs) := by
  induction evs with
  | nil => exact fun h _ _ => h
  | cons ev evs ih =>
    intro p h hb hr
    rcases calm_step he h ev (fun d hd => hb d (by rcases hd with rfl | rfl <;> simp)) with h' | ⟨_, h'⟩
    · exact ih h' (fun d hd => hb d (by rcases hd with hd | hd <;> simp [hd])) hr
    · exact absurd hr (not_bothRun_run evs h')

theorem calm_both {e : Env} {p : Pair} (h : Calm e p) : BothRun p := ⟨h.liveA, h.liveB⟩

theorem calm_undisturbed {e : Env} (he : e.parses [] = false) (evs : List Pair.Ev) : ∀ {p : Pair}, Calm e p → Bundles e evs →
    (∀ ev ∈ evs, ¬ Disturbance ev) → Calm e (p.run e evs) := by
  induction evs with
  | nil => exact fun h _ _ => h
  | cons ev evs ih =>
    intro p h hb hd
    rcases calm_step he h ev (fun d hd => hb d (by rcases hd with rfl | rfl <;> simp)) with h' | ⟨h', _⟩
    · exact ih h' (fun d hd => hb d (by rcases hd with hd | hd <;> simp [hd])) fun ev hev => hd ev (by simp [hev])
    · exact absurd h' (hd ev (by simp))

/-! ## C119 -/

/-- C119: connect two sessions of this implementation, with any segment sizes announced and any choice of the ask-first mode at each
end, and let both be asked to send any bundles at any time, with messages arriving in any interleaving and the stores of the nodes holding
whatever they hold at each moment. As long as no end is told to stop, loses the connection or sees its timer fire, neither ends its session. -/
theorem C119_undisturbed (e : Env) (he : e.parses [] = false) (refuseA refuseB : Bool) (initA initB : SessInit)
    (ha : 0 < initA.segmentMru) (hb : 0 < initB.segmentMru) (evs : List Pair.Ev) (hbundles : Bundles e evs)
    (hcalm : ∀ ev ∈ evs, ¬ Disturbance ev) : BothRun ((fresh refuseA refuseB initA initB).run e evs) :=
  calm_both (calm_undisturbed he evs (Calm.fresh e refuseA refuseB initA initB initB initA hb ha) hbundles hcalm)

/-- C119, whatever happened before: if both sessions run, timers that fired and the like included, then neither a message that arrives nor a
bundle to send ends one. -/
theorem C119_no_protocol_error (e : Env) (he : e.parses [] = false) (refuseA refuseB : Bool) (initA initB : SessInit)
    (ha : 0 < initA.segmentMru) (hb : 0 < initB.segmentMru) (evs : List Pair.Ev) (ev : Pair.Ev) (hbundles : Bundles e (evs ++ [ev]))
    (hev : ¬ Disturbance ev) (p : Pair) (hp : p = (fresh refuseA refuseB initA initB).run e evs) (hrun : BothRun p) :
    BothRun (p.step e ev) := by
  subst hp
  have h := calm_run he evs (Calm.fresh e refuseA refuseB initA initB initB initA hb ha)
    (fun d hd => hbundles d (by rcases hd with hd | hd <;> simp [hd])) hrun
  rcases calm_step he h ev (fun d hd => hbundles d (by rcases hd with rfl | rfl <;> simp)) with h' | ⟨h', _⟩
  · exact calm_both h'
  · exact absurd h' hev

/-- C119: while both sessions run, transfers are answered with success and in order, and at most one is waiting for its answer at each end. -/
theorem C119_in_order (e : Env) (he : e.parses [] = false) (refuseA refuseB : Bool) (initA initB : SessInit)
    (ha : 0 < initA.segmentMru) (hb : 0 < initB.segmentMru) (evs : List Pair.Ev) (hbundles : Bundles e evs)
    (p : Pair) (hp : p = (fresh refuseA refuseB initA initB).run e evs) (hrun : BothRun p) :
    (∃ n, AnsweredUpTo p.a n ∧ n ≤ p.a.requests.length ∧ p.a.requests.length ≤ n + 1) ∧
    (∃ n, AnsweredUpTo p.b n ∧ n ≤ p.b.requests.length ∧ p.b.requests.length ≤ n + 1) := by
  subst hp
  have h := calm_run he evs (Calm.fresh e refuseA refuseB initA initB initB initA hb ha) hbundles hrun
  have key : ∀ s : Sess, Answered s → ∃ n, AnsweredUpTo s n ∧ n ≤ s.requests.length ∧ s.requests.length ≤ n + 1 := by
    intro s hs
    unfold Answered at hs
    split at hs
    · exact ⟨_, hs, Nat.le_refl _, Nat.le_succ _⟩
    · exact ⟨_, hs.2, by omega, by omega⟩
    · exact ⟨_, hs.2, by omega, by omega⟩
    · exact hs.elim
  exact ⟨key _ h.ansA, key _ h.ansB⟩

theorem arrivals_calm {e : Env} (he : e.parses [] = false) (ds : List Pair.Ev) : ∀ {p : Pair}, Calm e p → Arrivals e p ds →
    Calm e (p.run e ds) ∧ load (p.run e ds) + ds.length ≤ load p := by
  induction ds with
  | nil => exact fun h _ => ⟨h, Nat.le_refl _⟩
  | cons ev ds ih =>
    intro p h hd
    obtain ⟨h1, h2⟩ := hd
    have hstep : Calm e (p.step e ev) ∧ load (p.step e ev) < load p := by
      cases ev with
      | toA has => exact ⟨h.toA he has, h.load_toA he has h1⟩
      | toB has => exact ⟨h.toB he has, h.load_toB he has h1⟩
      | atA _ => exact h1.elim
      | atB _ => exact h1.elim
    obtain ⟨h3, h4⟩ := ih hstep.1 h2
    refine ⟨h3, ?_⟩
    rw [List.length_cons]
    have := hstep.2
    change load (Pair.run e (p.step e ev) ds) + (ds.length + 1) ≤ load p
    omega

/-- C119: whatever state the exchange is in while both sessions run, the messages under way, with those they cause, are used up after finitely many
arrivals, in whatever order the two directions are served; and then both sessions still run and every transfer taken over by either end has
been answered with success. -/
theorem C119_settles (e : Env) (he : e.parses [] = false) (refuseA refuseB : Bool) (initA initB : SessInit)
    (ha : 0 < initA.segmentMru) (hb : 0 < initB.segmentMru) (evs : List Pair.Ev) (hbundles : Bundles e evs)
    (p : Pair) (hp : p = (fresh refuseA refuseB initA initB).run e evs) (hrun : BothRun p) :
    (∃ bound, ∀ ds, Arrivals e p ds → ds.length ≤ bound) ∧
    ∀ ds, Arrivals e p ds → BothRun (p.run e ds) ∧
      (Quiet (p.run e ds) → AnsweredUpTo (p.run e ds).a (p.run e ds).a.requests.length ∧
        AnsweredUpTo (p.run e ds).b (p.run e ds).b.requests.length) := by
  subst hp
  have h : Calm e ((fresh refuseA refuseB initA initB).run e evs) := calm_run he evs (Calm.fresh e refuseA refuseB initA initB initB initA hb ha) hbundles hrun
  refine ⟨⟨load ((fresh refuseA refuseB initA initB).run e evs), fun ds hds => ?_⟩, fun ds hds => ?_⟩
  · have := (arrivals_calm he ds h hds).2
    omega
  · have h' := (arrivals_calm he ds h hds).1
    refine ⟨calm_both h', fun hq => ?_⟩
    obtain ⟨h1, h2⟩ := h'.quiet hq.1 hq.2
    have k1 := h'.ansA
    have k2 := h'.ansB
    unfold Answered at k1 k2
    rw [h1] at k1
    rw [h2] at k2
    exact ⟨k1, k2⟩

/-- The hypotheses are met: both ends send at the same time, one of them asking first and sending in pieces of three bytes; nothing is
disturbed, and the exchange settles. -/
def exCalmEvs : List Pair.Ev :=
  [.atA (.request [0x9f, 1, 2, 3]), .atB (.request [0x9f, 9]), .toB fun _ => false, .toA fun _ => false]

def exCalmRest : List Pair.Ev :=
  [.toB fun _ => false, .toA fun _ => false, .toB fun _ => false, .toA fun _ => false, .toB fun _ => false, .toA fun _ => false]

example : exSessEnv.parses [] = false ∧ 0 < exSessInit.segmentMru ∧ Bundles exSessEnv exCalmEvs ∧ (∀ ev ∈ exCalmEvs, ¬ Disturbance ev) := by
  refine ⟨by decide, by decide, ?_, ?_⟩
  · intro d hd
    simp [exCalmEvs] at hd
    rcases hd with rfl | rfl <;> decide
  · intro ev hev
    simp [exCalmEvs] at hev
    rcases hev with rfl | rfl | rfl | rfl <;> simp [Disturbance]

example : (let p := (fresh true false exSessInit exSessInit).run exSessEnv exCalmEvs
    let q := p.run exSessEnv exCalmRest
    p.a.results = [] ∧ q.a.results = [(0, .successful)] ∧ q.b.results = [(0, .successful)] ∧
    q.b.processed = [[0x9f, 1, 2, 3]] ∧ q.a.processed = [[0x9f, 9]] ∧ q.readA = q.b.out.length ∧ q.readB = q.a.out.length) := by decide

/-- What is sent must be bundles: the refusal of anything else comes after the acknowledgement that ended the transfer, and ends the session. -/
theorem C119_not_a_bundle :
    ¬ BothRun ((fresh false false exSessInit exSessInit).run exSessEnv
      [.atA (.request [7]), .toB fun _ => false, .toA fun _ => false, .toA fun _ => false]) := by
  unfold BothRun
  decide

end Dtn.Props
