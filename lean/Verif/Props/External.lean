import Verif.Lemmas.ExternalConn
import Mathlib.Data.List.Nodup
/-!
Properties C39, C73 and part of C65: routing by an external program.
-/

namespace Dtn.Props
open Spec Routing Routing.External

/-! The runs of the examples. -/

/-- A bundle pack waiting to be forwarded. -/
def exExtPack (id : String) : Pack :=
  { source := .dtn "me" "x", destination := .dtn "far" "y", receivedTime := 0, creationTime := 5, lifetime := 60000,
    id, administrative := false, size := 10, constraints := { forwardPending := true } }

/-- The pack in memory. -/
def exExt (id : String) : Held := { pack := exExtPack id, order := [.forwardPending] }

/-- The answer of the router: send to one neighbour and delete. -/
def exExtResponse (bp : Held) : Response :=
  { bp, clas := [{ remote := .ipv4 "10.0.0.2", port := none, agent := "mtcp", nextHop := .dtn "n2" "" }, 
      { remote := .ipv4 "10.0.0.3", port := some 7, agent := "lora", nextHop := .dtn "n3" "" }], delete := true }

/-- The running layers. -/
def exExtRunning : List Cla := [{ name := "mtcp", port := 16162 }]

/-- A router connects. -/
def exExtConnect : List Ev := [.connect, .proceed 0, .proceed 0, .proceed 0]

/-- Request `i` runs until it waits. -/
def exExtUntilWaits (i : Nat) : List Ev := [.run i [], .run i [], .run i []]

/-- Request `i` takes the response. -/
def exExtFinish (i : Nat) : List Ev := [.run i exExtRunning, .run i exExtRunning, .run i exExtRunning]

/-- Two requests for different bundles, answered in reverse order. -/
def exExtRun : List Ev :=
  exExtConnect ++ [.ask (exExt "a"), .ask (exExt "b")] ++ exExtUntilWaits 0 ++ exExtUntilWaits 1 ++
  [.response 0 (exExtResponse (exExt "b")), .response 0 (exExtResponse (exExt "a"))] ++ exExtFinish 0 ++ exExtFinish 1

/-! ## C39 -/

/-- C39: whatever happens, every answer either names no peers and asks for no deletion, or it says what one response
said: a response that named this request's bundle and constraints and that was read after the request was made. No two
requests are answered from the same response. -/
theorem C39_answers_from_own_response (evs : List Ev) (s : State) (h : After evs s) :
    ∃ src : Nat → Nat,
      (∀ i a, Answered s i a → ¬ NoPeers a → ∃ bp r c before after running, Asked s i bp ∧
        evs = before ++ .response c r :: after ∧ (received before).length = src i ∧
        (∃ s0 q, After before s0 ∧ Asked s0 i q) ∧ Names r bp.pack ∧ Ev.run i running ∈ evs ∧ Says running r a) ∧
      ∀ i j a b, Answered s i a → Answered s j b → ¬ NoPeers a → ¬ NoPeers b → src i = src j → i = j := by
  have I := inv_run evs s h
  let src : Nat → Nat := fun i => match s.reqs[i]? with
    | some { slot := .value k, .. } => k
    | _ => 0
  have hsrc : ∀ (i : Nat) (q : Req) k, s.reqs[i]? = some q → q.slot = .value k → src i = k := by
    intro i q k hq hk
    obtain ⟨bp, pc, slot⟩ := q
    simp only at hk
    subst hk
    simp only [src, hq]
  have key : ∀ i a, Answered s i a → ¬ NoPeers a → ∃ q k r running, s.reqs[i]? = some q ∧ q.slot = .value k ∧
      s.inbox[k]? = some r ∧ r.bp.print = q.bp.print ∧ a = unpack running r ∧ Ev.run i running ∈ evs := by
    intro i a ha hn
    obtain ⟨q, hq, -, h2⟩ := I.ans i a ha
    rcases h2 with rfl | ⟨k, r, running, h3⟩
    · exact absurd ⟨rfl, rfl⟩ hn
    · exact ⟨q, k, r, running, hq, h3⟩
  refine ⟨src, ?_, ?_⟩
  · intro i a ha hn
    obtain ⟨q, k, r, running, hq, hs, hr, hp, rfl, hrun⟩ := key i a ha hn
    obtain ⟨-, e1, c, r', e2, he, hlen, ⟨s0, hs0, hi⟩, -, hv⟩ := (I.req i q hq).origin k hs
    have : r' = r := by
      have hin := I.inbox
      rw [he, received_append] at hin
      rw [hin, List.getElem?_append_right (by omega), hlen] at hr
      simpa [received] using hr
    subst this
    refine ⟨q.bp, r', c, e1, e2, running, by simp [Asked, hq], he, by rw [hlen, hsrc i q k hq hs],
      ⟨s0, (s0.reqs[i]).bp, hs0, by simp [Asked, List.getElem?_eq_getElem hi]⟩,
      names_of_print hv (I.req i q hq).valid hp, hrun, says_unpack running r'⟩
  · intro i j a b ha hb hna hnb e
    obtain ⟨q, k, r, running, hq, hs, -⟩ := key i a ha hna
    obtain ⟨q', k', r', running', hq', hs', -⟩ := key j b hb hnb
    rw [hsrc i q k hq hs, hsrc j q' k' hq' hs'] at e
    subst e
    exact I.inj i j q q' k hq hq' hs hs'

/-- C39: every request is answered at most once, and an answer is never taken back. -/
theorem C39_answered_once (evs more : List Ev) (s t : State) (h : After evs s) (h' : External.run s more = some t) (i : Nat)
    (a b : Answer) (ha : Answered s i a) (hb : Answered t i b) : a = b := by
  have ht : After (evs ++ more) t := by
    unfold After at *
    rw [run_append, h]
    exact h'
  have I := inv_run _ t ht
  have ha' : (i, a) ∈ t.answers := (answers_run more h').subset ha
  have := List.inj_on_of_nodup_map I.once ha' hb rfl
  exact congrArg Prod.snd this

/-- C39: every request can always come to its end by its own steps and its timer, whatever the router does; at most
seven steps are left. -/
theorem C39_request_ends (evs : List Ev) (s : State) (h : After evs s) (i : Nat) (bp : Held) (hi : Asked s i bp) :
    ∃ es t a, (∀ e ∈ es, e = .run i [] ∨ e = .timer i) ∧ es.length ≤ 7 ∧ External.run s es = some t ∧ Answered t i a := by
  unfold Asked at hi
  cases hq : s.reqs[i]? with
  | none => rw [hq] at hi; cases hi
  | some q => exact ends 7 h i q hq (by cases q.pc <;> simp [rank])

/-- C39: a request made while no router is connected names no peers. -/
theorem C39_no_router_no_peers (s t : State) (i : Nat) (running : List Cla)
    (hi : (s.reqs[i]?).map Req.pc = some .start) (hc : ∀ c, s.connection ≠ some c) (ht : step s (.run i running) = some t) :
    ∃ a, Answered t i a ∧ NoPeers a := by
  cases hq : s.reqs[i]? with
  | none => rw [hq] at hi; cases hi
  | some q =>
    rw [hq] at hi
    have hpc : q.pc = .start := Option.some.inj hi
    have hn : s.connection.isNone = true := by
      cases hcon : s.connection with
      | none => rfl
      | some c => exact absurd hcon (hc c)
    simp only [step, State.runReq, hq, hpc, hn, if_true] at ht
    obtain rfl := Option.some.inj ht
    exact ⟨nothing, by simp [Answered, State.answer], rfl, rfl⟩

/-- C39: a response that names a waiting request's bundle decides that request, if the pack has at most one constraint
and no other request for the same bundle and constraints overlaps with it: those before are over, and none is made
before the response arrives. Missing: packs with several constraints and overlapping requests
(`C39_response_lost_violated`). -/
theorem C39_response_decides_partial (evs1 evs2 evs3 : List Ev) (s1 s2 s3 : State) (bp : Held) (i : Nat) (c : Nat)
    (r : Response) (a : Answer) (hi : i = s1.reqs.length) (hone : OneConstraint bp)
    (h1 : After evs1 s1) (hbefore : ∀ j q, Asked s1 j q → Alike q bp → ∃ b, Answered s1 j b)
    (h2 : After (evs1 ++ .ask bp :: evs2) s2) (hask : ∀ q, Ev.ask q ∈ evs2 → ¬ Alike q bp)
    (htimer : Ev.timer i ∉ evs2) (hresp : ∀ d q, Ev.response d q ∈ evs2 → ¬ Names q bp.pack)
    (hw : Waits s2 i) (hasked : Asked s2 i bp) (hn : Names r bp.pack)
    (h3 : After (evs1 ++ .ask bp :: evs2 ++ .response c r :: evs3) s3) (ha : Answered s3 i a) :
    ∃ running, Ev.run i running ∈ evs3 ∧ Says running r a := by
  obtain ⟨u, hu, h2'⟩ := run_append_some h2
  obtain rfl : s1 = u := by rw [h1] at hu; exact Option.some.inj hu
  obtain ⟨s1', hstep, h2''⟩ := run_cons h2'
  have I1 := inv_run evs1 s1 h1
  have I2 := inv_run _ s2 h2
  have hv : bp.valid = true := by
    unfold Asked at hasked
    cases hq : s2.reqs[i]? with
    | none => rw [hq] at hasked; cases hasked
    | some q =>
      rw [hq] at hasked
      obtain rfl := Option.some.inj hasked
      exact (I2.req i q hq).valid
  -- the request is added
  have hadd : s1'.reqs = s1.reqs ++ [{ bp := bp }] := by
    simp only [step, hv, if_true] at hstep
    by_cases hal : s1.alive = true
    · rw [if_pos hal] at hstep
      obtain rfl := Option.some.inj hstep
      rfl
    · rw [if_neg hal] at hstep
      obtain rfl := Option.some.inj hstep
      exfalso
      have := dead_run evs2 h1 (by simpa using hal) h2''
      unfold Waits at hw
      rw [List.getElem?_eq_none (by omega)] at hw
      cases hw
  have alike_of_print : ∀ q : Held, q.valid = true → q.print = bp.print → Alike q bp := by
    intro q hq e
    have := names_of_print (r := { bp := q, clas := [], delete := false }) hq hv e
    exact this
  have A1 : Alone s1' i bp := by
    constructor
    · refine ⟨{ bp := bp }, ?_, rfl, rfl⟩
      rw [hadd, hi]
      simp
    · intro j p hj hp hb
      rw [hadd] at hp
      have hlt : j < s1.reqs.length := by
        have := (List.getElem?_eq_some_iff.mp hp).1
        simp at this
        omega
      rw [List.getElem?_append_left hlt] at hp
      obtain ⟨b, hb'⟩ := hbefore j p.bp (by simp [Asked, hp]) (alike_of_print _ (I1.req j p hp).valid hb)
      obtain ⟨q, hq, hd, -⟩ := I1.ans j b hb'
      rw [hp] at hq
      obtain rfl := Option.some.inj hq
      exact hd
  have hrun1 : External.run {} (evs1 ++ [.ask bp]) = some s1' := run_snoc h1 hstep
  obtain ⟨va, vr⟩ := valid_run evs2 h2''
  have A2 : Alone s2 i bp := A1.run evs2 hrun1 h2'' (by
    intro e he
    refine ⟨?_, ?_, ?_⟩
    · rintro rfl; exact htimer he
    · rintro q rfl e; exact hask q he (alike_of_print q (va q he) e)
    · rintro d q rfl e; exact hresp d q he (names_of_print (vr d q he) hv e))
  obtain ⟨v, hv2, h3'⟩ := run_append_some h3
  obtain rfl : s2 = v := by
    have : After (evs1 ++ .ask bp :: evs2) v := hv2
    rw [After, h2] at this; exact Option.some.inj this
  obtain ⟨s2', hstep2, h3''⟩ := run_cons h3'
  obtain ⟨q, hq, hqb, hqs⟩ := A2.here
  have hqw : q.pc = .waiting := by
    unfold Waits at hw
    rw [hq] at hw
    exact Option.some.inj hw
  have hheld := I2.held i q hq hqs (.inr hqw)
  have hrv : r.bp.valid = true := (valid_run [.response c r] (s := s2) (t := s2') (by simp [External.run, hstep2])).2 c r (by simp)
  have hprint : r.bp.print = bp.print := print_of_alike hrv hv hone hn
  have S : Served [.response c r] s2' i s2.inbox.length r := by
    simp only [step] at hstep2
    split at hstep2
    · obtain rfl := Option.some.inj hstep2
      unfold State.takeResponse
      dsimp only
      rw [hprint, ← hqb, hheld]
      refine ⟨by simp, ⟨_, mod_getElem? hq, ?_⟩, ?_⟩
      · rw [if_pos rfl, if_pos hqs]
        exact ⟨rfl, by rw [hprint, ← hqb], .inl hqw⟩
      · intro b hb
        obtain ⟨p, hp, hd, -⟩ := I2.ans i b hb
        rw [hq] at hp
        obtain rfl := Option.some.inj hp
        rw [hqw] at hd
        cases hd
    · cases hstep2
  have S' := S.run evs3 (run_snoc h2 hstep2) h3''
  obtain ⟨running, hr1, rfl⟩ := S'.ans a ha
  refine ⟨running, ?_, says_unpack running r⟩
  simpa using hr1

/-- The state after a run of the examples. -/
def exExtAfter (evs : List Ev) : State := (External.run {} evs).getD {}

example : ∃ running, Ev.run 0 running ∈ exExtFinish 0 ∧ Says running (exExtResponse (exExt "a"))
    { clas := [{ tx := { name := "mtcp", port := 16162 }, dest := "10.0.0.2:16162", claName := "mtcp",
                 nextHop := .dtn "n2" "" }], delete := true } :=
  C39_response_decides_partial exExtConnect (exExtUntilWaits 0) (exExtFinish 0) (exExtAfter exExtConnect)
    (exExtAfter (exExtConnect ++ .ask (exExt "a") :: exExtUntilWaits 0))
    (exExtAfter (exExtConnect ++ .ask (exExt "a") :: exExtUntilWaits 0 ++
      .response 0 (exExtResponse (exExt "a")) :: exExtFinish 0)) (exExt "a") 0 0 (exExtResponse (exExt "a")) _
    (by decide +kernel) (by intro c d; cases c <;> cases d <;> decide) (by unfold After; decide +kernel)
    (by
      intro j q h
      have : (exExtAfter exExtConnect).reqs = [] := by decide +kernel
      simp [Asked, this] at h)
    (by unfold After; decide +kernel) (by simp [exExtUntilWaits]) (by simp [exExtUntilWaits]) (by simp [exExtUntilWaits])
    (by unfold Waits; decide +kernel) (by unfold Asked; decide +kernel) ⟨rfl, fun _ => rfl⟩
    (by unfold After; decide +kernel) (by unfold Answered; decide +kernel)

/-- The full claim that a response reaches the request it names. -/
def ResponseReachesRequest : Prop :=
  ∀ (evs : List Ev) (s s' : State) (i c : Nat) (bp : Held) (r : Response) (es : List Ev) (t : State) (a : Answer),
    After evs s → Waits s i → Asked s i bp → Names r bp.pack → step s (.response c r) = some s' →
    (∀ j, j ≠ i → Waits s j → ∀ q, Asked s j q → ¬ Names r q.pack) →
    External.run s' es = some t → (∀ d q, Ev.response d q ∉ es) → Answered t i a → ∃ running, Says running r a

/-- A pack with two constraints, printed in either order. -/
def exExtTwo (order : List Constraint) : Held :=
  { pack := { exExtPack "a" with constraints := { forwardPending := true, localEndpoint := true } }, order }

/-- C39 is false for packs with two constraints: the response contains the same set of constraints, but the set built from
it iterates in another order, so the response is not matched with the request and the request times out. -/
theorem C39_response_lost_violated : ¬ ResponseReachesRequest := by
  intro H
  have h1 : External.run {} (exExtConnect ++ [.ask (exExtTwo [.forwardPending, .localEndpoint])] ++ exExtUntilWaits 0) =
      some ((External.run {} (exExtConnect ++ [.ask (exExtTwo [.forwardPending, .localEndpoint])] ++ exExtUntilWaits 0)).getD
        {}) := by decide +kernel
  generalize hs : (External.run {} (exExtConnect ++ [.ask (exExtTwo [.forwardPending, .localEndpoint])] ++
    exExtUntilWaits 0)).getD {} = s at h1
  have h2 : step s (.response 0 (exExtResponse (exExtTwo [.localEndpoint, .forwardPending]))) =
      some ((step s (.response 0 (exExtResponse (exExtTwo [.localEndpoint, .forwardPending])))).getD {}) := by
    rw [← hs]; decide +kernel
  generalize hs' : (step s (.response 0 (exExtResponse (exExtTwo [.localEndpoint, .forwardPending])))).getD {} = s' at h2
  have h3 : External.run s' [.timer 0, .run 0 exExtRunning, .run 0 exExtRunning] =
      some ((External.run s' [.timer 0, .run 0 exExtRunning, .run 0 exExtRunning]).getD {}) := by
    rw [← hs', ← hs]; decide +kernel
  obtain ⟨running, hsay⟩ := H _ s s' 0 0 (exExtTwo [.forwardPending, .localEndpoint])
    (exExtResponse (exExtTwo [.localEndpoint, .forwardPending])) _ _ nothing h1 (by rw [← hs]; unfold Waits; decide +kernel)
    (by rw [← hs]; unfold Asked; decide +kernel) ⟨rfl, fun _ => rfl⟩ h2
    (by
      intro j hj hw
      exfalso
      unfold Waits at hw
      have : s.reqs.length = 1 := by rw [← hs]; decide +kernel
      rw [List.getElem?_eq_none (by omega)] at hw
      cases hw) h3 (by simp) (by rw [← hs', ← hs]; unfold Answered; decide +kernel)
  exact absurd hsay.2 (by decide)

/-- Two requests for the same bundle overlap: the second takes over the channel, the first gives up and removes it again,
and so the router's response reaches neither. -/
def exExtOverlap : List Ev :=
  exExtConnect ++ [.ask (exExt "a"), .ask (exExt "a")] ++ exExtUntilWaits 0 ++ exExtUntilWaits 1 ++
  [.run 0 exExtRunning, .run 0 exExtRunning, .run 0 exExtRunning, .response 0 (exExtResponse (exExt "a"))]

/-- C39 is false when two requests for one bundle overlap: both end without peers although the router's response was read
before any timer fired. -/
theorem C39_overlap_violated : ∃ (evs : List Ev) (s : State) (r : Response) (c : Nat), After evs s ∧
    (∀ i, Ev.timer i ∉ evs) ∧ Ev.response c r ∈ evs ∧ r.clas ≠ [] ∧
    (∀ i bp, Asked s i bp → Names r bp.pack ∧ ∃ a, Answered s i a ∧ NoPeers a) ∧ ∃ bp, Asked s 1 bp := by
  have h1 : External.run {} (exExtOverlap ++ exExtFinish 1) =
      some ((External.run {} (exExtOverlap ++ exExtFinish 1)).getD {}) := by decide +kernel
  generalize hs : (External.run {} (exExtOverlap ++ exExtFinish 1)).getD {} = s at h1
  refine ⟨_, s, exExtResponse (exExt "a"), 0, h1, ?_, by decide +kernel, by decide, ?_, exExt "a",
    by rw [← hs]; unfold Asked; decide +kernel⟩
  · intro i
    simp [exExtOverlap, exExtConnect, exExtUntilWaits, exExtFinish]
  · intro i bp hb
    have hlen : s.reqs.length = 2 := by rw [← hs]; decide +kernel
    have hall : ∀ q ∈ s.reqs, q.bp = exExt "a" := by rw [← hs]; decide +kernel
    unfold Asked at hb
    cases hq : s.reqs[i]? with
    | none => rw [hq] at hb; cases hb
    | some q =>
      rw [hq] at hb
      obtain rfl := Option.some.inj hb
      rw [hall q (List.mem_of_getElem? hq)]
      refine ⟨⟨rfl, fun _ => rfl⟩, nothing, ?_, rfl, rfl⟩
      have hi := (List.getElem?_eq_some_iff.mp hq).1
      rw [hlen] at hi
      have : i = 0 ∨ i = 1 := by omega
      rcases this with rfl | rfl <;> (rw [← hs]; unfold Answered; decide +kernel)

example : ((External.run {} exExtRun).map State.answers) = some
    [(0, { clas := [{ tx := { name := "mtcp", port := 16162 }, dest := "10.0.0.2:16162", claName := "mtcp",
                      nextHop := .dtn "n2" "" }], delete := true }),
     (1, { clas := [{ tx := { name := "mtcp", port := 16162 }, dest := "10.0.0.2:16162", claName := "mtcp",
                      nextHop := .dtn "n2" "" }], delete := true })] := by decide +kernel

example : OneConstraint (exExt "a") := by intro c d; cases c <;> cases d <;> decide

/-! ## C65 -/

/-- C65 is false for external routing: the notification about a neighbour that has been removed from the peer table in the
meantime stops the agent, so a later request is never answered. -/
theorem C65_dropped_neighbour_stops_external_violated : ∃ (s : State), After
    [.notify (.encounteredPeer (.dtn "n1" "")) none, .ask (exExt "a")] s ∧ s.reqs = [] ∧ s.answers = [] :=
  ⟨_, rfl, rfl, rfl⟩

/-- C65 for external routing: as long as every notified neighbour is a named node still in the peer table and the agent is
not shut down, a request is taken up (and ends, see `C39_request_ends`). Missing:
`C65_dropped_neighbour_stops_external_violated`. -/
theorem C65_external_takes_requests_partial (evs : List Ev) (s : State) (h : After evs s) (hs : Ev.shutdown ∉ evs)
    (henc : ∀ e p, Ev.notify (.encounteredPeer e) p ∈ evs → e.node ≠ none ∧ p ≠ none)
    (hdrop : ∀ e p, Ev.notify (.droppedPeer e) p ∈ evs → e.node ≠ none) (bp : Held) (hv : bp.valid = true) :
    ∃ t, step s (.ask bp) = some t ∧ Asked t s.reqs.length bp := by
  have alive : s.alive = true := by
    induction evs using List.reverseRecOn generalizing s with
    | nil => obtain rfl := Option.some.inj h; rfl
    | append_singleton evs e ih =>
      obtain ⟨u, h1, h2⟩ := run_append_some h
      obtain ⟨w, hw1, h4⟩ := run_cons h2
      obtain rfl : w = s := Option.some.inj h4
      have hal := ih u h1 (fun hm => hs (by simp [hm])) (fun e p hm => henc e p (by simp [hm]))
        (fun e p hm => hdrop e p (by simp [hm]))
      rcases alive_step hw1 with e | rfl | ⟨x, p, rfl, hx⟩ | ⟨x, p, rfl, hx⟩
      · exact e.trans hal
      · exact absurd (by simp) hs
      · obtain ⟨h5, h6⟩ := henc x p (by simp)
        rcases hx with hx | hx
        · exact absurd hx h5
        · exact absurd hx h6
      · exact absurd hx (hdrop x p (by simp))
  exact ⟨{ s with reqs := s.reqs ++ [{ bp }] }, by simp [step, hv, alive], by simp [Asked]⟩

/-! ## C73 -/

/-- C73: while a router is recorded, another one that connects is refused. -/
theorem C73_second_router_refused (s t : State) (c : Nat) (hc : s.connection = some c) (h : step s .connect = some t) :
    (t.conns[s.conns.length]?).map Conn.phase = some .refused ∧ t.connection = some c := by
  obtain rfl := Option.some.inj h
  simp [hc]

/-- C73: at most one router is served at a time, as long as no two routers connect at the same moment. Missing:
`C73_two_routers_violated`. -/
theorem C73_one_router_partial (evs : List Ev) (s : State) (h : After evs s) (ho : OneAtATime evs) (c d : Nat)
    (hc : Router s c) (hd : Router s d) : c = d := by
  have C := connInv_run evs s h ho
  have key : ∀ e, Router s e → s.connection = some e := by
    intro e he
    unfold Router at he
    simp only [List.mem_cons, List.not_mem_nil, or_false] at he
    rcases he with he | he | he
    · exact C.recd e _ he (by simp)
    · exact C.recd e _ he (by simp)
    · exact C.recd e _ he (by simp)
  exact Option.some.inj ((key c hc).symm.trans (key d hd))

/-- C73: once the router is gone, the next one that connects is accepted, as long as no two routers connect at the same
moment and no router sends binary data that is no text. Missing: `C73_slot_lost_violated`. -/
theorem C73_next_router_accepted_partial (evs : List Ev) (s t : State) (h : After evs s) (ho : OneAtATime evs)
    (hb : ∀ c, Ev.binary c ∉ evs) (hgone : ∀ c, ¬ Router s c) (ht : step s .connect = some t) :
    (t.conns[s.conns.length]?).map Conn.phase = some .accepted := by
  have C := connInv_run evs s h ho
  have hn : s.connection = none := by
    cases hc : s.connection with
    | none => rfl
    | some c =>
      obtain ⟨p, h1, h2⟩ := C.back c hc
      exfalso
      rcases h2 with rfl | rfl | rfl | rfl
      · exact hgone c (by simp [Router, h1])
      · exact hgone c (by simp [Router, h1])
      · exact hgone c (by simp [Router, h1])
      · exact crashed_only_binary evs hb s h c h1
  obtain rfl := Option.some.inj ht
  simp [hn]

/-- C73 is false: two routers that connect at the same moment both pass the check and are both served. -/
theorem C73_two_routers_violated : ∃ evs s, After evs s ∧ Router s 0 ∧ Router s 1 :=
  ⟨[.connect, .connect, .proceed 0, .proceed 1], _, rfl, by simp [Router, State.setPhase],
    by simp [Router, State.setPhase]⟩

/-- C73 is false: after a router sent binary data that is no text its connection is over, but it stays recorded and every
router after it is refused. -/
theorem C73_slot_lost_violated : ∃ evs s, After evs s ∧ OneAtATime evs ∧ (∀ c, ¬ Router s c) ∧
    ∀ t, step s .connect = some t → (t.conns[s.conns.length]?).map Conn.phase = some .refused := by
  have h1 : External.run {} (exExtConnect ++ [.binary 0]) =
      some ((External.run {} (exExtConnect ++ [.binary 0])).getD {}) := by decide +kernel
  generalize hs : (External.run {} (exExtConnect ++ [.binary 0])).getD {} = s at h1
  refine ⟨_, s, h1, ?_, ?_, ?_⟩
  · intro pre post u he hu k hk
    have : pre = [] := by
      rcases pre with _ | ⟨x, pre⟩
      · rfl
      · exfalso
        have := congrArg List.tail he
        simp [exExtConnect] at this
        have hm : Ev.connect ∈ [Ev.proceed 0, .proceed 0, .proceed 0, .binary 0] := by rw [this]; simp
        simp at hm
    subst this
    obtain rfl := Option.some.inj hu
    simp at hk
  · intro c hc
    have hlen : s.conns.map Conn.phase = [.crashed] := by rw [← hs]; decide +kernel
    unfold Router at hc
    rw [← List.getElem?_map, hlen] at hc
    match c with
    | 0 => simp at hc
    | c + 1 => simp at hc
  · intro t ht
    obtain rfl := Option.some.inj ht
    have : s.connection = some 0 := by rw [← hs]; decide +kernel
    simp [this]

example : OneAtATime exExtConnect ∧ ∃ s, After exExtConnect s ∧ Router s 0 := by
  refine ⟨?_, _, rfl, by simp [Router, State.setPhase, State.send]⟩
  intro pre post u he hu k hk
  have : pre = [] := by
    rcases pre with _ | ⟨x, pre⟩
    · rfl
    · exfalso
      have := congrArg List.tail he
      simp [exExtConnect] at this
      have hm : Ev.connect ∈ [Ev.proceed 0, .proceed 0, .proceed 0] := by rw [this]; simp
      simp at hm
  subst this
  obtain rfl := Option.some.inj hu
  simp at hk

end Dtn.Props
