import Verif.Lemmas.Ping
/-!
Property C124: the ping program.
-/

namespace Dtn.Props
open EchoPing Spec.PingSpec

/-! ## C124 -/

/-- C124: asked for a positive number of pings, the program ends only after it has written that number, has had a bundle or a timeout for
each, and its exit code tells whether a bundle came for each. -/
theorem C124_ends (count : Int) (hs : List Heard) (hok : Sound hs) (c : Nat) (h : (Ping.run count hs).1.exit = some c) :
    0 < count ∧ (pingsSeen (Ping.run count hs).2 : Int) = count ∧
    pingsSeen (Ping.run count hs).2 = bundlesSeen (Ping.run count hs).2 + timeoutsSeen (Ping.run count hs).2 ∧
    (c = 0 ↔ timeoutsSeen (Ping.run count hs).2 = 0) ∧ (c ≠ 0 → c = 1) := by
  obtain ⟨h1, h2, h3, h4⟩ := (PingInv.run count hs hok).ends c h
  refine ⟨h1, h2, h3, ?_, ?_⟩
  · rw [h4]
    split
    · simp; omega
    · simp; omega
  · rw [h4]
    split <;> simp

/-- C124: until then it waits for the answer to the ping it wrote last; it never writes a ping before the last one is answered or given up, and
never more pings than asked for. -/
theorem C124_one_at_a_time (count : Int) (hs : List Heard) (hok : Sound hs) (h : (Ping.run count hs).1.exit = none) :
    pingsSeen (Ping.run count hs).2 = bundlesSeen (Ping.run count hs).2 + timeoutsSeen (Ping.run count hs).2 + 1 ∧
    (0 < count → (pingsSeen (Ping.run count hs).2 : Int) ≤ count) :=
  ((PingInv.run count hs hok).waits h).2

/-- C124: the program ends as soon as it has heard a bundle or a timeout for each of the pings. -/
theorem C124_terminates (count : Nat) (hpos : 0 < count) (hs : List Heard) (hok : Sound hs)
    (hmany : count ≤ hs.countP fun h => match h with | .bundle _ | .timeout => true | _ => false) : ((Ping.run count hs).1.exit).isSome := by
  -- while it runs, everything heard is seen
  have key : ∀ hs : List Heard, Sound hs → (Ping.run count hs).1.exit = none →
      bundlesSeen (Ping.run count hs).2 + timeoutsSeen (Ping.run count hs).2 =
        hs.countP fun h => match h with | .bundle _ | .timeout => true | _ => false := by
    intro hs hok hx
    induction hs using List.reverseRecOn with
    | nil =>
      unfold Ping.run Ping.send
      simp only [List.foldl_nil, List.countP_nil]
      split
      · rfl
      · split <;> rfl
    | append_singleton hs h ih =>
      rw [Ping.run_snoc] at hx ⊢
      have hok' : Sound hs := ⟨fun hm => hok.1 (List.mem_append_left _ hm), fun hm => hok.2 (List.mem_append_left _ hm)⟩
      have hx0 : (Ping.run count hs).1.exit = none := by
        cases he : (Ping.run count hs).1.exit with
        | none => rfl
        | some c => unfold Ping.round at hx; simp [he] at hx
      have := ih hok' hx0
      rw [List.countP_append, ← this]
      unfold Ping.round
      simp only [hx0, Option.isSome_none, Bool.false_eq_true, if_false]
      rw [bundlesSeen_append, bundlesSeen_append, timeoutsSeen_append, timeoutsSeen_append]
      have z : ∀ p : Ping, bundlesSeen (p.send count).2 = 0 ∧ timeoutsSeen (p.send count).2 = 0 := by
        intro p; unfold Ping.send; split
        · exact ⟨rfl, rfl⟩
        · dsimp only; split <;> exact ⟨rfl, rfl⟩
      rw [(z _).1, (z _).2]
      cases h with
      | text => rfl
      | other => rfl
      | broken => exact absurd (by simp) hok.1
      | timeout =>
        change _ + 0 + 0 + (_ + 1 + 0) = _ + 1
        omega
      | bundle d =>
        cases d with
        | none => exact absurd (by simp) hok.2
        | some d =>
          change _ + 1 + 0 + (_ + 0 + 0) = _ + 1
          omega
  cases hx : (Ping.run count hs).1.exit with
  | some c => rfl
  | none =>
    exfalso
    have h1 := C124_one_at_a_time count hs hok hx
    have h2 := key hs hok hx
    have h3 := h1.2 (by omega)
    omega

example : Sound [.text, .bundle (some ⟨"b", "dtn://a/echo", "dtn://n/ping", [1]⟩), .other, .timeout] ∧
    (Ping.run 2 [.text, .bundle (some ⟨"b", "dtn://a/echo", "dtn://n/ping", [1]⟩), .other, .timeout]).1.exit = some 1 ∧
    (Ping.run 2 [.text, .bundle (some ⟨"b", "dtn://a/echo", "dtn://n/ping", [1]⟩)]).1.exit = none ∧
    (Ping.run 2 [.bundle (some ⟨"b", "dtn://a/echo", "dtn://n/ping", [1]⟩), .bundle (some ⟨"c", "dtn://a/echo", "dtn://n/ping", [1]⟩)]).1.exit = some 0 := by
  unfold Sound; decide +kernel

/-- C124, as long as no read times out: if each bundle answers a ping written before and no two answer the same one, then the program
reports each bundle for the ping that it answers. Missing: `C124_late_violated`, `C124_any_bundle_violated`. -/
theorem C124_matched_partial (count : Int) (hs : List Heard) (hok : Sound hs) (ht : Heard.timeout ∉ hs) (which : RecvData → Nat)
    (ha : Answers which (Ping.run count hs).2) :
    (bundlesOf (Ping.run count hs).2).map which = printedFor (Ping.run count hs).2 := by
  have key : ∀ pre : List Heard, pre <+: hs →
      (bundlesOf (Ping.run count pre).2).map which = List.range' 1 (bundlesSeen (Ping.run count pre).2) ∧
      printedFor (Ping.run count pre).2 = List.range' 1 (bundlesSeen (Ping.run count pre).2) ∧
      (Ping.run count pre).2 <+: (Ping.run count hs).2 := by
    intro pre hpre
    -- what is seen of a prefix is seen of the whole
    have hseen : (Ping.run count pre).2 <+: (Ping.run count hs).2 := by
      obtain ⟨post, rfl⟩ := hpre
      clear ha hok ht
      induction post using List.reverseRecOn with
      | nil => rw [List.append_nil]; exact List.prefix_refl _
      | append_singleton post h ih =>
        rw [← List.append_assoc, Ping.run_snoc]
        exact ih.trans (round_prefix _ _ _)
    refine ⟨?_, ?_, hseen⟩ <;> induction pre using List.reverseRecOn with
    | nil =>
      obtain ⟨e1, e2, e3, -⟩ := send_seen count {}
      first
        | (change (bundlesOf (Ping.send count {}).2).map which = List.range' 1 (bundlesSeen (Ping.send count {}).2); rw [e1, e3]; rfl)
        | (change printedFor (Ping.send count {}).2 = List.range' 1 (bundlesSeen (Ping.send count {}).2); rw [e2, e3]; rfl)
    | append_singleton pre h ih =>
      have hpre' : pre <+: hs := (List.prefix_append _ _).trans hpre
      have hokp : Sound pre := ⟨fun hm => hok.1 (hpre'.subset hm), fun hm => hok.2 (hpre'.subset hm)⟩
      have hseen' : (Ping.run count pre).2 <+: (Ping.run count hs).2 := by
        refine List.IsPrefix.trans ?_ hseen
        rw [Ping.run_snoc]; exact round_prefix _ _ _
      have ih := ih hpre' hseen'
      have inv := PingInv.run count pre hokp
      have hto := no_timeouts count pre fun hm => ht (hpre'.subset hm)
      rw [Ping.run_snoc] at hseen ⊢
      unfold Ping.round at hseen ⊢
      split
      · exact ih
      · rename_i hx
        rw [if_neg hx] at hseen
        have hx' : (Ping.run count pre).1.exit = none := by simpa using hx
        obtain ⟨-, w2, -⟩ := inv.waits hx'
        generalize hst : ((Ping.run count pre).1.hear h).send count = st at *
        have hz : bundlesOf st.2 = [] ∧ printedFor st.2 = [] ∧ bundlesSeen st.2 = 0 := by
          rw [← hst]; exact ⟨(send_seen count _).1, (send_seen count _).2.1, (send_seen count _).2.2.1⟩
        simp only [bundlesOf_append, printedFor_append, bundlesSeen_append, hz, List.append_nil, Nat.add_zero]
        cases h with
        | bundle d =>
          cases d with
          | none => exact absurd (hpre.subset (by simp)) hok.2
          | some d =>
            have hseq : (Ping.run count pre).1.seq = bundlesSeen (Ping.run count pre).2 + 1 := by rw [inv.seq, w2, hto]
            have e1 : bundlesOf ((Ping.run count pre).1.seen (.bundle (some d))) = [d] := rfl
            have e2 : printedFor ((Ping.run count pre).1.seen (.bundle (some d))) = [(Ping.run count pre).1.seq] := rfl
            have e3 : bundlesSeen ((Ping.run count pre).1.seen (.bundle (some d))) = 1 := rfl
            have e4 : (Ping.run count pre).1.seen (.bundle (some d)) = [.heard (.bundle (some d)), .reply (Ping.run count pre).1.seq] := rfl
            rw [e3, List.range'_concat]
            first
              | (rw [e2, ih, hseq]; simp; omega)
              | (rw [e1, List.map_append, ih]
                 congr 1
                 obtain ⟨post, hpost⟩ := hseen
                 obtain ⟨b1, b2⟩ := ha.before (Ping.run count pre).2 d (.reply (Ping.run count pre).1.seq :: st.2 ++ post) (by rw [← hpost, e4]; simp)
                 have hn := ha.once
                 rw [← hpost, bundlesOf_append, bundlesOf_append, bundlesOf_append, e1, List.map_append, List.map_append, List.map_append, ih] at hn
                 have hnot : which d ∉ List.range' 1 (bundlesSeen (Ping.run count pre).2) := by
                   intro hm
                   have h1 := (List.nodup_append.mp (List.nodup_append.mp (List.nodup_append.mp hn).1).1).2.2
                   exact h1 _ hm _ (by simp) rfl
                 rw [List.mem_range'_1] at hnot
                 simp only [List.map_cons, List.map_nil, Nat.one_mul, List.cons.injEq, and_true]
                 omega)
        | timeout => exact absurd (hpre.subset (by simp)) ht
        | broken => exact absurd (hpre.subset (by simp)) hok.1
        | text =>
          have e1 : bundlesOf ((Ping.run count pre).1.seen .text) = [] := rfl
          have e2 : printedFor ((Ping.run count pre).1.seen .text) = [] := rfl
          have e3 : bundlesSeen ((Ping.run count pre).1.seen .text) = 0 := rfl
          simp only [e1, e2, e3, List.append_nil, Nat.add_zero]; exact ih
        | other =>
          have e1 : bundlesOf ((Ping.run count pre).1.seen .other) = [] := rfl
          have e2 : printedFor ((Ping.run count pre).1.seen .other) = [] := rfl
          have e3 : bundlesSeen ((Ping.run count pre).1.seen .other) = 0 := rfl
          simp only [e1, e2, e3, List.append_nil, Nat.add_zero]; exact ih
  obtain ⟨h1, h2, -⟩ := key hs (List.prefix_refl _)
  rw [h1, h2]

/-- A reply from the echo service of node `a` to the ping program of node `n`. -/
def exPingReply (n : UInt8) : RecvData := ⟨"b", "dtn://a/echo", "dtn://n/ping", [n]⟩

/-- The number of the ping is in the payload. -/
def exPingWhich (d : RecvData) : Nat := (d.data.headD 0).toNat

theorem exPing_answers : Answers exPingWhich (Ping.run 2 [.text, .bundle (some (exPingReply 1)), .other, .bundle (some (exPingReply 2))]).2 := by
  refine ⟨fun pre d post h => ?_, by decide +kernel⟩
  have hs : (Ping.run 2 [.text, .bundle (some (exPingReply 1)), .other, .bundle (some (exPingReply 2))]).2 =
    [.ping 1, .heard .text, .heard (.bundle (some (exPingReply 1))), .reply 1, .ping 2, .heard .other, .heard (.bundle (some (exPingReply 2))), .reply 2] := by
    decide +kernel
  rw [hs] at h
  have hlen := congrArg List.length h
  rcases pre with _ | ⟨a1, _ | ⟨a2, _ | ⟨a3, _ | ⟨a4, _ | ⟨a5, _ | ⟨a6, _ | ⟨a7, _ | ⟨a8, pre⟩⟩⟩⟩⟩⟩⟩⟩ <;>
    simp only [List.nil_append, List.cons_append, List.cons.injEq, Seen.heard.injEq, Heard.bundle.injEq, Option.some.injEq, reduceCtorEq, false_and, and_false] at h
  · obtain ⟨rfl, rfl, rfl, rfl⟩ := h; decide +kernel
  · obtain ⟨rfl, rfl, rfl, rfl, rfl, rfl, rfl, rfl⟩ := h; decide +kernel
  · obtain ⟨-, -, -, -, -, -, -, -, h⟩ := h; simp at h

example : Sound [.text, .bundle (some (exPingReply 1)), .other, .bundle (some (exPingReply 2))] ∧
    printedFor (Ping.run 2 [.text, .bundle (some (exPingReply 1)), .other, .bundle (some (exPingReply 2))]).2 = [1, 2] := by
  unfold Sound; decide +kernel

/-- C124 is violated by replies that come after the timeout: the reply to the first ping is reported, and counted, as one to the second. -/
theorem C124_late_violated : ∃ (count : Int) (hs : List Heard) (which : RecvData → Nat), Sound hs ∧
    (∀ pre d post, (Ping.run count hs).2 = pre ++ .heard (.bundle (some d)) :: post → 1 ≤ which d ∧ which d ≤ pingsSeen pre) ∧
    ((bundlesOf (Ping.run count hs).2).map which).Nodup ∧
    (bundlesOf (Ping.run count hs).2).map which = [1] ∧ printedFor (Ping.run count hs).2 = [2] := by
  refine ⟨2, [.timeout, .bundle (some (exPingReply 1))], exPingWhich, by unfold Sound; decide +kernel, ?_, by decide +kernel, by decide +kernel, by decide +kernel⟩
  intro pre d post h
  have hs : (Ping.run 2 [.timeout, .bundle (some (exPingReply 1))]).2 =
    [.ping 1, .heard .timeout, .ping 2, .heard (.bundle (some (exPingReply 1))), .reply 2] := by decide +kernel
  rw [hs] at h
  rcases pre with _ | ⟨a1, _ | ⟨a2, _ | ⟨a3, _ | ⟨a4, _ | ⟨a5, pre⟩⟩⟩⟩⟩ <;>
    simp only [List.nil_append, List.cons_append, List.cons.injEq, Seen.heard.injEq, Heard.bundle.injEq, Option.some.injEq, reduceCtorEq, false_and, and_false] at h
  · obtain ⟨rfl, rfl, rfl, rfl, -⟩ := h; decide +kernel
  · obtain ⟨-, -, -, -, -, h⟩ := h; simp at h

/-- C124 is violated by bundles that answer nothing: whatever bundle reaches the endpoint of the program, from whomever and with whatever
payload, counts as a reply. -/
theorem C124_any_bundle_violated (d : RecvData) : (Ping.run 1 [.bundle (some d)]).1.exit = some 0 ∧ printedFor (Ping.run 1 [.bundle (some d)]).2 = [1] :=
  ⟨rfl, rfl⟩

/-- C124 is violated for the number zero (and negative numbers, of which -1 is the default): the program does not send none, it goes on for ever. -/
theorem C124_zero_violated (count : Int) (hc : count ≤ 0) (hs : List Heard) (hok : Sound hs) :
    (Ping.run count hs).1.exit = none ∧
    pingsSeen (Ping.run count hs).2 = bundlesSeen (Ping.run count hs).2 + timeoutsSeen (Ping.run count hs).2 + 1 := by
  have hx : (Ping.run count hs).1.exit = none := by
    cases h : (Ping.run count hs).1.exit with
    | none => rfl
    | some c => have := (C124_ends count hs hok c h).1; omega
  exact ⟨hx, (C124_one_at_a_time count hs hok hx).1⟩

example : Sound [.timeout, .timeout] ∧ pingsSeen (Ping.run 0 [.timeout, .timeout]).2 = 3 := by unfold Sound; decide +kernel

/-- C124, if nothing at all comes for as long as the timeout: the program gives up the ping. Missing: `C124_heartbeat_violated`. -/
theorem C124_timeout_partial (timeout now t : Nat) (h : Heard) (ms : List (Nat × Heard)) (h0 : 0 < timeout) (hlong : now + timeout ≤ t) :
    (hears timeout now ((t, h) :: ms)).head? = some .timeout := by
  have : 0 < (t - now) / timeout := Nat.div_pos (by omega) h0
  obtain ⟨k, hk⟩ := Nat.exists_eq_succ_of_ne_zero (Nat.pos_iff_ne_zero.mp this)
  simp only [hears, hk, List.replicate_succ, List.cons_append, List.head?_cons]

example : hears 10 0 [(3, .text), (35, .other)] = [.text, .timeout, .timeout, .timeout, .other] := by decide +kernel

/-- C124 is violated: the node asks its clients for a sign of life every five seconds, and each such message starts the wait anew. With a timeout
longer than that the program never gives up a ping that is not answered, however long it waits. -/
theorem C124_heartbeat_violated (timeout : Nat) (hlong : 5 < timeout) (count : Int) (n : Nat) :
    hears timeout 0 (heartbeats 5 n) = List.replicate n .other ∧
    pingsSeen (Ping.run count (hears timeout 0 (heartbeats 5 n))).2 = 1 ∧ (Ping.run count (hears timeout 0 (heartbeats 5 n))).1.exit = none := by
  have h1 : hears timeout 0 (heartbeats 5 n) = List.replicate n .other := by
    have := hears_heartbeats timeout 5 hlong (List.range n) 0 (by rw [List.length_range, List.range_eq_range'])
    simpa [heartbeats] using this
  refine ⟨h1, ?_⟩
  rw [h1]
  have h2 : ∀ n, Ping.run count (List.replicate n .other) = ({ seq := 1, ready := false }, .ping 1 :: List.replicate n (.heard .other)) := by
    intro n
    induction n with
    | zero =>
      have hc : ¬ (count > 0 ∧ ((0 : Nat) : Int) = count) := by rintro ⟨a, b⟩; omega
      simp only [List.replicate_zero, Ping.run, List.foldl_nil, Ping.send, Ping.turn, Option.isSome_none, Bool.false_eq_true, if_false, Bool.not_true, hc, if_true]
    | succ n ih =>
      rw [List.replicate_succ', Ping.run_snoc, ih]
      simp only [Ping.round, Ping.hear, Ping.seen, Ping.send, Ping.turn, Option.isSome_none, Bool.false_eq_true, if_false, Bool.not_false, if_true]
      simp [List.replicate_succ']
  rw [h2]
  refine ⟨?_, rfl⟩
  unfold pingsSeen
  rw [List.countP_cons]
  simp [List.countP_replicate]

end Dtn.Props
