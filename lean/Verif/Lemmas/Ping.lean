import Verif.Spec.Ping
import Mathlib.Data.List.Induction

namespace Dtn.EchoPing
open Spec.PingSpec

theorem pingsSeen_append (a b : List Seen) : pingsSeen (a ++ b) = pingsSeen a + pingsSeen b := List.countP_append
theorem bundlesSeen_append (a b : List Seen) : bundlesSeen (a ++ b) = bundlesSeen a + bundlesSeen b := List.countP_append
theorem timeoutsSeen_append (a b : List Seen) : timeoutsSeen (a ++ b) = timeoutsSeen a + timeoutsSeen b := List.countP_append

/-- The state between two reads. -/
structure PingInv (count : Int) (p : Ping) (l : List Seen) : Prop where
  seq : p.seq = pingsSeen l
  ok : p.ok = bundlesSeen l
  waits : p.exit = none → p.ready = false ∧ pingsSeen l = bundlesSeen l + timeoutsSeen l + 1 ∧ (0 < count → (pingsSeen l : Int) ≤ count)
  ends : ∀ c, p.exit = some c → 0 < count ∧ (pingsSeen l : Int) = count ∧ pingsSeen l = bundlesSeen l + timeoutsSeen l ∧
    c = if (bundlesSeen l : Int) < count then 1 else 0

theorem PingInv.send {count : Int} {p : Ping} {l : List Seen} (hx : p.exit = none) (hr : p.ready = true) (h1 : p.seq = pingsSeen l) (h2 : p.ok = bundlesSeen l)
    (h3 : pingsSeen l = bundlesSeen l + timeoutsSeen l) (h4 : 0 < count → (pingsSeen l : Int) ≤ count) :
    PingInv count (p.send count).1 (l ++ (p.send count).2) := by
  unfold Ping.send Ping.turn
  simp only [hx, Option.isSome_none, Bool.false_eq_true, if_false, hr, Bool.not_true]
  by_cases hc : count > 0 ∧ (p.seq : Int) = count
  · simp only [hc, if_true, and_self, Bool.false_eq_true, if_false, List.append_nil]
    exact ⟨h1, h2, fun h => by simp at h, fun c hcc => by
      simp only [Option.some.injEq] at hcc
      exact ⟨hc.1, by rw [← h1]; exact hc.2, h3, by rw [← hcc, h2]⟩⟩
  · simp only [hc, if_false, if_true]
    have e1 : pingsSeen (l ++ [Seen.ping (p.seq + 1)]) = pingsSeen l + 1 := by rw [pingsSeen_append]; rfl
    have e2 : bundlesSeen (l ++ [Seen.ping (p.seq + 1)]) = bundlesSeen l := by rw [bundlesSeen_append]; rfl
    have e3 : timeoutsSeen (l ++ [Seen.ping (p.seq + 1)]) = timeoutsSeen l := by rw [timeoutsSeen_append]; rfl
    refine ⟨?_, ?_, fun _ => ⟨rfl, ?_, fun h0 => ?_⟩, fun c h => by cases h⟩
    · rw [e1, h1]
    · rw [e2, h2]
    · rw [e1, e2, e3, h3]
    · rw [e1]
      have := h4 h0
      have hne : (p.seq : Int) ≠ count := fun h => hc ⟨h0, h⟩
      rw [h1] at hne
      omega

theorem PingInv.round {count : Int} {p : Ping} {l : List Seen} {h : Heard} (v : PingInv count p l) (hb : h ≠ .broken) (hn : h ≠ .bundle none) :
    PingInv count (Ping.round count (p, l) h).1 (Ping.round count (p, l) h).2 := by
  unfold Ping.round
  cases hx : p.exit with
  | some c => simpa [hx] using v
  | none =>
    obtain ⟨w1, w2, w3⟩ := v.waits hx
    simp only [Option.isSome_none, Bool.false_eq_true, if_false]
    have idle : ∀ h' : Heard, p.hear h' = p → p.seen h' = [.heard h'] → (bundlesSeen [.heard h'] = 0) → timeoutsSeen [.heard h'] = 0 →
        PingInv count ((p.hear h').send count).1 (l ++ p.seen h' ++ ((p.hear h').send count).2) := by
      intro h' e1 e2 e3 e4
      have : p.send count = (p, []) := by
        unfold Ping.send Ping.turn
        simp [hx, w1]
      rw [e1, e2, this, List.append_nil]
      have f1 : pingsSeen (l ++ [Seen.heard h']) = pingsSeen l := by rw [pingsSeen_append]; rfl
      have f2 : bundlesSeen (l ++ [Seen.heard h']) = bundlesSeen l := by rw [bundlesSeen_append, e3]; rfl
      have f3 : timeoutsSeen (l ++ [Seen.heard h']) = timeoutsSeen l := by rw [timeoutsSeen_append, e4]; rfl
      exact ⟨by rw [f1]; exact v.seq, by rw [f2]; exact v.ok, fun _ => by rw [f1, f2, f3]; exact ⟨w1, w2, w3⟩, fun c h => by rw [hx] at h; cases h⟩
    cases h with
    | text => exact idle .text rfl rfl rfl rfl
    | other => exact idle .other rfl rfl rfl rfl
    | broken => exact absurd rfl hb
    | timeout =>
      have f1 : pingsSeen (l ++ [Seen.heard .timeout]) = pingsSeen l := by rw [pingsSeen_append]; rfl
      have f2 : bundlesSeen (l ++ [Seen.heard .timeout]) = bundlesSeen l := by rw [bundlesSeen_append]; rfl
      have f3 : timeoutsSeen (l ++ [Seen.heard .timeout]) = timeoutsSeen l + 1 := by rw [timeoutsSeen_append]; rfl
      refine PingInv.send (p := p.hear .timeout) (l := l ++ [Seen.heard .timeout]) hx rfl ?_ ?_ ?_ ?_
      · rw [f1]; exact v.seq
      · rw [f2]; exact v.ok
      · rw [f1, f2, f3, w2]; omega
      · rw [f1]; exact w3
    | bundle d =>
      cases d with
      | none => exact absurd rfl hn
      | some d =>
        have e : p.seen (.bundle (some d)) = [.heard (.bundle (some d)), .reply p.seq] := rfl
        have f1 : pingsSeen (l ++ p.seen (.bundle (some d))) = pingsSeen l := by rw [e, pingsSeen_append]; rfl
        have f2 : bundlesSeen (l ++ p.seen (.bundle (some d))) = bundlesSeen l + 1 := by rw [e, bundlesSeen_append]; rfl
        have f3 : timeoutsSeen (l ++ p.seen (.bundle (some d))) = timeoutsSeen l := by rw [e, timeoutsSeen_append]; rfl
        refine PingInv.send (p := p.hear (.bundle (some d))) (l := l ++ p.seen (.bundle (some d))) hx rfl ?_ ?_ ?_ ?_
        · rw [f1]; exact v.seq
        · rw [f2]; change p.ok + 1 = _; rw [v.ok]
        · rw [f1, f2, f3, w2]; omega
        · rw [f1]; exact w3

theorem Ping.run_snoc (count : Int) (hs : List Heard) (h : Heard) : Ping.run count (hs ++ [h]) = Ping.round count (Ping.run count hs) h := by
  simp [Ping.run, List.foldl_append]

theorem PingInv.run (count : Int) (hs : List Heard) (hok : Sound hs) : PingInv count (Ping.run count hs).1 (Ping.run count hs).2 := by
  induction hs using List.reverseRecOn with
  | nil => exact PingInv.send (p := {}) (l := []) rfl rfl rfl rfl rfl (fun h => by simp [pingsSeen]; omega)
  | append_singleton hs h ih =>
    have v := ih ⟨fun hm => hok.1 (List.mem_append_left _ hm), fun hm => hok.2 (List.mem_append_left _ hm)⟩
    rw [Ping.run_snoc]
    exact v.round (fun e => hok.1 (by simp [e])) (fun e => hok.2 (by simp [e]))

theorem bundlesOf_append (a b : List Seen) : bundlesOf (a ++ b) = bundlesOf a ++ bundlesOf b := List.filterMap_append
theorem printedFor_append (a b : List Seen) : printedFor (a ++ b) = printedFor a ++ printedFor b := List.filterMap_append

theorem send_seen (count : Int) (p : Ping) : bundlesOf (p.send count).2 = [] ∧ printedFor (p.send count).2 = [] ∧ bundlesSeen (p.send count).2 = 0 ∧ timeoutsSeen (p.send count).2 = 0 := by
  unfold Ping.send; split
  · exact ⟨rfl, rfl, rfl, rfl⟩
  · dsimp only; split <;> exact ⟨rfl, rfl, rfl, rfl⟩

theorem round_prefix (count : Int) (s : Ping × List Seen) (h : Heard) : s.2 <+: (Ping.round count s h).2 := by
  unfold Ping.round
  split
  · exact List.prefix_refl _
  · exact ⟨s.1.seen h ++ ((s.1.hear h).send count).2, by simp⟩

theorem no_timeouts (count : Int) (hs : List Heard) (ht : Heard.timeout ∉ hs) : timeoutsSeen (Ping.run count hs).2 = 0 := by
  induction hs using List.reverseRecOn with
  | nil => exact (send_seen count {}).2.2.2
  | append_singleton hs h ih =>
    rw [Ping.run_snoc]
    have h0 := ih fun hm => ht (List.mem_append_left _ hm)
    unfold Ping.round
    split
    · exact h0
    · rw [timeoutsSeen_append, timeoutsSeen_append, h0, (send_seen count _).2.2.2]
      cases h with
      | timeout => exact absurd (by simp) ht
      | bundle d => cases d <;> rfl
      | _ => rfl

theorem hears_heartbeats (timeout period : Nat) (hp : period < timeout) (l : List Nat) (k : Nat) (hl : l = List.range' k l.length) :
    hears timeout (k * period) (l.map fun j => ((j + 1) * period, Heard.other)) = List.replicate l.length .other := by
  induction l generalizing k with
  | nil => rfl
  | cons j l ih =>
    simp only [List.length_cons, List.range'_succ, List.cons.injEq] at hl
    obtain ⟨rfl, hl⟩ := hl
    simp only [List.map_cons, hears, List.length_cons]
    have e1 : (j + 1) * period - j * period = period := by rw [Nat.add_mul]; omega
    have e2 : max (j * period) ((j + 1) * period) = (j + 1) * period := Nat.max_eq_right (Nat.mul_le_mul_right _ (by omega))
    rw [e1, e2, Nat.div_eq_of_lt hp, ih (j + 1) hl]
    rfl

end Dtn.EchoPing
