import Verif.Props.EndToEnd
import Verif.Props.Given
/-! C106 on a busy node. -/

namespace Dtn.Props
open Spec Httpd Tools Proc

/-- C106, whatever else the node does. Data sent with `dtnsend` to a registered endpoint arrives although other calls are going on
at the same time, in any order, if sender and receiver stay registered and nobody removes or replaces the stored bundle first: once the
node has come to rest, the bundle was passed to a client that has subscribed, or was fetched by a client, or one of the next runs of
`dtnrecv` writes exactly this data. -/
theorem C106_busy {cfg : Config} {clock : Nat} {n : Node} {tasks : List Prog} (x : SendExt) (hcfg : Cfg)
    (w : Httpd.World) (s : SendArgs) (env : SendEnv) (name : String) (src dst : EID) (cts : Nat × Nat) (data : Bytes)
    (r : RecvArgs) (q : String) (before : Reaches .any ⟨Node.start cfg clock, []⟩ ⟨n, tasks⟩)
    (sender : s.sender = some name ∨ (s.sender = none ∧ env.nodeId = some name)) (source : x.parseEid name = some src)
    (receiver : x.parseEid s.receiver = some dst) (stamp : env.cts = some cts)
    (input : env.input = some data) (real : s.dryrun = false) (verb : r.verb = .endpoint q) (plain : PlainText q)
    (names : NamesEndpoint x.toExt hcfg.hostEid q dst) (show_ : r.hex = false ∧ r.raw = false ∧ r.outfile = none) :
    ∃ b, b.primary.source = src ∧ b.primary.destination = dst ∧ HasPayload b data ∧ b.id = x.bundleId src cts.1 cts.2 ∧
      (x.parseBundle (x.toCbor b) = some b → 50 < (x.toCbor b).length →
        (dtnsend x hcfg w s env).2.code = 0 ∧ (dtnsend x hcfg w s env).1.submitted = w.submitted ++ [b] ∧
        ∀ m w', Throughout .any (fun u => Expected n b u ∧ (src = .none ∨ src ∈ u.agents.eids))
            ⟨n.log (.called (.send b)), tasks ++ [(Call.send b).prog]⟩ ⟨m, []⟩ → w'.apps.agents = m.agents →
          (∃ ch, .delivered dst b (some ch) ∈ newEvents n m) ∨ .popped dst b ∈ newEvents n m ∨
          ∃ k, k < (waitingAt dst m).length ∧
            (dtnrecv x.toExt hcfg (afterRecv x.toExt hcfg r k w') r true).2 = ⟨[.bytes data], none, 0⟩) := by
  obtain ⟨hc, -, b, h1, h2, -, -, -, hid, -, hf, hp, -, -, hs⟩ :=
    C105_submits_partial x hcfg w s env name src dst cts data sender source receiver stamp input
  refine ⟨b, h1, h2, hp, hid, ?_⟩
  intro henc hlong
  refine ⟨hc, by rw [(hs real henc).1], ?_⟩
  intro m w' hrun hw'
  have hadm : b.isAdmin = false := by unfold Bundle.isAdmin; rw [hf]
  obtain ⟨hserved, -⟩ := C127_submitted (b := b) before (by rw [hadm]; intro h; cases h) (by rw [h1]; exact hrun)
  obtain ⟨-, h | h | h⟩ := hserved
  · rw [h2] at h; exact .inl h
  · rw [h2] at h; exact .inr (.inl h)
  rw [h2] at h
  right; right
  obtain ⟨pre, post, hq⟩ := List.append_of_mem h
  refine ⟨pre.length, by rw [hq]; simp, ?_⟩
  have hwait : waiting dst w'.apps = pre ++ (b :: post) := by
    rw [← hq]; unfold waiting waitingAt; rw [hw']; cases m.agents.find? (fun a => decide (a.eid = dst)) <;> rfl
  have hreg : dst ∈ endpoints w' := mem_endpoints_of_waiting (b := b) (by rw [hwait]; simp)
  obtain ⟨h3, h4⟩ := afterRecv_waiting x.toExt hcfg r q dst verb plain names _ _ w' hreg hwait
  obtain ⟨-, -, -, h5, -⟩ := C103_fetch_partial x.toExt hcfg (afterRecv x.toExt hcfg r pre.length w') r q dst b post
    verb plain names (by rw [h4]; exact hreg) h3 hlong henc
  obtain ⟨h6, h7, -⟩ := h5 data show_.1 show_.2.1 hp
  obtain ⟨h7, h8⟩ := h7 show_.2.2
  generalize (dtnrecv x.toExt hcfg (afterRecv x.toExt hcfg r pre.length w') r true).2 = out at h6 h7 h8
  obtain ⟨o, f, c⟩ := out
  simp only at h6 h7 h8
  subst h6 h7 h8
  rfl

/-- A message is sent while another bundle is being processed, and waits in the end. -/
example : ∃ (n m : Node) (tasks : List Prog), Reaches .any ⟨exEndStart, []⟩ ⟨n, tasks⟩ ∧ tasks ≠ [] ∧
    Throughout .any (fun u => Expected n exSent u ∧ (exSent.primary.source = .none ∨ exSent.primary.source ∈ u.agents.eids))
      ⟨n.log (.called (.send exSent)), tasks ++ [(Call.send exSent).prog]⟩ ⟨m, []⟩ ∧ exSent ∈ waitingAt (.dtn "n1" "in") m := by
  obtain ⟨n, tasks, m, h1, h2, h3⟩ := exists_throughout (n := exEndStart)
    ([.register (.dtn "n1" ""), .register (.dtn "n1" "in"), .call (.receive Ex113.other)] ++ go 4) (Ex113.calling (.send exSent))
    (List.replicate 7 (.run 1 none true "r") ++ go 80)
    (fun n w => Ex127.expected exSent n w && decide (exSent.primary.source ∈ w.agents.eids))
    (fun s m => !s.pool.isEmpty && decide (exSent ∈ waitingAt (.dtn "n1" "in") m)) (by decide +kernel)
  simp only [Bool.and_eq_true, decide_eq_true_eq] at h3
  refine ⟨n, m, tasks, h1, by simpa using h3.1, h2.weaken ?_, h3.2⟩
  intro w h
  simp only [Bool.and_eq_true, decide_eq_true_eq] at h
  exact ⟨Ex127.expected_of h.1, .inr h.2⟩

end Dtn.Props
