import Verif.Spec.EndToEnd
import Verif.Props.Tools
import Verif.Props.Queues
import Verif.Props.Dispatch
/-!
C106: a message from one application to another on the same node, with the command line tools.

`dtnsend` hands a bundle to the daemon, whose bundle processing (`Call.send`) then runs to its end, and `dtnrecv` fetches it. The
parts of the daemon are connected by the list of registered endpoints with what waits for them (`agents`), which is the same in
the model of bundle processing and in that of the HTTP interface.
-/

namespace Dtn.Props
open Spec Httpd Tools Proc

/-- Fetching with `dtnrecv` takes one waiting bundle after the other. -/
theorem afterRecv_waiting (x : Ext) (cfg : Cfg) (a : RecvArgs) (q : String) (e : EID) (verb : a.verb = .endpoint q)
    (plain : PlainText q) (names : NamesEndpoint x cfg.hostEid q e) (bs bs' : List Bundle) : ∀ w : Httpd.World, e ∈ endpoints w →
    waiting e w.apps = bs ++ bs' →
    waiting e (afterRecv x cfg a bs.length w).apps = bs' ∧ endpoints (afterRecv x cfg a bs.length w) = endpoints w := by
  induction bs with
  | nil => intro w _ hw; exact ⟨hw, rfl⟩
  | cons b bs ih =>
    intro w hr hw
    obtain ⟨h1, -, -, -, h5⟩ := C83_fetch x cfg w (RecvVerb.endpoint q).request q e rfl rfl (loopback_host cfg)
      (by simp [RecvVerb.request, RecvVerb.url, urlQuery_plain plain]) names
    obtain ⟨-, h2⟩ := h1 hr b (bs ++ bs') hw
    have hd : (dtnrecv x cfg w a true).1 = (serve x cfg w (RecvVerb.endpoint q).request).1 := by
      unfold dtnrecv; rw [verb]
    simp only [List.length_cons, afterRecv]
    rw [hd]
    generalize serve x cfg w (RecvVerb.endpoint q).request = res at h2 h5
    obtain ⟨h6, h7⟩ := ih res.1 (by rw [h5]; exact hr) h2
    exact ⟨h6, h7.trans h5⟩

theorem mem_endpoints_of_waiting {e : EID} {w : Httpd.World} {b : Bundle} (h : b ∈ waiting e w.apps) : e ∈ endpoints w := by
  unfold waiting at h
  split at h
  · rename_i a ha
    have := List.find?_some ha
    exact List.mem_map.mpr ⟨a, List.mem_of_find?_eq_some ha, by simpa using this⟩
  · cases h

/-- C106. Data sent with `dtnsend` from a registered (or anonymous) sender to a registered endpoint that no client has
subscribed to arrives: once the daemon has processed the bundle, and the bundles that waited before were fetched, `dtnrecv`
writes exactly this data. Bundles of at most 50 bytes are excluded (`C103_short_violated`). -/
theorem C106_message_arrives {cfg : Config} {clock : Nat} {n : Node} {tasks : List Prog} (x : SendExt) (hcfg : Cfg)
    (w : Httpd.World) (s : SendArgs) (env : SendEnv) (name : String) (src dst : EID) (cts : Nat × Nat) (data : Bytes)
    (r : RecvArgs) (q : String) (before : Reaches .any ⟨Node.start cfg clock, []⟩ ⟨n, tasks⟩)
    (sender : s.sender = some name ∨ (s.sender = none ∧ env.nodeId = some name)) (source : x.parseEid name = some src)
    (known : src = .none ∨ src ∈ n.agents.eids) (receiver : x.parseEid s.receiver = some dst) (stamp : env.cts = some cts)
    (input : env.input = some data) (real : s.dryrun = false) (registered : dst ∈ n.agents.eids)
    (unsubscribed : subscribedBy dst n = none) (verb : r.verb = .endpoint q) (plain : PlainText q)
    (names : NamesEndpoint x.toExt hcfg.hostEid q dst) (show_ : r.hex = false ∧ r.raw = false ∧ r.outfile = none) :
    ∃ b, b.primary.source = src ∧ b.primary.destination = dst ∧ HasPayload b data ∧
      (x.parseBundle (x.toCbor b) = some b → 50 < (x.toCbor b).length →
        (dtnsend x hcfg w s env).2.code = 0 ∧ (dtnsend x hcfg w s env).1.submitted = w.submitted ++ [b] ∧
        ∀ m w', Reaches .quiet ⟨n, [(Call.send b).prog]⟩ ⟨m, []⟩ → w'.apps.agents = m.agents →
          (dtnrecv x.toExt hcfg (afterRecv x.toExt hcfg r (waitingAt dst n).length w') r true).2 = ⟨[.bytes data], none, 0⟩) := by
  obtain ⟨hc, -, b, h1, h2, -, -, -, -, -, hf, hp, -, -, hs⟩ :=
    C105_submits_partial x hcfg w s env name src dst cts data sender source receiver stamp input
  refine ⟨b, h1, h2, hp, ?_⟩
  intro henc hlong
  refine ⟨hc, by rw [(hs real henc).1], ?_⟩
  intro m w' hrun hw'
  have hadm : b.isAdmin = false := by unfold Bundle.isAdmin; rw [hf]
  obtain ⟨hq, -, -⟩ := C102_delivered_once before (b := b) (.inr ⟨rfl, by rw [h1]; exact known⟩) (by rw [h2]; exact registered)
    (by rw [hadm]; intro h; cases h) hrun
  rw [h2] at hq
  have hq : waitingAt dst m = waitingAt dst n ++ [b] := by
    rcases hq with h | ⟨ch, h, -⟩
    · exact h
    · rw [unsubscribed] at h; cases h
  have hwait : waiting dst w'.apps = waitingAt dst n ++ [b] := by
    rw [← hq]; unfold waiting waitingAt; rw [hw']; cases m.agents.find? (fun a => decide (a.eid = dst)) <;> rfl
  have hreg : dst ∈ endpoints w' := mem_endpoints_of_waiting (b := b) (by rw [hwait]; simp)
  obtain ⟨h3, h4⟩ := afterRecv_waiting x.toExt hcfg r q dst verb plain names _ _ w' hreg hwait
  obtain ⟨-, -, -, h5, -⟩ := C103_fetch_partial x.toExt hcfg (afterRecv x.toExt hcfg r (waitingAt dst n).length w') r q dst b []
    verb plain names (by rw [h4]; exact hreg) h3 hlong henc
  obtain ⟨h6, h7, -⟩ := h5 data show_.1 show_.2.1 hp
  obtain ⟨h7, h8⟩ := h7 show_.2.2
  generalize (dtnrecv x.toExt hcfg (afterRecv x.toExt hcfg r (waitingAt dst n).length w') r true).2 = out at h6 h7 h8
  obtain ⟨o, f, c⟩ := out
  simp only at h6 h7 h8
  subst h6 h7 h8
  rfl

/-- A node that the sender and the receiver of the example belong to. -/
def exEndStart : Node := Node.start { Ex.cfg with hostEid := .dtn "n1" "" } 0

example : ∃ n tasks m w', Reaches .any ⟨exEndStart, []⟩ ⟨n, tasks⟩ ∧ EID.dtn "n1" "" ∈ n.agents.eids ∧
    EID.dtn "n1" "in" ∈ n.agents.eids ∧ subscribedBy (.dtn "n1" "in") n = none ∧ PlainText "in" ∧
    NamesEndpoint exSendExt.toExt exHttpCfg.hostEid "in" (.dtn "n1" "in") ∧
    exSendExt.parseBundle (exSendExt.toCbor exSent) = some exSent ∧ 50 < (exSendExt.toCbor exSent).length ∧
    Reaches .quiet ⟨n, [(Call.send exSent).prog]⟩ ⟨m, []⟩ ∧ w'.apps.agents = m.agents ∧
    (dtnrecv exSendExt.toExt exHttpCfg w' { verb := .endpoint "in" } true).2 = ⟨[.bytes [104, 105]], none, 0⟩ := by
  obtain ⟨n, ps, m, h1, h2, h3⟩ := exists_quiet (n := exEndStart) [.register (.dtn "n1" ""), .register (.dtn "n1" "in")]
    (fun _ => (Call.send exSent).prog) 80 (some (Ex.answer false)) true "r"
    (fun n m => decide (EID.dtn "n1" "" ∈ n.agents.eids ∧ EID.dtn "n1" "in" ∈ n.agents.eids ∧
      subscribedBy (.dtn "n1" "in") n = none ∧ m.agents = [{ eid := .dtn "n1" "" }, { eid := .dtn "n1" "in", queue := [exSent] }]))
    (by decide +kernel)
  obtain ⟨a1, a2, a3, a4⟩ := of_decide_eq_true h3
  refine ⟨n, ps, m, { apps := { store := MemStore.new, agents := m.agents } }, h1, a1, a2, a3, by unfold PlainText; decide, ?_, by decide +kernel,
    by decide +kernel, h2, rfl, ?_⟩
  · unfold NamesEndpoint; rw [if_pos ((validService_iff _).mp (by decide +kernel))]; rfl
  · rw [a4]; decide +kernel

/-- C105 is false as it stands: with the id of another node as sender, `dtnsend` says that the bundle was sent and ends with
code 0; the daemon drops it, and it is neither stored nor delivered nor transmitted. -/
theorem C105_foreign_violated : ∃ x hcfg w s env b, (dtnsend x hcfg w s env).2.code = 0 ∧
    .line "Result: Sent 60 bytes" ∈ (dtnsend x hcfg w s env).2.out ∧ (dtnsend x hcfg w s env).1.submitted = w.submitted ++ [b] ∧
    ∀ cfg clock n tasks m, Reaches .any ⟨Node.start cfg clock, []⟩ ⟨n, tasks⟩ → EID.dtn "n9" "" ∉ n.agents.eids →
      Reaches .quiet ⟨n, [(Call.send b).prog]⟩ ⟨m, []⟩ →
      m.store.getBundle b.id = none ∧ ∀ e ∈ newEvents n m, (∃ r, e = .report r) ∨ ∃ c, e = .removed b.id c := by
  let b : Bundle := { exSent with primary := { exSent.primary with bid := "dtn://n9/-5-0", source := .dtn "n9" "", reportTo := .dtn "n9" "" } }
  refine ⟨{ exSendExt with parseBundle := fun _ => some b }, exHttpCfg, exToolWorld, { exSendArgs with sender := some "dtn://n9/" },
    exSendEnv, b, by decide +kernel, by decide +kernel, by decide +kernel, ?_⟩
  intro cfg clock n tasks m before foreign run
  exact C13_foreign_source before ⟨by decide, foreign⟩ run

end Dtn.Props
