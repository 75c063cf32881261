import Verif.Lemmas.Tools
import Verif.Props.Httpd
/-!
Properties of the command line tools: `dtnrecv`, `dtnsend`, `dtntrigger` and `dtnquery`.

The daemon runs on the same host and serves the request of the tool.
-/

namespace Dtn.Props
open Spec Httpd Tools

/-! ## C103: dtnrecv fetches -/

/-- C103 (part). `dtnrecv -e E` for a registered endpoint writes exactly the payload of the bundle that waits longest, to the
terminal or to the file that is asked for, and takes this bundle, and no other, from those waiting. `--raw` writes the whole
bundle and `--hex` prints it. Missing: bundles of at most 50 bytes and files that cannot be written
(`C103_short_violated`, `C103_file_violated`), and names that a URL changes. -/
theorem C103_fetch_partial (x : Ext) (cfg : Cfg) (w : World) (a : RecvArgs) (q : String) (e : EID) (b : Bundle) (bs : List Bundle)
    (verb : a.verb = .endpoint q) (plain : PlainText q) (names : NamesEndpoint x cfg.hostEid q e) (registered : e ∈ endpoints w)
    (first : waiting e w.apps = b :: bs) (long : 50 < (x.toCbor b).length) (encoded : x.parseBundle (x.toCbor b) = some b) :
    let res := dtnrecv x cfg w a true
    waiting e res.1.apps = bs ∧ (∀ e', e' ≠ e → waiting e' res.1.apps = waiting e' w.apps) ∧ endpoints res.1 = endpoints w ∧
    (∀ d, a.hex = false → a.raw = false → HasPayload b d →
      res.2.code = 0 ∧ (a.outfile = none → res.2.out = [.bytes d] ∧ res.2.file = none) ∧
        ∀ f, a.outfile = some f → res.2.file = some (f, d)) ∧
    (a.hex = false → a.raw = true →
      res.2.code = 0 ∧ (a.outfile = none → res.2.out = [.bytes (x.toCbor b)] ∧ res.2.file = none) ∧
        ∀ f, a.outfile = some f → res.2.file = some (f, x.toCbor b)) ∧
    (a.hex = true → res.2 = ⟨[.line (x.hexify (x.toCbor b))], none, 0⟩) := by
  dsimp only
  unfold dtnrecv
  rw [verb]
  obtain ⟨h1, -, -, h4, h5⟩ := C83_fetch x cfg w (RecvVerb.endpoint q).request q e rfl rfl (loopback_host cfg)
    (by simp [RecvVerb.request, RecvVerb.url, urlQuery_plain plain]) names
  obtain ⟨h1, h2⟩ := h1 registered b bs first
  rw [h1]
  have hfin : recvFinish x a true (answer (.data (x.toCbor b))) = showBundle x a true (x.toCbor b) := by
    simp only [answer, recvFinish, verb, if_neg (show ¬ (200 ≠ 200) by decide), if_pos (show (x.toCbor b).length > 50 from long)]
  dsimp only
  rw [hfin]
  have hw : ∀ d, (writeBytes d a.outfile a.verbose true).code = 0 ∧
      (a.outfile = none → (writeBytes d a.outfile a.verbose true).out = [.bytes d] ∧ (writeBytes d a.outfile a.verbose true).file = none) ∧
      ∀ f, a.outfile = some f → (writeBytes d a.outfile a.verbose true).file = some (f, d) := by
    intro d
    unfold writeBytes
    cases a.outfile with
    | none => simp
    | some f => simp
  refine ⟨h2, h4, h5, ?_, ?_, ?_⟩
  · intro d hx hr hd
    rw [showBundle_payload hx hr encoded hd]
    exact hw d
  · intro hx hr
    have : showBundle x a true (x.toCbor b) = writeBytes (x.toCbor b) a.outfile a.verbose true := by
      unfold showBundle
      rw [if_neg (by simp [hx]), if_pos hr]
    rw [this]
    exact hw _
  · intro hx
    unfold showBundle
    rw [if_pos hx]

/-- If nothing waits, or the endpoint is not registered, `dtnrecv -e E` outputs no bundle and no waiting bundle is lost. The exit
code tells the two cases apart. -/
theorem C103_nothing (x : Ext) (cfg : Cfg) (w : World) (a : RecvArgs) (q : String) (e : EID) (writable : Bool)
    (verb : a.verb = .endpoint q) (plain : PlainText q) (names : NamesEndpoint x cfg.hostEid q e) (quiet : a.verbose = false) :
    let res := dtnrecv x cfg w a writable
    (e ∈ endpoints w → waiting e w.apps = [] → res.2 = ⟨[], none, 0⟩ ∧ ∀ e', waiting e' res.1.apps = waiting e' w.apps) ∧
    (e ∉ endpoints w → res = (w, ⟨[], none, 23⟩)) := by
  dsimp only
  unfold dtnrecv
  rw [verb]
  obtain ⟨-, h2, h3, h4, -⟩ := C83_fetch x cfg w (RecvVerb.endpoint q).request q e rfl rfl (loopback_host cfg)
    (by simp [RecvVerb.request, RecvVerb.url, urlQuery_plain plain]) names
  generalize serve x cfg w (RecvVerb.endpoint q).request = res at h2 h3 h4 ⊢
  constructor
  · intro hr hn
    obtain ⟨h5, h6⟩ := h2 hr hn
    refine ⟨?_, ?_⟩
    · have hl : ("Nothing to receive".toList.flatMap String.utf8EncodeChar).length = 18 := by decide +kernel
      dsimp only
      rw [h5]
      simp only [answer, recvFinish, verb, if_neg (show ¬ (200 ≠ 200) by decide), hl, quiet, Bool.false_eq_true, if_false,
        if_neg (show ¬ (18 > 50) by decide)]
    · intro e'
      by_cases he : e' = e
      · subst he; rw [h6, hn]
      · exact h4 e' he
  · intro hr
    rw [h3 hr]
    simp [answer, recvFinish, quiet]

/-- A codec for examples: every bundle is encoded as `len` bytes. -/
def exToolExt (len : Nat) (b : Bundle) : Ext :=
  { exHttpExt with toCbor := fun _ => List.replicate len 1, parseBundle := fun bs => if bs = List.replicate len 1 then some b else none }

/-- A bundle with a payload for `dtn://n1/in`. -/
def exToolBundle : Bundle :=
  { primary := { bid := "t-1", source := .dtn "n2" "", destination := .dtn "n1" "in", reportTo := .none, creationTime := 5, lifetime := 9 }
    canonicals := [{ btype := 10, num := 2, data := .hopCount 32 0 }, { btype := 1, num := 1, data := .data [104, 105] }] }

def exToolWorld : World :=
  { apps := { store := MemStore.new.run [.push 5 exToolBundle], agents := [{ eid := .dtn "n1" "in", queue := [exToolBundle] }] } }

theorem exToolNames (len : Nat) : NamesEndpoint (exToolExt len exToolBundle) exHttpCfg.hostEid "in" (.dtn "n1" "in") := by
  unfold NamesEndpoint; rw [if_pos ((validService_iff _).mp (by decide +kernel))]; rfl

theorem exToolPayload : HasPayload exToolBundle [104, 105] := ⟨[_], _, [], rfl, by decide, rfl, rfl⟩

example : PlainText "in" ∧ NamesEndpoint (exToolExt 60 exToolBundle) exHttpCfg.hostEid "in" (.dtn "n1" "in") ∧
    EID.dtn "n1" "in" ∈ endpoints exToolWorld ∧ waiting (.dtn "n1" "in") exToolWorld.apps = exToolBundle :: [] ∧
    50 < ((exToolExt 60 exToolBundle).toCbor exToolBundle).length ∧
    (exToolExt 60 exToolBundle).parseBundle ((exToolExt 60 exToolBundle).toCbor exToolBundle) = some exToolBundle ∧
    HasPayload exToolBundle [104, 105] :=
  ⟨by unfold PlainText; decide, exToolNames 60, by decide, by decide, by decide, by simp [exToolExt], exToolPayload⟩

/-- C103 is false as it stands: a bundle whose encoding has 45 bytes is fetched, not written anywhere, and the exit code is 0. -/
theorem C103_short_violated : ∃ x cfg w a b e, a.verb = .endpoint "in" ∧ NamesEndpoint x cfg.hostEid "in" e ∧
    waiting e w.apps = [b] ∧ HasPayload b [104, 105] ∧ (x.toCbor b).length = 45 ∧ x.parseBundle (x.toCbor b) = some b ∧
    (dtnrecv x cfg w a true).2 = ⟨[], none, 0⟩ ∧ Gone b (dtnrecv x cfg w a true).1 := by
  refine ⟨exToolExt 45 exToolBundle, exHttpCfg, exToolWorld, { verb := .endpoint "in" }, exToolBundle, .dtn "n1" "in", rfl,
    exToolNames 45, by decide, exToolPayload, by decide, by simp [exToolExt], by decide +kernel, ?_, by decide +kernel⟩
  have : (dtnrecv (exToolExt 45 exToolBundle) exHttpCfg exToolWorld { verb := .endpoint "in" } true).1.apps.agents =
    [{ eid := .dtn "n1" "in" }] := by decide +kernel
  intro e
  unfold waiting
  rw [this]
  simp only [List.find?_cons, List.find?_nil]
  split <;> rename_i h
  · split at h
    · cases h; simp
    · cases h
  · simp

/-- C103 is false as it stands: if the file cannot be written the bundle is lost. -/
theorem C103_file_violated : ∃ x cfg w a b e, a.verb = .endpoint "in" ∧ NamesEndpoint x cfg.hostEid "in" e ∧
    waiting e w.apps = [b] ∧ HasPayload b [104, 105] ∧ (x.toCbor b).length = 60 ∧ x.parseBundle (x.toCbor b) = some b ∧
    (dtnrecv x cfg w a false).2 = ⟨[], none, 101⟩ ∧ Gone b (dtnrecv x cfg w a false).1 := by
  refine ⟨exToolExt 60 exToolBundle, exHttpCfg, exToolWorld, { verb := .endpoint "in", outfile := some "/f" }, exToolBundle,
    .dtn "n1" "in", rfl, exToolNames 60, by decide, exToolPayload, by decide, by simp [exToolExt], by decide +kernel, ?_,
    by decide +kernel⟩
  have : (dtnrecv (exToolExt 60 exToolBundle) exHttpCfg exToolWorld { verb := .endpoint "in", outfile := some "/f" } false).1.apps.agents =
    [{ eid := .dtn "n1" "in" }] := by decide +kernel
  intro e
  unfold waiting
  rw [this]
  simp only [List.find?_cons, List.find?_nil]
  split <;> rename_i h
  · split at h
    · cases h; simp
    · cases h
  · simp

/-- `dtnrecv -b ID` writes the payload of the stored bundle and changes nothing. -/
theorem C103_download (x : Ext) (cfg : Cfg) (w : World) (a : RecvArgs) (bid : String) (b : Bundle) (d : Bytes)
    (verb : a.verb = .bid bid) (plain : PlainText bid) (stored : w.apps.store.getBundle bid = some b)
    (long : 50 < (x.toCbor b).length) (encoded : x.parseBundle (x.toCbor b) = some b) (hd : HasPayload b d)
    (hx : a.hex = false) (hr : a.raw = false) :
    (dtnrecv x cfg w a true).1 = w ∧ (dtnrecv x cfg w a true).2.code = 0 ∧
    (a.outfile = none → (dtnrecv x cfg w a true).2.out = [.bytes d]) ∧
    ∀ f, a.outfile = some f → (dtnrecv x cfg w a true).2.file = some (f, d) := by
  unfold dtnrecv
  rw [verb, C83_download x cfg w (RecvVerb.bid bid).request bid rfl rfl
    (by simp [RecvVerb.request, RecvVerb.url, urlQuery_plain plain])]
  rw [stored]
  have hfin : recvFinish x a true (answer (.data (x.toCbor b))) = writeBytes d a.outfile a.verbose true := by
    simp only [answer, recvFinish, verb, if_neg (show ¬ (200 ≠ 200) by decide), if_pos (show (x.toCbor b).length > 50 from long)]
    exact showBundle_payload hx hr encoded hd
  dsimp only
  rw [hfin]
  unfold writeBytes
  cases a.outfile with
  | none => simp
  | some f => simp

example : exToolWorld.apps.store.getBundle "t-1" = some exToolBundle ∧ PlainText "t-1" := ⟨by decide, by unfold PlainText; decide⟩

/-! ## C104: dtnrecv registers, unregisters and deletes -/

/-- C104 (part). If `dtnrecv` says that it registered or unregistered an endpoint or deleted a bundle, and ends with code 0, this
is so: the endpoint is or is not registered, respectively the bundle was stored and no longer is. Missing: names that a URL
changes (`C104_name_violated`). -/
theorem C104_truth_partial (x : Ext) (cfg : Cfg) (w : World) (a : RecvArgs) (q : String) (writable : Bool)
    (plain : PlainText q) (unique : (endpoints w).Nodup) (inv : MemStore.Inv w.apps.store) :
    let res := dtnrecv x cfg w a writable
    res.2.code = 0 →
    (a.verb = .register q → res.2.out = [.line ("Registered endpoint " ++ q)] ∧
      ∃ e, NamesEndpoint x cfg.hostEid q e ∧ e ∈ endpoints res.1) ∧
    (a.verb = .unregister q → res.2.out = [.line ("Unregistered endpoint " ++ q)] ∧
      ∃ e, NamesEndpoint x cfg.hostEid q e ∧ e ∉ endpoints res.1) ∧
    (a.verb = .delete q → res.2.out = [.line ("Deleted bundle " ++ q)] ∧
      w.apps.store.getBundle q ≠ none ∧ res.1.apps.store.getBundle q = none) := by
  dsimp only
  intro hcode
  have hq : ∀ v : RecvVerb, v.url.2 = q → v.request.raw = some q := by
    intro v hv; simp [RecvVerb.request, hv, urlQuery_plain plain]
  refine ⟨?_, ?_, ?_⟩
  · intro verb
    unfold dtnrecv at hcode ⊢
    rw [verb] at hcode ⊢
    have HP : (RecvVerb.register q).request.path = "/register" := rfl
    have HM : (RecvVerb.register q).request.method = .get := rfl
    have HL : cfg.unsafe_ = true ∨ HostItself (RecvVerb.register q).request.addr := loopback_host cfg
    have hs := serve_local x cfg w (RecvVerb.register q).request (e := ⟨"/register", [(.get, .register)], true⟩) (h := .register)
      rfl rfl (loopback_host cfg)
    have hraw := hq (.register q) rfl
    have hkey := C83_register x cfg w (RecvVerb.register q).request q
    generalize (RecvVerb.register q).request = r at hs hraw hkey hcode HP HM HL ⊢
    cases ht : target x cfg q with
    | none =>
      rw [hs] at hcode
      simp [handle, register, hraw, ht, answer, recvFinish] at hcode
    | some o =>
      cases o with
      | none =>
        rw [hs] at hcode
        simp [handle, register, hraw, ht, answer, recvFinish] at hcode
      | some e =>
        have hn := (target_iff x cfg q e).mp ht
        obtain ⟨h1, h2, -⟩ := hkey e HP HM HL hraw hn
        dsimp only at h1 h2 ⊢
        generalize serve x cfg w r = res at h1 h2 ⊢
        refine ⟨?_, e, hn, (h2 e).mpr (.inl rfl)⟩
        rw [h1]
        simp [answer, recvFinish, verb]
  · intro verb
    unfold dtnrecv at hcode ⊢
    rw [verb] at hcode ⊢
    have HP : (RecvVerb.unregister q).request.path = "/unregister" := rfl
    have HM : (RecvVerb.unregister q).request.method = .get := rfl
    have HL : cfg.unsafe_ = true ∨ HostItself (RecvVerb.unregister q).request.addr := loopback_host cfg
    have hs := serve_local x cfg w (RecvVerb.unregister q).request (e := ⟨"/unregister", [(.get, .unregister)], true⟩)
      (h := .unregister) rfl rfl (loopback_host cfg)
    have hraw := hq (.unregister q) rfl
    have hkey := C83_unregister x cfg w (RecvVerb.unregister q).request q
    generalize (RecvVerb.unregister q).request = r at hs hraw hkey hcode HP HM HL ⊢
    cases ht : target x cfg q with
    | none =>
      rw [hs] at hcode
      simp [handle, unregister, hraw, ht, answer, recvFinish] at hcode
    | some o =>
      cases o with
      | none =>
        rw [hs] at hcode
        simp [handle, unregister, hraw, ht, answer, recvFinish] at hcode
      | some e =>
        have hn := (target_iff x cfg q e).mp ht
        obtain ⟨h1, h2, -⟩ := hkey e HP HM HL hraw hn unique
        dsimp only at h1 h2 ⊢
        generalize serve x cfg w r = res at h1 h2 ⊢
        refine ⟨?_, e, hn, fun h => ((h2 e).mp h).1 rfl⟩
        rw [h1]
        simp [answer, recvFinish, verb]
  · intro verb
    unfold dtnrecv at hcode ⊢
    rw [verb] at hcode ⊢
    obtain ⟨h1, h2, -⟩ := C83_delete x cfg w (RecvVerb.delete q).request q rfl (.inl rfl) (loopback_host cfg) (hq (.delete q) rfl) inv
    dsimp only at hcode h1 h2 ⊢
    generalize serve x cfg w (RecvVerb.delete q).request = res at h1 h2 hcode ⊢
    by_cases hb : w.apps.store.getBundle q = none
    · rw [h1, if_neg (by simp [hb])] at hcode
      simp [answer, recvFinish] at hcode
    · rw [h1, if_pos hb]
      refine ⟨by simp [answer, recvFinish, verb], hb, ?_⟩
      rw [h2 q, if_pos rfl]

example : PlainText "in" ∧ (endpoints exToolWorld).Nodup ∧ MemStore.Inv exToolWorld.apps.store ∧
    (dtnrecv exHttpExt exHttpCfg exToolWorld { verb := .unregister "in" } true).2.code = 0 ∧
    (dtnrecv exHttpExt exHttpCfg exToolWorld { verb := .delete "t-1" } true).2.code = 0 ∧
    (dtnrecv exHttpExt exHttpCfg exToolWorld { verb := .register "out" } true).2.code = 0 :=
  ⟨by unfold PlainText; decide, by decide, MemStore.Inv.new.run _, by decide +kernel, by decide +kernel, by decide +kernel⟩

/-- C104 is false as it stands: with `dtnrecv -u 'in#old'` the endpoint `in` is unregistered. -/
theorem C104_name_violated : ∃ x cfg w a, a.verb = .unregister "in#old" ∧ EID.dtn "n1" "in" ∈ endpoints w ∧
    (dtnrecv x cfg w a true).2 = ⟨[.line "Unregistered endpoint in#old"], none, 0⟩ ∧
    EID.dtn "n1" "in" ∉ endpoints (dtnrecv x cfg w a true).1 := by
  refine ⟨exHttpExt, exHttpCfg, exToolWorld, { verb := .unregister "in#old" }, rfl, by decide, by decide +kernel, by decide +kernel⟩

/-! ## C105: dtnsend -/

/-- C105 (part). If the sender (the node itself, unless another one is given) and the receiver can be read, the daemon gives a
creation timestamp, and there is something to send, `dtnsend` makes one bundle with this source, destination, timestamp and
lifetime, the data as payload and a request for delivery reports. It prints the id of this bundle and ends with code 0; exactly
this bundle is submitted to the daemon, or nothing in case of a dry run. Missing: that code 0 means that the daemon took the
bundle (`C105_refused_violated`, `C105_foreign_violated`). -/
theorem C105_submits_partial (x : SendExt) (cfg : Cfg) (w : World) (a : SendArgs) (env : SendEnv) (s : String) (src dst : EID)
    (cts : Nat × Nat) (data : Bytes) (sender : a.sender = some s ∨ (a.sender = none ∧ env.nodeId = some s))
    (source : x.parseEid s = some src) (destination : x.parseEid a.receiver = some dst) (stamp : env.cts = some cts)
    (input : env.input = some data) :
    let res := dtnsend x cfg w a env
    res.2.code = 0 ∧ res.2.file = none ∧
    ∃ b : Bundle, b.primary.source = src ∧ b.primary.destination = dst ∧ b.primary.reportTo = src ∧
      b.primary.creationTime = cts.1 ∧ b.primary.seqno = cts.2 ∧ b.id = x.bundleId src cts.1 cts.2 ∧
      b.primary.lifetime = 1000 * a.lifetime ∧
      b.primary.flags = { reqDelivery := true } ∧ HasPayload b data ∧ .line ("Bundle-Id: " ++ b.id) ∈ res.2.out ∧
      (a.dryrun = true → res.1 = w ∧ .line (x.hexify (x.toCbor b)) ∈ res.2.out) ∧
      (a.dryrun = false → x.parseBundle (x.toCbor b) = some b →
        res.1 = { w with submitted := w.submitted ++ [b] } ∧
        .line ("Result: " ++ ("Sent " ++ toString (x.toCbor b).length ++ " bytes")) ∈ res.2.out) := by
  have hsrc : a.source x env = some src := by
    unfold SendArgs.source
    rcases sender with h | ⟨h, h'⟩
    · rw [h]; exact source
    · rw [h, h']; exact source
  dsimp only
  unfold dtnsend
  rw [hsrc]
  dsimp only
  rw [destination]
  dsimp only
  rw [stamp]
  dsimp only
  rw [input]
  dsimp only
  obtain ⟨hl, hl'⟩ := mem_lines x a data (sendBundle x src dst cts a.lifetime data)
  have hp : HasPayload (sendBundle x src dst cts a.lifetime data) data :=
    ⟨[_], _, [], rfl, by simp [HOP_COUNT_BLOCK, PAYLOAD_BLOCK], rfl, rfl⟩
  by_cases hd : a.dryrun = true
  · rw [if_pos hd]
    refine ⟨rfl, rfl, sendBundle x src dst cts a.lifetime data, rfl, rfl, rfl, rfl, rfl, rfl, Nat.mul_comm _ _, rfl, hp, hl,
      fun _ => ⟨rfl, hl' hd⟩, ?_⟩
    intro h; rw [hd] at h; cases h
  · rw [if_neg hd, sendPostTool_eq]
    have hb : ∃ p, p = x.parseBundle (x.toCbor (sendBundle x src dst cts a.lifetime data)) := ⟨_, rfl⟩
    obtain ⟨p, hb⟩ := hb
    rw [← hb]
    refine ⟨?_, ?_, sendBundle x src dst cts a.lifetime data, rfl, rfl, rfl, rfl, rfl, rfl, Nat.mul_comm _ _, rfl, hp, ?_,
      fun h => absurd h hd, ?_⟩
    · cases p <;> rfl
    · cases p <;> rfl
    · cases p <;> exact List.mem_append_left _ hl
    · intro _ hp'
      rw [hp'] at hb
      subst hb
      exact ⟨rfl, by simp⟩

/-- If `dtnsend` ends with another code than 0, nothing was submitted. -/
theorem C105_failure_harmless (x : SendExt) (cfg : Cfg) (w : World) (a : SendArgs) (env : SendEnv)
    (failed : (dtnsend x cfg w a env).2.code ≠ 0) : (dtnsend x cfg w a env).1 = w := by
  unfold dtnsend at failed ⊢
  split
  · rfl
  · rename_i src hs
    rw [hs] at failed
    dsimp only at failed
    split
    · rfl
    · rename_i dst hd
      rw [hd] at failed
      dsimp only at failed
      split
      · rfl
      · rename_i cts hc
        rw [hc] at failed
        dsimp only at failed
        split
        · rfl
        · rename_i data hi
          rw [hi] at failed
          dsimp only at failed
          by_cases hdr : a.dryrun = true
          · rw [if_pos hdr]
          · rw [if_neg hdr] at failed
            rw [sendPostTool_eq] at failed
            split at failed <;> exact absurd rfl failed

/-- The bundle in the examples of `dtnsend`. -/
def exSent : Bundle :=
  { primary :=
      { bid := "dtn://n1/-5-0", flags := { reqDelivery := true }, source := .dtn "n1" "", destination := .dtn "n1" "in",
        reportTo := .dtn "n1" "", creationTime := 5, lifetime := 3600000 }
    canonicals := [{ btype := 10, num := 2, data := .hopCount 32 0 }, { btype := 1, num := 1, data := .data [104, 105] }] }

/-- A codec that knows this bundle and the names in it. -/
def exSendExt : SendExt :=
  { exToolExt 60 exSent with
    parseEid := fun s =>
      if s = "dtn://n1/" then some (.dtn "n1" "") else if s = "dtn://n1/in" then some (.dtn "n1" "in")
      else if s = "dtn://n9/" then some (.dtn "n9" "") else none
    bundleId := fun s t n => s.print ++ "-" ++ toString t ++ "-" ++ toString n }

def exSendEnv : SendEnv := { nodeId := some "dtn://n1/", cts := some (5, 0), input := some [104, 105] }

def exSendArgs : SendArgs := { receiver := "dtn://n1/in" }

example : (exSendArgs.sender = none ∧ exSendEnv.nodeId = some "dtn://n1/") ∧ exSendExt.parseEid "dtn://n1/" = some (.dtn "n1" "") ∧
    exSendExt.parseEid exSendArgs.receiver = some (.dtn "n1" "in") ∧
    (dtnsend exSendExt exHttpCfg exToolWorld exSendArgs exSendEnv).1 = { exToolWorld with submitted := [exSent] } ∧
    (dtnsend exSendExt exHttpCfg exToolWorld { exSendArgs with receiver := "?" } exSendEnv).2.code = 101 := by
  decide +kernel

/-- C105 is false as it stands: `dtnsend` ends with code 0 although the daemon refuses the bundle. -/
theorem C105_refused_violated : ∃ x cfg w a env, a.dryrun = false ∧ (dtnsend x cfg w a env).2.code = 0 ∧
    (dtnsend x cfg w a env).1 = w :=
  ⟨{ exSendExt with parseBundle := fun _ => none }, exHttpCfg, exToolWorld, exSendArgs, exSendEnv, rfl, by decide +kernel,
    by decide +kernel⟩

/-! ## C107: dtntrigger -/

/-- C107 (part). As long as only ordinary messages come in, `dtntrigger` runs the command exactly once per bundle with data, in
the order of arrival, with the words of the command, the source of the bundle and a file with exactly its payload, and stays
running. Missing: bundles without a payload, for which it depends on an unrelated option (`C107_verbose_violated`). -/
theorem C107_one_per_bundle_partial (x : Ext) (a : TriggerArgs) (command : List String) (is : List Incoming)
    (cmd : Words a.command.toList (command.map String.toList)) (some_ : command ≠ []) (ordinary : ∀ i ∈ is, Ordinary x i) :
    OnePerBundle x command is (triggerLoop x a is).1 ∧ (triggerLoop x a is).2 = none := by
  have hw := words_of cmd
  induction is with
  | nil => exact ⟨.nil, rfl⟩
  | cons i is ih =>
    obtain ⟨h1, h2⟩ := ih fun j hj => ordinary j (by simp [hj])
    have key : (∃ r, onMsg x a i = ([r], .goOn) ∧ BelongsTo x command i r) ∨
        (onMsg x a i = ([], .goOn) ∧ ∀ b d, ¬ BringsData x i b d) := by
      rcases ordinary i (by simp) with h | h | h | ⟨bytes, b, hm, hp, h⟩
      · right; exact ⟨by simp [onMsg, h], by rintro b d ⟨_, hb, -⟩; rw [h] at hb; cases hb⟩
      · right; exact ⟨by simp [onMsg, h], by rintro b d ⟨_, hb, -⟩; rw [h] at hb; cases hb⟩
      · right; exact ⟨by simp [onMsg, h], by rintro b d ⟨_, hb, -⟩; rw [h] at hb; cases hb⟩
      · by_cases ha : b.primary.flags.admin = true
        · right
          refine ⟨by simp [onMsg, hm, hp, Bundle.isAdmin, ha], ?_⟩
          rintro b' d ⟨bytes', hb, hp', hn, -⟩
          rw [hm] at hb
          cases hb
          rw [hp] at hp'
          cases hp'
          rw [ha] at hn; cases hn
        · left
          rcases h with h | ⟨⟨d, hd⟩, ⟨f, hf⟩, hs⟩
          · exact absurd h ha
          · refine ⟨⟨command ++ [b.primary.source.print, f], d⟩, ?_, b, d, f, ⟨bytes, hm, hp, by simpa using ha, hd⟩, hf, rfl⟩
            simp only [onMsg, hm, hp]
            rw [if_neg (show ¬ b.isAdmin = true from ha), (payload_iff b d).mpr hd]
            simp only [execute, hf, hw, hs, if_true]
    unfold triggerLoop
    rcases key with ⟨r, hr, hb⟩ | ⟨hr, hb⟩
    · rw [hr]; exact ⟨.run hb h1, h2⟩
    · rw [hr]; exact ⟨.skip hb h1, h2⟩

/-- Whatever comes in, `dtntrigger` runs a command only for a bundle that came in, at most once for each, in the order of
arrival, and with the words, source and payload that belong to it. -/
theorem C107_never_twice (x : Ext) (a : TriggerArgs) (h : Handshake) (is : List Incoming) :
    ∃ command, Words a.command.toList (command.map String.toList) ∧
      ∃ ks : List (Nat × Ran), ks.map (·.2) = (dtntrigger x a h is).1 ∧ (ks.map (·.1)).Pairwise (· < ·) ∧
        ∀ k ∈ ks, ∃ i, is[k.1]? = some i ∧ BelongsTo x command i k.2 := by
  have hwords := splitWords_words a.command.toList [] (by simp)
  have loop : ∀ is : List Incoming, ∃ ks : List (Nat × Ran), ks.map (·.2) = (triggerLoop x a is).1 ∧ (ks.map (·.1)).Pairwise (· < ·) ∧
        ∀ k ∈ ks, ∃ i, is[k.1]? = some i ∧ BelongsTo x (words a.command) i k.2 := by
    intro is
    induction is with
    | nil => exact ⟨[], rfl, .nil, by simp⟩
    | cons i is ih =>
      obtain ⟨ks, h1, h2, h3⟩ := ih
      have one : ∀ rs next, onMsg x a i = (rs, next) → rs = [] ∨ ∃ r, rs = [r] ∧ BelongsTo x (words a.command) i r := by
        intro rs next h
        unfold onMsg at h
        split at h
        case h_2 bin hbin =>
          split at h
          · left; cases h; rfl
          · rename_i b hp
            split at h
            · left; cases h; rfl
            · rename_i hna
              split at h
              · rename_i d hd
                unfold execute at h
                split at h
                · left; cases h; rfl
                · rename_i f hf
                  split at h
                  · left; cases h; rfl
                  · split at h
                    · right
                      cases h
                      exact ⟨_, rfl, b, d, f, ⟨bin, hbin, hp, by simpa [Bundle.isAdmin] using hna, (payload_iff b d).mp hd⟩, hf, rfl⟩
                    · left; cases h; rfl
              · split at h <;> (left; cases h; rfl)
        all_goals (left; cases h; rfl)
      have shift : ∀ k ∈ ks.map (fun k => (k.1 + 1, k.2)), ∃ j, (i :: is)[k.1]? = some j ∧ BelongsTo x (words a.command) j k.2 := by
        intro k hk
        obtain ⟨k', hk', rfl⟩ := List.mem_map.mp hk
        simpa using h3 k' hk'
      have shiftp : ((ks.map (fun k => (k.1 + 1, k.2))).map (·.1)).Pairwise (· < ·) := by
        rw [List.map_map, List.pairwise_map]
        rw [List.pairwise_map] at h2
        exact h2.imp fun h => by simp only [Function.comp]; omega
      have shiftv : (ks.map (fun k => (k.1 + 1, k.2))).map (·.2) = (triggerLoop x a is).1 := by
        rw [← h1, List.map_map]; rfl
      rw [triggerLoop]
      cases hm : onMsg x a i with
      | mk rs next =>
        rcases one rs next hm with rfl | ⟨r, rfl, hr⟩
        · cases next with
          | goOn => exact ⟨_, by simpa using shiftv, shiftp, shift⟩
          | exit c => exact ⟨[], rfl, .nil, by simp⟩
        · cases next with
          | goOn =>
            refine ⟨(0, r) :: ks.map (fun k => (k.1 + 1, k.2)), by simp [← h1], ?_, ?_⟩
            · rw [List.map_cons, List.pairwise_cons]
              refine ⟨?_, shiftp⟩
              intro b hb
              simp only [List.map_map, List.mem_map, Function.comp] at hb
              obtain ⟨k, -, rfl⟩ := hb
              omega
            · intro k hk
              rcases List.mem_cons.mp hk with rfl | hk
              · exact ⟨i, rfl, hr⟩
              · exact shift k hk
          | exit c => exact ⟨[(0, r)], rfl, by simp, by simpa using hr⟩
  refine ⟨words a.command, by simpa [words] using hwords, ?_⟩
  unfold dtntrigger
  split
  · exact ⟨[], rfl, .nil, by simp⟩
  · split
    · exact ⟨[], rfl, .nil, by simp⟩
    · split
      · exact ⟨[], rfl, .nil, by simp⟩
      · split
        · exact ⟨[], rfl, .nil, by simp⟩
        · split
          · exact ⟨[], rfl, .nil, by simp⟩
          · exact loop is

/-- A text message, the end of the connection, a failure or something that is no bundle ends `dtntrigger`: what comes later has no
effect. If it did not end before, the code is 0 for a text and the end of the connection, 1 for a failure, 101 (a panic) for what is
no bundle. -/
theorem C107_ends (x : Ext) (a : TriggerArgs) (pre post : List Incoming) (i : Incoming) (code : Nat)
    (last : (i.msg = .close ∧ code = 0) ∨ (i.msg = .failed ∧ code = 1) ∨ (∃ s, i.msg = .text s ∧ code = 0) ∨
      (∃ bs, i.msg = .binary bs ∧ x.parseBundle bs = none ∧ code = 101)) :
    triggerLoop x a (pre ++ i :: post) = triggerLoop x a (pre ++ [i]) ∧ (triggerLoop x a (pre ++ [i])).2 ≠ none ∧
    ((triggerLoop x a pre).2 = none → (triggerLoop x a (pre ++ [i])) = ((triggerLoop x a pre).1, some code)) := by
  have hi : onMsg x a i = ([], .exit code) := by
    unfold onMsg
    rcases last with ⟨h, rfl⟩ | ⟨h, rfl⟩ | ⟨s, h, rfl⟩ | ⟨bs, h, hb, rfl⟩ <;> rw [h]
    simp [hb]
  induction pre with
  | nil => simp [triggerLoop, hi]
  | cons j pre ih =>
    simp only [List.cons_append, triggerLoop]
    cases onMsg x a j with
    | mk rs next =>
      cases next with
      | goOn =>
        dsimp only
        rw [ih.1]
        refine ⟨rfl, ih.2.1, fun h => ?_⟩
        rw [ih.2.2 h]
      | exit c => simp

/-- Without a registration, a connection, bundle mode and a subscription, `dtntrigger` ends with code 1 and runs nothing. -/
theorem C107_handshake (x : Ext) (a : TriggerArgs) (h : Handshake) (is : List Incoming)
    (bad : h.registered = false ∨ h.opened = false ∨ (∀ m, h.mode = some m → ¬ "200 tx mode: bundle".toList <+: m.toList) ∨
      ∀ m, h.subscribed = some m → ¬ "200 subscribed".toList <+: m.toList) :
    dtntrigger x a h is = ([], some 1) := by
  unfold dtntrigger
  split
  · rfl
  · rename_i hro
    simp only [Bool.or_eq_true, Bool.not_eq_true', not_or, Bool.not_eq_false] at hro
    split
    · rfl
    · rename_i m hm
      split
      · rfl
      · rename_i hp
        simp only [Bool.not_eq_true', Bool.not_eq_false, List.isPrefixOf_iff_prefix] at hp
        split
        · rfl
        · rename_i m' hm'
          split
          · rfl
          · rename_i hp'
            simp only [Bool.not_eq_true', Bool.not_eq_false, List.isPrefixOf_iff_prefix] at hp'
            rcases bad with h1 | h1 | h1 | h1
            · rw [h1] at hro; cases hro.1
            · rw [h1] at hro; cases hro.2
            · exact absurd hp (h1 m hm)
            · exact absurd hp' (h1 m' hm')

/-- Two bundles and a ping. -/
def exTrigger : List Incoming :=
  [⟨.binary (List.replicate 60 1), some "/tmp/a", true⟩, ⟨.ping, none, false⟩, ⟨.binary (List.replicate 60 1), some "/tmp/b", true⟩]

example : Words "echo  -n".toList (["echo", "-n"].map String.toList) ∧ (∀ i ∈ exTrigger, Ordinary (exToolExt 60 exToolBundle) i) ∧
    triggerLoop (exToolExt 60 exToolBundle) { command := "echo  -n" } exTrigger =
      ([⟨["echo", "-n", "dtn://n2/", "/tmp/a"], [104, 105]⟩, ⟨["echo", "-n", "dtn://n2/", "/tmp/b"], [104, 105]⟩], none) := by
  refine ⟨?_, ?_, by decide +kernel⟩
  · have := splitWords_words "echo  -n".toList [] (by simp)
    have h : (splitWords [] "echo  -n".toList) = ["echo", "-n"] := by decide +kernel
    rw [h] at this
    exact this
  · intro i hi
    have hp : (exToolExt 60 exToolBundle).parseBundle (List.replicate 60 1) = some exToolBundle := by simp [exToolExt]
    simp only [exTrigger, List.mem_cons, List.not_mem_nil, or_false] at hi
    rcases hi with rfl | rfl | rfl
    · exact .inr (.inr (.inr ⟨_, _, rfl, hp, .inr ⟨⟨_, exToolPayload⟩, ⟨_, rfl⟩, rfl⟩⟩))
    · exact .inl rfl
    · exact .inr (.inr (.inr ⟨_, _, rfl, hp, .inr ⟨⟨_, exToolPayload⟩, ⟨_, rfl⟩, rfl⟩⟩))

/-- C107 is false as it stands: with `--verbose` a bundle without payload ends the tool, and the next one is not handled. -/
theorem C107_verbose_violated : ∃ x cmd is, (triggerLoop x { command := cmd, verbose := false } is).1.length = 1 ∧
    (triggerLoop x { command := cmd, verbose := false } is).2 = none ∧
    triggerLoop x { command := cmd, verbose := true } is = ([], some 0) :=
  ⟨{ exToolExt 60 exToolBundle with
      parseBundle := fun bs => if bs = [1] then some { exToolBundle with canonicals := [] } else some exToolBundle },
    "ls", [⟨.binary [1], some "/tmp/a", true⟩, ⟨.binary [2], some "/tmp/b", true⟩], by decide +kernel, by decide +kernel,
    by decide +kernel⟩

end Dtn.Props
