import Verif.Lemmas.Httpd
import Verif.Props.Store
/-!
Properties C57, C83 and C84: the HTTP interface.
-/

namespace Dtn.Props
open Spec Httpd

/-! Concrete objects used to show that hypotheses are met. -/

/-- A world with a stored bundle and an application waiting on `dtn://n1/in`. -/
def exHttpWorld : World :=
  { apps := { store := MemStore.new.run [.push 5 (exBundle "a-1")],
              agents := [{ eid := .dtn "n1" "in", queue := [exBundle "a-1"] }] } }

/-- Parsers that know a few names. -/
def exHttpExt : Ext :=
  { parseEid := fun s => if s = "dtn://n2/in" then some (.dtn "n2" "in") else none
    newEndpoint := fun h s => match h with
      | .dtn n _ => some (.dtn n s)
      | _ => none
    parseBundle := fun b => if b = [1] then some (exBundle "a-7") else none
    toCbor := fun b => (b.id.toList.map fun c => c.toNat.toUInt8)
    hexify := fun _ => "00"
    unhexify := fun _ => none
    parsePeer := fun s => if s = "mtcp://h/n3" then
      some (Peer.new 5 (.dtn "n3" "") (.generic "h") .static none [("mtcp", none)]) else none
    parseDuration := fun _ => none
    buildBundle := fun src dst lt _ =>
      { primary := { bid := "new", source := src, destination := dst, reportTo := src, creationTime := 0, lifetime := lt },
        canonicals := [] }
    rndBundle := exBundle "rnd"
    rndPeer := Peer.new 5 (.dtn "r" "") (.generic "h") .static none [] }

/-- Configuration of node `n1`, with an external router and external convergence layers. -/
def exHttpCfg : Cfg := { routing := "external", eclaEnable := true, hostEid := .dtn "n1" "" }

/-! ## C57 -/

/-- C57, the part that holds: unless the unsafe option is on, a request from an address that is not the host itself to a
control route is refused with status 403 and changes nothing. Missing: the sockets for external routers and external
convergence layers, see `C57_sockets_violated`. -/
theorem C57_control_refused_partial (x : Ext) (cfg : Cfg) (w : World) (r : Req) (hu : cfg.unsafe_ = false)
    (hr : ¬ HostItself r.addr) (hp : r.path ∈ controlPaths) (h1 : r.path ≠ "/ws/erouting") (h2 : r.path ≠ "/ws/ecla") :
    serve x cfg w r = (w, .error 403) := by
  obtain ⟨e, he, hg⟩ := find_control cfg r.path hp h1 h2
  unfold serve
  rw [he]
  have : requireLocalhost cfg r.addr = false := by
    rw [Bool.eq_false_iff]; intro h
    rcases (requireLocalhost_iff _ _).mp h with h | h
    · rw [hu] at h; cases h
    · exact hr h
  simp [hg, this]

example : ¬ HostItself (.v4 192 168 1 7) ∧ ¬ HostItself (.v6 0xfe80 0 0 0 0 0 0 1) ∧
    ¬ HostItself (.v6 0 0 0 0 0 0xffff 0xc0a8 0x0107) ∧ HostItself (.v4 127 0 0 1) ∧ HostItself (.v6 0 0 0 0 0 0 0 1) ∧
    HostItself (.v6 0 0 0 0 0 0xffff 0x7f00 1) := by
  refine ⟨?_, ?_, ?_, ?_, ?_, ?_⟩ <;> simp [HostItself]

/-- C57: whatever requests other hosts send, to whatever paths, with whatever contents, registrations, waiting bundles, the
store, peers, submitted bundles, routing commands and client sessions stay as they are. -/
theorem C57_remote_controls_nothing (x : Ext) (cfg : Cfg) (w : World) (rs : List Req) (hu : cfg.unsafe_ = false)
    (hr : ∀ r ∈ rs, ¬ HostItself r.addr) : SameControl w (run x cfg w rs) := by
  induction rs generalizing w with
  | nil => exact sameControl_refl _
  | cons r rs ih =>
    rw [run_cons]
    exact sameControl_trans (serve_remote x cfg w r hu (hr r List.mem_cons_self))
      (ih _ fun r' h' => hr r' (List.mem_cons_of_mem _ h'))

/-- C57: requests of the host itself are not refused. -/
theorem C57_host_not_refused (x : Ext) (cfg : Cfg) (w : World) (r : Req) (h : HostItself r.addr) :
    (serve x cfg w r).2 ≠ .error 403 := by
  have key : ∀ hd, (handle x cfg w r hd).2 ≠ .error 403 := by
    intro hd
    cases hd <;> simp only [handle, peersAdd, peersDel, routingCmd, routingGetData, sendPost, delete, register, unregister, endpoint,
      insertGet, insertPost, upgrade, rndBundle, rndPeer, download, downloadHex, pushPost]
    all_goals (repeat' split) <;> simp
  unfold serve
  rw [(requireLocalhost_iff cfg r.addr).mpr (Or.inr h)]
  repeat' split
  all_goals first | exact key _ | simp_all

/-- C57 is violated for the sockets of external routers and external convergence layers: they are opened for every address. -/
theorem C57_sockets_violated (x : Ext) (cfg : Cfg) (w : World) (addr : IpAddr) :
    (cfg.routing = "external" → serve x cfg w { addr, method := .get, path := "/ws/erouting", upgrade := true } =
      ({ w with routers := w.routers + 1 }, .upgraded)) ∧
    (cfg.eclaEnable = true → serve x cfg w { addr, method := .get, path := "/ws/ecla", upgrade := true } =
      ({ w with modules := w.modules + 1 }, .upgraded)) := by
  constructor
  · intro h; rw [serve_erouting x cfg w _ h rfl rfl]; rfl
  · intro h; rw [serve_ecla x cfg w _ h rfl rfl]; rfl

example : exHttpCfg.unsafe_ = false ∧ exHttpCfg.routing = "external" ∧ exHttpCfg.eclaEnable = true := by decide

/-! ## C83 -/

/-- C83, `/register`: the named endpoint is registered afterwards, the others are registered as before, and no waiting bundle
of any endpoint is lost. -/
theorem C83_register (x : Ext) (cfg : Cfg) (w : World) (r : Req) (q : String) (e : EID)
    (hp : r.path = "/register") (hm : r.method = .get) (hl : cfg.unsafe_ = true ∨ HostItself r.addr)
    (hq : r.raw = some q) (hn : NamesEndpoint x cfg.hostEid q e) :
    let res := serve x cfg w r
    res.2 = .ok ("Registered " ++ e.print) ∧
    (∀ e', e' ∈ endpoints res.1 ↔ e' = e ∨ e' ∈ endpoints w) ∧
    (∀ e', waiting e' res.1.apps = waiting e' w.apps) ∧
    (∀ bid, res.1.apps.store.getBundle bid = w.apps.store.getBundle bid) ∧ res.1.peers = w.peers := by
  dsimp only
  rw [serve_local x cfg w r (e := ⟨"/register", [(.get, .register)], true⟩) (h := .register) (by rw [hp]; rfl) (by rw [hm]; rfl) hl]
  simp only [handle, register, hq, (target_iff x cfg q e).mpr hn]
  refine ⟨trivial, ?_, ?_, ?_, trivial⟩
  · intro e'
    show e' ∈ Registry.eids (w.apps.step (.register e)).agents ↔ e' = e ∨ e' ∈ Registry.eids w.apps.agents
    rw [Apps.eids_step]
    dsimp only
    split
    · rename_i h
      exact ⟨Or.inr, fun h' => h'.elim (fun h'' => h'' ▸ h) id⟩
    · simp [or_comm]
  · intro e'
    rw [Apps.waiting_eq, Apps.waiting_eq]
    simp only [Apps.step, Registry.find_register]
    split
    · rename_i h; split at h
      · rename_i hh; rw [hh.2]; cases h; rfl
      · rw [h]
    · rename_i h; split at h
      · cases h
      · rw [h]
  · intro bid; simp [Apps.step]

example : NamesEndpoint exHttpExt (.dtn "n1" "") "in/x-1" (.dtn "n1" "in/x-1") ∧ NamesEndpoint exHttpExt (.dtn "n1" "") "dtn://n2/in" (.dtn "n2" "in") := by
  constructor
  · unfold NamesEndpoint; rw [if_pos ((validService_iff _).mp (by decide +kernel))]; rfl
  · unfold NamesEndpoint; rw [if_neg (fun h => absurd ((validService_iff _).mpr h) (by decide +kernel))]; decide +kernel

/-- C83, `/unregister`: the named endpoint is not registered afterwards and the others are as before. Registrations are unique
(`C26_registration_unique`). -/
theorem C83_unregister (x : Ext) (cfg : Cfg) (w : World) (r : Req) (q : String) (e : EID)
    (hp : r.path = "/unregister") (hm : r.method = .get) (hl : cfg.unsafe_ = true ∨ HostItself r.addr)
    (hq : r.raw = some q) (hn : NamesEndpoint x cfg.hostEid q e) (hu : (endpoints w).Nodup) :
    let res := serve x cfg w r
    res.2 = .ok ("Unregistered " ++ e.print) ∧
    (∀ e', e' ∈ endpoints res.1 ↔ e' ≠ e ∧ e' ∈ endpoints w) ∧
    (∀ e', e' ≠ e → waiting e' res.1.apps = waiting e' w.apps) ∧
    (∀ bid, res.1.apps.store.getBundle bid = w.apps.store.getBundle bid) ∧ res.1.peers = w.peers := by
  dsimp only
  rw [serve_local x cfg w r (e := ⟨"/unregister", [(.get, .unregister)], true⟩) (h := .unregister) (by rw [hp]; rfl) (by rw [hm]; rfl) hl]
  simp only [handle, unregister, hq, (target_iff x cfg q e).mpr hn]
  refine ⟨trivial, ?_, ?_, ?_, trivial⟩
  · intro e'
    show e' ∈ Registry.eids (w.apps.step (.unregister e)).agents ↔ e' ≠ e ∧ e' ∈ Registry.eids w.apps.agents
    rw [Apps.eids_step]
    exact List.Nodup.mem_erase_iff hu
  · intro e' hne
    rw [Apps.waiting_eq, Apps.waiting_eq]
    simp only [Apps.step, Registry.find_unregister_ne _ hne]
  · intro bid; simp [Apps.step]

example : (endpoints exHttpWorld).Nodup := by decide

/-- Registrations stay unique whatever requests are served. -/
theorem C83_endpoints_unique (x : Ext) (cfg : Cfg) (w : World) (rs : List Req) (hu : (endpoints w).Nodup) :
    (endpoints (run x cfg w rs)).Nodup := by
  induction rs generalizing w with
  | nil => exact hu
  | cons r rs ih => rw [run_cons]; exact ih _ (nodup_serve hu)

/-- C83, `/endpoint`: for a registered endpoint the answer is the bundle that waits longest, which no longer waits
afterwards, or a note that there is none; for an unregistered endpoint it is 404. Other endpoints keep what waits for
them. -/
theorem C83_fetch (x : Ext) (cfg : Cfg) (w : World) (r : Req) (q : String) (e : EID)
    (hp : r.path = "/endpoint") (hm : r.method = .get) (hl : cfg.unsafe_ = true ∨ HostItself r.addr)
    (hq : r.raw = some q) (hn : NamesEndpoint x cfg.hostEid q e) :
    let res := serve x cfg w r
    (e ∈ endpoints w → ∀ b bs, waiting e w.apps = b :: bs → res.2 = .data (x.toCbor b) ∧ waiting e res.1.apps = bs) ∧
    (e ∈ endpoints w → waiting e w.apps = [] → res.2 = .ok "Nothing to receive" ∧ waiting e res.1.apps = []) ∧
    (e ∉ endpoints w → res = (w, .error 404)) ∧
    (∀ e', e' ≠ e → waiting e' res.1.apps = waiting e' w.apps) ∧
    endpoints res.1 = endpoints w := by
  dsimp only
  rw [serve_local x cfg w r (e := ⟨"/endpoint", [(.get, .endpoint)], true⟩) (h := .endpoint) (by rw [hp]; rfl) (by rw [hm]; rfl) hl]
  simp only [handle, endpoint, hq, (target_iff x cfg q e).mpr hn]
  have hreg : ∀ a, Registry.find w.apps.agents e = some a → (w.apps.step (.pop e)).agents =
      Registry.modify (fun a => a.pop.1) e w.apps.agents := by
    intro a ha
    simp only [Apps.step, ha]
    split <;> rfl
  cases hf : Registry.find w.apps.agents e with
  | none =>
    have hne : e ∉ endpoints w := by
      intro h
      have := (Registry.find_isSome w.apps.agents e).mpr h
      rw [hf] at this; cases this
    exact ⟨fun h => absurd h hne, fun h => absurd h hne, fun _ => rfl, fun _ _ => rfl, rfl⟩
  | some a =>
    have hin : e ∈ endpoints w := (Registry.find_isSome w.apps.agents e).mp (by rw [hf]; rfl)
    have hw : waiting e w.apps = a.queue := by rw [Apps.waiting_eq, hf]
    have hw' : ∀ e', waiting e' (w.apps.step (.pop e)) = if e' = e then a.queue.tail else waiting e' w.apps := by
      intro e'
      rw [Apps.waiting_eq, Apps.waiting_eq, hreg a hf, Registry.find_modify _ _ _ _ (by simp)]
      by_cases h : e' = e
      · subst h
        rw [if_pos rfl, hf, if_pos rfl]
        simp only [Option.map_some, AppAgent.pop]
        split <;> simp_all
      · rw [if_neg h, if_neg h]
    refine ⟨?_, ?_, fun h => absurd hin h, ?_, ?_⟩
    · intro _ b bs h
      rw [hw] at h
      refine ⟨?_, ?_⟩
      · simp [AppAgent.pop, h]
      · dsimp only; rw [hw', if_pos rfl, h]; rfl
    · intro _ h
      rw [hw] at h
      refine ⟨?_, ?_⟩
      · simp [AppAgent.pop, h]
      · dsimp only; rw [hw', if_pos rfl, h]; rfl
    · intro e' hne
      dsimp only; rw [hw', if_neg hne]
    · show Registry.eids (w.apps.step (.pop e)).agents = Registry.eids w.apps.agents
      rw [hreg a hf, Registry.eids_modify _ _ _ (by simp)]

example : EID.dtn "n1" "in" ∈ endpoints exHttpWorld ∧ waiting (.dtn "n1" "in") exHttpWorld.apps = [exBundle "a-1"] := by decide

/-- C83, `/delete`: answered with success exactly if the bundle was stored; it is not stored afterwards and all others are as
before. -/
theorem C83_delete (x : Ext) (cfg : Cfg) (w : World) (r : Req) (bid : String)
    (hp : r.path = "/delete") (hm : r.method = .get ∨ r.method = .delete) (hl : cfg.unsafe_ = true ∨ HostItself r.addr)
    (hq : r.raw = some bid) (inv : MemStore.Inv w.apps.store) :
    let res := serve x cfg w r
    (res.2 = if w.apps.store.getBundle bid ≠ none then .ok ("Deleted " ++ bid) else .error 404) ∧
    (∀ j, res.1.apps.store.getBundle j = if j = bid then none else w.apps.store.getBundle j) ∧
    res.1.apps.agents = w.apps.agents ∧ res.1.peers = w.peers := by
  dsimp only
  rw [serve_local x cfg w r (e := ⟨"/delete", [(.get, .delete), (.delete, .delete)], true⟩) (h := .delete) (by rw [hp]; rfl)
    (by rcases hm with hm | hm <;> rw [hm] <;> rfl) hl]
  simp only [handle, delete, hq]
  refine ⟨?_, fun j => MemStore.getBundle_remove inv bid j, trivial, trivial⟩
  have := MemStore.remove_ok inv bid
  by_cases h : w.apps.store.getBundle bid ≠ none
  · rw [if_pos h, if_pos (this.mpr h)]
  · rw [if_neg h, if_neg (fun h' => h (this.mp h'))]

/-- The store's well-formedness, which `C83_delete` assumes, holds at the start and is kept by every request. -/
theorem C83_store_wellformed (x : Ext) (cfg : Cfg) (w : World) (rs : List Req) (h : MemStore.Inv w.apps.store) :
    MemStore.Inv (run x cfg w rs).apps.store := by
  induction rs generalizing w with
  | nil => exact h
  | cons r rs ih => rw [run_cons]; exact ih _ (inv_serve h)

example : MemStore.Inv exHttpWorld.apps.store ∧ exHttpWorld.apps.store.getBundle "a-1" ≠ none :=
  ⟨MemStore.Inv.new.run _, by decide⟩

/-- C83, `/download`: any host gets exactly the stored bundle, and nothing changes. -/
theorem C83_download (x : Ext) (cfg : Cfg) (w : World) (r : Req) (bid : String)
    (hp : r.path = "/download") (hm : r.method = .get) (hq : r.raw = some bid) :
    serve x cfg w r = (w, match w.apps.store.getBundle bid with
      | some b => .data (x.toCbor b)
      | none => .error 404) := by
  rw [serve_download x cfg w r hp hm]
  unfold download
  rw [hq]
  dsimp only
  cases w.apps.store.getBundle bid <;> rfl

/-- C83, `/insert` and `/send`: a bundle is submitted for transmission, and only it, exactly if the answer is a success; it is
the bundle in the request, respectively one with the given destination, lifetime and payload. -/
theorem C83_submit (x : Ext) (cfg : Cfg) (w : World) (r : Req) (hm : r.method = .post)
    (hl : cfg.unsafe_ = true ∨ HostItself r.addr) :
    let res := serve x cfg w r
    (r.path = "/insert" → match x.parseBundle r.body with
      | some b => res = ({ w with submitted := w.submitted ++ [b] }, .ok ("Sent " ++ toString r.body.length ++ " bytes"))
      | none => res = (w, .error 400)) ∧
    (r.path = "/send" → ∀ dst v, AList.get? r.params "dst" = some v → x.parseEid v = some dst → dst ≠ .none →
      AList.get? r.params "lifetime" = none →
      res = ({ w with submitted := w.submitted ++ [x.buildBundle cfg.hostEid dst 3600000 r.body] },
        .ok ("Sent payload with " ++ toString r.body.length ++ " bytes"))) ∧
    (r.path = "/send" → ∀ dst v l ms, AList.get? r.params "dst" = some v → x.parseEid v = some dst → dst ≠ .none →
      AList.get? r.params "lifetime" = some l → x.parseDuration l = some ms →
      res = ({ w with submitted := w.submitted ++ [x.buildBundle cfg.hostEid dst ms r.body] },
        .ok ("Sent payload with " ++ toString r.body.length ++ " bytes"))) := by
  dsimp only
  refine ⟨fun hp => ?_, fun hp dst v h1 h2 h3 h4 => ?_, fun hp dst v l ms h1 h2 h3 h4 h5 => ?_⟩
  · rw [serve_local x cfg w r (e := ⟨"/insert", [(.get, .insertGet), (.post, .insertPost)], true⟩) (h := .insertPost) (by rw [hp]; rfl)
      (by rw [hm]; rfl) hl]
    simp only [handle, insertPost]
    cases x.parseBundle r.body <;> rfl
  · rw [serve_local x cfg w r (e := ⟨"/send", [(.post, .send)], true⟩) (h := .send) (by rw [hp]; rfl) (by rw [hm]; rfl) hl]
    simp only [handle, sendPost, lifetime, h1, h2, if_neg h3, h4]
  · rw [serve_local x cfg w r (e := ⟨"/send", [(.post, .send)], true⟩) (h := .send) (by rw [hp]; rfl) (by rw [hm]; rfl) hl]
    simp only [handle, sendPost, lifetime, h1, h2, if_neg h3, h4, h5, Option.getD_some]

/-- C83, `/send`, everything else: without a destination or with `dtn:none` as destination the answer is 400 and nothing is
submitted; with one that cannot be read nothing is submitted and the connection is dropped; a lifetime that cannot be read
counts as one hour. -/
theorem C83_send_other (x : Ext) (cfg : Cfg) (w : World) (r : Req) (hm : r.method = .post) (hp : r.path = "/send")
    (hl : cfg.unsafe_ = true ∨ HostItself r.addr) :
    let res := serve x cfg w r
    (AList.get? r.params "dst" = none → res = (w, .error 400)) ∧
    (∀ v, AList.get? r.params "dst" = some v → x.parseEid v = some .none → res = (w, .error 400)) ∧
    (∀ v, AList.get? r.params "dst" = some v → x.parseEid v = none → res = (w, .dropped)) ∧
    (∀ dst v l, AList.get? r.params "dst" = some v → x.parseEid v = some dst → dst ≠ .none →
      AList.get? r.params "lifetime" = some l → x.parseDuration l = none →
      res = ({ w with submitted := w.submitted ++ [x.buildBundle cfg.hostEid dst 3600000 r.body] },
        .ok ("Sent payload with " ++ toString r.body.length ++ " bytes"))) := by
  dsimp only
  rw [serve_local x cfg w r (e := ⟨"/send", [(.post, .send)], true⟩) (h := .send) (by rw [hp]; rfl) (by rw [hm]; rfl) hl]
  refine ⟨fun h1 => ?_, fun v h1 h2 => ?_, fun v h1 h2 => ?_, fun dst v l h1 h2 h3 h4 h5 => ?_⟩
  · simp only [handle, sendPost, h1]
  · simp only [handle, sendPost, h1, h2, if_true]
  · simp only [handle, sendPost, h1, h2]
  · simp only [handle, sendPost, lifetime, h1, h2, if_neg h3, h4, h5, Option.getD_none]

/-- C83, `/insert` with the bundle written as hexadecimal digits in the URL: exactly this bundle is submitted, and the answer
tells its size; anything else is refused and submits nothing. -/
theorem C83_insert_get (x : Ext) (cfg : Cfg) (w : World) (r : Req) (hp : r.path = "/insert") (hm : r.method = .get)
    (hl : cfg.unsafe_ = true ∨ HostItself r.addr) :
    (∀ q bytes b, r.raw = some q → (∀ c ∈ q.toList, c.isAlphanum = true) → x.unhexify q = some bytes → x.parseBundle bytes = some b →
      serve x cfg w r = ({ w with submitted := w.submitted ++ [b] }, .ok ("Sent " ++ toString bytes.length ++ " bytes"))) ∧
    ((∀ q bytes b, r.raw = some q → (∀ c ∈ q.toList, c.isAlphanum = true) → x.unhexify q = some bytes → x.parseBundle bytes ≠ some b) →
      serve x cfg w r = (w, .error 400)) := by
  rw [serve_local x cfg w r (e := ⟨"/insert", [(.get, .insertGet), (.post, .insertPost)], true⟩) (h := .insertGet) (by rw [hp]; rfl)
    (by rw [hm]; rfl) hl]
  simp only [handle, insertGet]
  constructor
  · intro q bytes b h1 h2 h3 h4
    rw [h1]
    dsimp only
    rw [if_pos (List.all_eq_true.mpr h2), h3]
    dsimp only
    rw [h4]
  · intro h
    split
    · rfl
    · rename_i q hq
      split
      · rename_i ha
        split
        · rfl
        · rename_i bytes hb
          split
          · rfl
          · rename_i b hpb
            exact absurd hpb (h q bytes b hq (List.all_eq_true.mp ha) hb)
      · rfl

example : let x := { exHttpExt with unhexify := fun s => if s = "01" then some [1] else none }
    (∀ c ∈ "01".toList, c.isAlphanum = true) ∧ x.unhexify "01" = some [1] ∧ x.parseBundle [1] = some (exBundle "a-7") := by
  decide

/-- C83, `/push`: any host may hand over a bundle; exactly the bundle in the request is received. -/
theorem C83_push (x : Ext) (cfg : Cfg) (w : World) (r : Req) (hp : r.path = "/push") (hm : r.method = .post) :
    match x.parseBundle r.body with
    | some b => serve x cfg w r = ({ w with received := w.received ++ [b] }, .ok ("Received " ++ toString r.body.length ++ " bytes"))
    | none => serve x cfg w r = ({ w with broken := w.broken + 1 }, .error 400) := by
  rw [serve_push x cfg w r hp hm]
  unfold pushPost
  cases x.parseBundle r.body <;> rfl

theorem peerType_iff (t : String) (pt : PeerType) : peerType t = some pt ↔ PeerTypeName t pt := by
  unfold peerType PeerTypeName
  dsimp only
  cases pt with
  | static =>
    by_cases h : t.toList.map Char.toLower = "static".toList
    · simp [h]
    · simp only [h, if_false, iff_false]
      split <;> simp
  | dynamic =>
    by_cases h : t.toList.map Char.toLower = "static".toList
    · simp only [h, if_true]
      constructor
      · intro h'; cases h'
      · intro h'; revert h'; decide
    · simp only [h, if_false]
      split <;> simp_all

/-- C83, `/peers/add`: the peer is known afterwards as the URL describes it, with the type that is given, or as a dynamic one if none
is given; the answer tells if it was known before; the other peers are as before. -/
theorem C83_peer_added (x : Ext) (cfg : Cfg) (w : World) (r : Req) (p n : String) (peer : Peer) (pt : PeerType)
    (hp : r.path = "/peers/add") (hm : r.method = .get) (hl : cfg.unsafe_ = true ∨ HostItself r.addr)
    (hu : AList.get? r.params "p" = some p) (hr : x.parsePeer p = some peer) (hn : peer.eid.node = some n)
    (ht : (AList.get? r.params "p_t" = none ∧ pt = .dynamic) ∨ ∃ t, AList.get? r.params "p_t" = some t ∧ PeerTypeName t pt) :
    let res := serve x cfg w r
    res.2 = .ok (if AList.contains w.peers n = true then "Updated existing peer" else "Added new peer") ∧
    AList.get? res.1.peers n = some { peer with conType := pt } ∧
    (∀ m, m ≠ n → AList.get? res.1.peers m = AList.get? w.peers m) ∧ res.1 = { w with peers := res.1.peers } := by
  dsimp only
  rw [serve_local x cfg w r (e := ⟨"/peers/add", [(.get, .peersAdd)], true⟩) (h := .peersAdd) (by rw [hp]; rfl) (by rw [hm]; rfl) hl]
  have hty : peerType ((AList.get? r.params "p_t").getD "DYNAMIC") = some pt := by
    rcases ht with ⟨h, rfl⟩ | ⟨t, h, h'⟩
    · rw [h]; decide +kernel
    · rw [h]; exact (peerType_iff t pt).mpr h'
  simp only [handle, peersAdd, hu, hty, hr, Peers.add, hn]
  refine ⟨?_, AList.get?_insert_self _ _ _, fun m h => AList.get?_insert_of_ne _ _ h, trivial⟩
  cases AList.contains w.peers n <;> rfl

example : exHttpExt.parsePeer "mtcp://h/n3" = some (Peer.new 5 (.dtn "n3" "") (.generic "h") .static none [("mtcp", none)]) ∧
    (EID.dtn "n3" "").node = some "n3" ∧ PeerTypeName "Static" .static ∧ PeerTypeName "DYNAMIC" .dynamic := by
  unfold PeerTypeName; decide +kernel

/-- C83, `/peers/del`: the peer is not known afterwards, and the other peers are as before. -/
theorem C83_peer_removed (x : Ext) (cfg : Cfg) (w : World) (r : Req) (p n : String) (peer : Peer)
    (hp : r.path = "/peers/del") (hm : r.method = .get) (hl : cfg.unsafe_ = true ∨ HostItself r.addr)
    (hu : AList.get? r.params "p" = some p) (hr : x.parsePeer p = some peer) (hn : peer.eid.node = some n) :
    let res := serve x cfg w r
    res.2 = .ok "Removed peer" ∧ AList.get? res.1.peers n = none ∧
    (∀ m, m ≠ n → AList.get? res.1.peers m = AList.get? w.peers m) ∧ res.1 = { w with peers := res.1.peers } := by
  dsimp only
  rw [serve_local x cfg w r (e := ⟨"/peers/del", [(.get, .peersDel)], true⟩) (h := .peersDel) (by rw [hp]; rfl) (by rw [hm]; rfl) hl]
  simp only [handle, peersDel, hu, hr, hn]
  exact ⟨trivial, AList.get?_erase_self _ _, fun m h => AList.get?_erase_of_ne _ h, trivial⟩

/-- C83, `/routing/cmd`: the routing agent gets the command behind those given before, if it is there, and this is all that
happens; otherwise the client is told that it failed. -/
theorem C83_routing_command (x : Ext) (cfg : Cfg) (w : World) (r : Req) (c : String)
    (hp : r.path = "/routing/cmd") (hm : r.method = .get ∨ r.method = .post) (hl : cfg.unsafe_ = true ∨ HostItself r.addr)
    (hc : AList.get? r.params "c" = some c) :
    serve x cfg w r = if r.routerUp = true then ({ w with cmds := w.cmds ++ [c] }, .ok "Sent command to routing agent.") else (w, .error 500) := by
  rw [serve_local x cfg w r (e := ⟨"/routing/cmd", [(.get, .routingCmd), (.post, .routingCmd)], true⟩) (h := .routingCmd)
    (by rw [hp]; rfl) (by rcases hm with hm | hm <;> rw [hm] <;> rfl) hl]
  simp only [handle, routingCmd, hc]

/-- A command for a routing agent that is there. -/
example : (serve exHttpExt exHttpCfg exHttpWorld { addr := .v4 127 0 0 1, method := .get, path := "/routing/cmd", params := [("c", "route add")], routerUp := true }).1.cmds =
    exHttpWorld.cmds ++ ["route add"] := by
  rw [C83_routing_command _ _ _ _ "route add" rfl (.inl rfl) (Or.inr (by simp [HostItself])) rfl]; rfl

/-- C83: a request that is not answered with success changes nothing clients can see. -/
theorem C83_failure_harmless (x : Ext) (cfg : Cfg) (w : World) (r : Req) (inv : MemStore.Inv w.apps.store)
    (h : (serve x cfg w r).2 = .dropped ∨ ∃ c, (serve x cfg w r).2 = .error c) : SameToClients w (serve x cfg w r).1 := by
  have key : ∀ hd, ((handle x cfg w r hd).2 = .dropped ∨ ∃ c, (handle x cfg w r hd).2 = .error c) →
      SameToClients w (handle x cfg w r hd).1 := by
    intro hd h
    by_cases hdel : hd = .delete
    · subst hdel
      simp only [handle, delete] at h ⊢
      split
      · exact sameToClients_refl _
      · rename_i bid hq
        simp only [hq] at h
        have hok := MemStore.remove_ok inv bid
        have hn : w.apps.store.getBundle bid = none := by
          by_cases hb : w.apps.store.getBundle bid = none
          · exact hb
          · rw [if_pos (hok.mpr hb)] at h
            rcases h with h | ⟨c, h⟩ <;> cases h
        refine ⟨rfl, rfl, rfl, ?_, rfl, rfl, rfl, rfl⟩
        intro j
        show (w.apps.store.remove bid).1.getBundle j = _
        rw [MemStore.getBundle_remove inv]
        by_cases hj : j = bid
        · subst hj; rw [if_pos rfl, hn]
        · rw [if_neg hj]
    · cases hd <;> simp only [handle, peersAdd, peersDel, routingCmd, routingGetData, sendPost, register, unregister, endpoint,
        insertGet, insertPost, upgrade, rndBundle, rndPeer, download, downloadHex, pushPost] at h ⊢
      all_goals first
        | exact absurd rfl hdel
        | skip
      all_goals revert h
      all_goals repeat' split
      all_goals first
        | exact fun _ => sameToClients_refl _
        | exact fun _ => ⟨rfl, rfl, rfl, fun _ => rfl, rfl, rfl, rfl, rfl⟩
        | (intro h; rcases h with h | ⟨c, h⟩ <;> cases h)
  unfold serve at h ⊢
  revert h
  repeat' split
  all_goals first | exact fun _ => sameToClients_refl _ | exact fun h => key _ h

/-! ## C84 -/

/-- C84, the part that holds: a request goes unanswered only if it is `/send` with an unreadable destination, `/peers/add` with
a peer type other than static and dynamic, a call naming a service for which this node cannot form an endpoint id, or a
call about a peer whose URL names no node; and then nothing has changed. -/
theorem C84_answered_partial (x : Ext) (cfg : Cfg) (w : World) (r : Req) (h : (serve x cfg w r).2 = .dropped) :
    (serve x cfg w r).1 = w ∧
    ((∃ v, AList.get? r.params "dst" = some v ∧ x.parseEid v = none) ∨
     (∃ t, AList.get? r.params "p_t" = some t ∧ ∀ pt, ¬ PeerTypeName t pt) ∨
     (∃ q, r.raw = some q ∧ x.newEndpoint cfg.hostEid q = none) ∨
     (∃ p peer, AList.get? r.params "p" = some p ∧ x.parsePeer p = some peer ∧ peer.eid.node = none)) := by
  have tgt : ∀ q, r.raw = some q → target x cfg q = none → ∃ q, r.raw = some q ∧ x.newEndpoint cfg.hostEid q = none :=
    fun q hq h => ⟨q, hq, (target_none x cfg q h).2⟩
  have pt : peerType ((AList.get? r.params "p_t").getD "DYNAMIC") = none →
      ∃ t, AList.get? r.params "p_t" = some t ∧ ∀ pt, ¬ PeerTypeName t pt := by
    intro h
    cases hp : AList.get? r.params "p_t" with
    | none => rw [hp] at h; exact absurd h (by decide +kernel)
    | some t => rw [hp] at h; exact ⟨t, rfl, fun pt hpt => by rw [Option.getD_some, (peerType_iff t pt).mpr hpt] at h; cases h⟩
  have key : ∀ hd, (handle x cfg w r hd).2 = .dropped → (handle x cfg w r hd).1 = w ∧
      ((∃ v, AList.get? r.params "dst" = some v ∧ x.parseEid v = none) ∨
       (∃ t, AList.get? r.params "p_t" = some t ∧ ∀ pt, ¬ PeerTypeName t pt) ∨
       (∃ q, r.raw = some q ∧ x.newEndpoint cfg.hostEid q = none) ∨
       (∃ p peer, AList.get? r.params "p" = some p ∧ x.parsePeer p = some peer ∧ peer.eid.node = none)) := by
    intro hd h
    cases hd <;> simp only [handle, peersAdd, peersDel, routingCmd, routingGetData, sendPost, delete, register, unregister, endpoint,
        insertGet, insertPost, upgrade, rndBundle, rndPeer, download, downloadHex, pushPost] at h ⊢
    all_goals revert h
    all_goals repeat' split
    all_goals intro h
    all_goals first
      | (cases h; done)
      | skip
    all_goals refine ⟨rfl, ?_⟩
    · rename_i hp; exact Or.inr (Or.inl (pt hp))
    · rename_i p hp _ _ _ _ peer hpeer _ hadd
      refine Or.inr (Or.inr (Or.inr ⟨p, peer, hp, hpeer, ?_⟩))
      unfold Peers.add at hadd
      dsimp only at hadd
      split at hadd
      · rename_i hn; exact hn
      · cases hadd
    · rename_i p hp _ peer hpeer _ hn
      exact Or.inr (Or.inr (Or.inr ⟨p, peer, hp, hpeer, hn⟩))
    · rename_i v hv _ he; exact Or.inl ⟨v, hv, he⟩
    all_goals (rename_i q hq _ ht; exact Or.inr (Or.inr (Or.inl (tgt q hq ht))))
  unfold serve at h ⊢
  revert h
  repeat' split
  all_goals first | (intro h; cases h) | exact fun h => key _ h

/-- C84 is violated: a client on the host that sends to an unreadable destination gets no answer at all, and neither does one
that adds a peer with an unknown type, or registers a service by name on a node with a numeric id. -/
theorem C84_answered_violated : ∃ (x : Ext) (w : World) (r1 r2 r3 : Req) (cfg1 cfg2 : Cfg),
    HostItself r1.addr ∧ HostItself r2.addr ∧ HostItself r3.addr ∧
    (serve x cfg1 w r1).2 = .dropped ∧ (serve x cfg1 w r2).2 = .dropped ∧ (serve x cfg2 w r3).2 = .dropped := by
  refine ⟨exHttpExt, exHttpWorld, { addr := .v4 127 0 0 1, method := .post, path := "/send", params := [("dst", "n2/in")] },
    { addr := .v4 127 0 0 1, method := .get, path := "/peers/add", params := [("p", "mtcp://h/n3"), ("p_t", "permanent")] },
    { addr := .v4 127 0 0 1, method := .get, path := "/register", raw := some "incoming" },
    exHttpCfg, { hostEid := .ipn 23 0 }, rfl, rfl, rfl, ?_, ?_, ?_⟩
  · rw [serve_local _ _ _ _ (e := ⟨"/send", [(.post, .send)], true⟩) (h := .send) rfl rfl (Or.inr (by simp [HostItself]))]; decide +kernel
  · rw [serve_local _ _ _ _ (e := ⟨"/peers/add", [(.get, .peersAdd)], true⟩) (h := .peersAdd) rfl rfl (Or.inr (by simp [HostItself]))]; decide +kernel
  · rw [serve_local _ _ _ _ (e := ⟨"/register", [(.get, .register)], true⟩) (h := .register) rfl rfl (Or.inr (by simp [HostItself]))]; decide +kernel

end Dtn.Props
