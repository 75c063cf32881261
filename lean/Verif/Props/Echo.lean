import Verif.Lemmas.EchoRound
import Verif.Props.RoutingAgents
/-!
Property C123: the echo service.
-/

namespace Dtn.Props
open Ws EchoPing Spec.WsSpec Spec.EchoSpec

/-! ## C123 -/

/-- C123: whatever else happens at the node and however the messages of the program and the node interleave, the bundles that the echo
service gives the node are the answers to the bundles handed to it, one each, in the same order, without gaps (bundles without payload are
not shown to the service). -/
theorem C123_once_in_order (x : Ext) (host : EID) (store : MemStore) (io : Io) (dtn : Bool) (before : List Ev) (moves : List Move) (sys : System)
    (hname : x.parseEid (wellKnown dtn) = none)
    (hrun : (EchoPing.start before).run x host store io (wellKnown dtn) moves = some sys)
    (hread : ∀ b ∈ handedTo (hub x host store sys.evs) sys.conn, x.hasPayload b = true → Readable x io b) :
    given x host sys.conn (Ws.init store) sys.evs <+:
      ((handedTo (hub x host store sys.evs) sys.conn).filter x.hasPayload).map (answer x) := by
  obtain ⟨⟨s, W, k, v⟩, -⟩ := Inv.run (reg := False) (ep := .none) hrun hread hname (fun h => h.elim)
  rw [v.gave]
  refine (((List.take_prefix _ _).map (answer x))).trans (List.IsPrefix.map (answer x) ?_)
  exact (told_books sys.evs v.sess).filter _

/-- C123: when the program has read everything, the node has handled everything it wrote, and no bundle is left in the session, every bundle
handed to the service is answered. -/
theorem C123_all_answered (x : Ext) (host : EID) (store : MemStore) (io : Io) (dtn : Bool) (before : List Ev) (moves : List Move) (sys : System)
    (hname : x.parseEid (wellKnown dtn) = none)
    (hrun : (EchoPing.start before).run x host store io (wellKnown dtn) moves = some sys)
    (hread : ∀ b ∈ handedTo (hub x host store sys.evs) sys.conn, x.hasPayload b = true → Readable x io b)
    (hc : connected sys.conn sys.evs.reverse = true) (hu : sys.up = []) (hg : sys.got = (outbox (hub x host store sys.evs) sys.conn).length)
    (hp : pending (hub x host store sys.evs) sys.conn = []) :
    given x host sys.conn (Ws.init store) sys.evs =
      ((handedTo (hub x host store sys.evs) sys.conn).filter x.hasPayload).map (answer x) := by
  obtain ⟨⟨s, W, k, v⟩, -⟩ := Inv.run (reg := False) (ep := .none) hrun hread hname (fun h => h.elim)
  have ha : s.alive = true := by rw [alive_connected v.sess]; exact hc
  have hh := ((Books.run x host store sys.evs).sess sys.conn s v.sess).live ha
  simp only [pending, v.sess, Option.map_some, Option.getD_some] at hp
  simp only [outbox, v.sess, Option.map_some, Option.getD_some] at hg
  rw [hp, List.append_nil] at hh
  have hread' : readSo x sys s = told x s := by
    unfold readSo
    rw [hg, List.take_length, v.outs, List.length_map, List.take_length]
  have hs := v.sent
  rw [hu, hread'] at hs
  have hk : k = (told x s).length := by
    rw [v.all ha]
    have := congrArg List.length hs
    simpa [upBins] using this
  rw [v.gave, hk, List.take_length]
  change (told x s).map _ = ((handedTo (Ws.run x host (Ws.init store) sys.evs) sys.conn).filter _).map _
  rw [hh]; rfl

/-- C123: if the endpoint is registered when the program connects and not unregistered, then, while connected, once nothing is left to read
and to handle the program serves and is subscribed to the endpoint, so that bundles for it are handed over
(`C59_subscriber_receives_partial`). -/
theorem C123_serves (x : Ext) (host : EID) (store : MemStore) (io : Io) (dtn : Bool) (ep : EID) (before : List Ev) (moves : List Move) (sys : System)
    (hname : x.parseEid (wellKnown dtn) = none) (hep : x.newEndpoint host (wellKnown dtn) = some ep)
    (hreg : registered ep before.reverse = true) (hun : Move.other (.unregister ep) ∉ moves)
    (hrun : (EchoPing.start before).run x host store io (wellKnown dtn) moves = some sys)
    (hread : ∀ b ∈ handedTo (hub x host store sys.evs) sys.conn, x.hasPayload b = true → Readable x io b)
    (hc : connected sys.conn sys.evs.reverse = true) (hu : sys.up = []) (hg : sys.got = (outbox (hub x host store sys.evs) sys.conn).length) :
    sys.phase = .serving ∧ subscribed x host sys.conn ep sys.evs.reverse = true := by
  obtain ⟨⟨s, W, k, v⟩, -⟩ := Inv.run (reg := True) (ep := ep) hrun hread hname (fun _ => ⟨hep, hreg, hun⟩)
  have ha : s.alive = true := by rw [alive_connected v.sess]; exact hc
  simp only [outbox, v.sess, Option.map_some, Option.getD_some] at hg
  cases v.stage with
  | asked p u g o n => rw [hu] at u; cases u
  | moded p u g o n =>
    rcases o with ⟨h, -⟩ | ⟨-, o⟩
    · rw [ha] at h; cases h
    · rw [g, o] at hg; simp at hg
  | asking p u g m o n => rw [hu] at u; cases u
  | lost p u g a m o => rw [ha] at a; cases a
  | done m t rest o p r =>
    obtain ⟨r1, r2⟩ := r trivial
    refine ⟨?_, r2 hc⟩
    rcases p with ⟨-, p2, -⟩ | ⟨p1, -⟩ | ⟨-, -, -, p4⟩
    · rw [p2, o] at hg; simp at hg
    · exact p1
    · rw [r1] at p4; exact absurd p4 (by decide +kernel)

/-- C123: while connected, the program never ends by itself once it serves. -/
theorem C123_goes_on (x : Ext) (host : EID) (store : MemStore) (io : Io) (dtn : Bool) (before : List Ev) (moves more : List Move) (sys sys' : System)
    (hname : x.parseEid (wellKnown dtn) = none)
    (hrun : (EchoPing.start before).run x host store io (wellKnown dtn) moves = some sys) (hs : sys.phase = .serving)
    (hmore : sys.run x host store io (wellKnown dtn) more = some sys')
    (hread : ∀ b ∈ handedTo (hub x host store sys'.evs) sys'.conn, x.hasPayload b = true → Readable x io b) :
    sys'.phase = .serving := by
  induction more using List.reverseRecOn generalizing sys' with
  | nil => simp only [System.run, Option.some.injEq] at hmore; rw [← hmore]; exact hs
  | append_singleton ms m ih =>
    rw [System.run_snoc] at hmore
    cases hm : sys.run x host store io (wellKnown dtn) ms with
    | none => rw [hm] at hmore; cases hmore
    | some sys0 =>
      rw [hm] at hmore
      simp only [Option.bind_some] at hmore
      have hread0 : AllReadable x host store io sys0 := fun b hb => hread b ((step_handed hmore).subset hb)
      have h0 := ih sys0 hm hread0
      have hrun0 : (EchoPing.start before).run x host store io (wellKnown dtn) (moves ++ ms) = some sys0 := by
        rw [System.run_append, hrun]; exact hm
      obtain ⟨⟨s, W, k, v⟩, -⟩ := Inv.run (reg := False) (ep := .none) hrun0 hread0 hname (fun h => h.elim)
      cases m with
      | other ev =>
        simp only [System.step] at hmore
        split at hmore
        · cases hmore
        · cases hmore; exact h0
      | handle =>
        simp only [System.step] at hmore
        split at hmore
        · cases hmore
        · cases hmore; exact h0
        · cases hmore; exact h0
      | read => exact v.read_serving hread0 h0 hmore

theorem EchoWaits_of_idle {x : Ext} {host : EID} {store : MemStore} {ep : EID} {sys : System} {s : Session} (q : Idle x host store ep sys s) :
    EchoWaits x host store ep sys :=
  ⟨q.phase, by rw [← alive_connected q.sess]; exact q.alive, q.up, by simp [outbox, q.sess, q.got], by simp [pending, q.sess, q.chan],
    by rw [D_eq]; exact q.deliv⟩

/-- C123: a waiting program answers a bundle: when it is delivered, shown to the program, read, and the reply handled, the node has been given
the answer, and the program waits again. -/
theorem C123_answers (x : Ext) (host : EID) (store : MemStore) (io : Io) (dtn : Bool) (ep : EID) (before : List Ev) (moves : List Move) (sys : System)
    (hname : x.parseEid (wellKnown dtn) = none)
    (hrun : (EchoPing.start before).run x host store io (wellKnown dtn) moves = some sys)
    (hread : ∀ b ∈ handedTo (hub x host store sys.evs) sys.conn, x.hasPayload b = true → Readable x io b)
    (hw : EchoWaits x host store ep sys) (b : Bundle) (hp : x.hasPayload b = true) (hb : Readable x io b) :
    ∃ sys', sys.run x host store io (wellKnown dtn) [.other (.deliver ep b), .other (.pump sys.conn), .read, .handle, .read] = some sys' ∧
      EchoWaits x host store ep sys' ∧
      given x host sys.conn (Ws.init store) sys'.evs = given x host sys.conn (Ws.init store) sys.evs ++ [answer x b] := by
  obtain ⟨⟨s, W, k, v⟩, -⟩ := Inv.run (reg := False) (ep := .none) hrun hread hname (fun h => h.elim)
  obtain ⟨sys', s', h1, h2, -, h3⟩ := round_run (dtn := dtn) (v.idle hw.serving hw.connected hw.handled hw.read hw.taken hw.delivered) hp hb
  exact ⟨sys', h1, EchoWaits_of_idle h2, h3⟩

/-- C123 is violated: the service answers itself. One bundle that names the endpoint of the service as its source makes it answer any number
of times: all that is ever delivered is that bundle and the answers, which are addressed to the service. -/
theorem C123_loop_violated (x : Ext) (host : EID) (store : MemStore) (io : Io) (dtn : Bool) (ep : EID) (before : List Ev) (moves : List Move) (sys : System)
    (hname : x.parseEid (wellKnown dtn) = none)
    (hrun : (EchoPing.start before).run x host store io (wellKnown dtn) moves = some sys)
    (hread : ∀ b ∈ handedTo (hub x host store sys.evs) sys.conn, x.hasPayload b = true → Readable x io b)
    (hw : EchoWaits x host store ep sys)
    (hbuild : ∀ s d l n p, (x.build s d l n p).primary.source = s ∧ (x.build s d l n p).primary.destination = d)
    (b : Bundle) (hsrc : b.primary.source = ep) (hdst : b.primary.destination = ep)
    (hall : ∀ j, x.hasPayload ((answer x)^[j] b) = true ∧ Readable x io ((answer x)^[j] b)) (n : Nat) :
    (∀ j, ((answer x)^[j] b).primary.destination = ep) ∧
    ∃ sys', sys.run x host store io (wellKnown dtn) ((List.range n).flatMap fun j =>
        [.other (.deliver ep ((answer x)^[j] b)), .other (.pump sys.conn), .read, .handle, .read]) = some sys' ∧
      given x host sys.conn (Ws.init store) sys'.evs =
        given x host sys.conn (Ws.init store) sys.evs ++ (List.range n).map fun j => (answer x)^[j + 1] b := by
  refine ⟨fun j => ?_, ?_⟩
  · have : ((answer x)^[j] b).primary.source = ep ∧ ((answer x)^[j] b).primary.destination = ep := by
      induction j with
      | zero => exact ⟨hsrc, hdst⟩
      | succ j ih =>
        rw [Function.iterate_succ_apply']
        unfold answer
        exact ⟨(hbuild _ _ _ _ _).1.trans ih.2, (hbuild _ _ _ _ _).2.trans ih.1⟩
    exact this.2
  · obtain ⟨⟨s, W, k, v⟩, -⟩ := Inv.run (reg := False) (ep := .none) hrun hread hname (fun h => h.elim)
    obtain ⟨sys', s', h1, -, -, h3⟩ := rounds_run (dtn := dtn) (v.idle hw.serving hw.connected hw.handled hw.read hw.taken hw.delivered) n hall
    exact ⟨sys', h1, h3⟩

/-- C123 is violated for anonymous bundles: the answer is addressed to `dtn:none`. It reaches nobody, and asked where to send it the epidemic
routing agent stops, if there is a usable neighbour; no request after it is answered. -/
theorem C123_anonymous_violated (x : Ext) (host : EID) (store : MemStore) (io : Io) (dtn : Bool) (ep : EID) (before : List Ev) (moves : List Move) (sys : System)
    (hname : x.parseEid (wellKnown dtn) = none)
    (hrun : (EchoPing.start before).run x host store io (wellKnown dtn) moves = some sys)
    (hread : ∀ b ∈ handedTo (hub x host store sys.evs) sys.conn, x.hasPayload b = true → Readable x io b)
    (hw : EchoWaits x host store ep sys)
    (hbuild : ∀ s d l n p, (x.build s d l n p).primary.destination = d)
    (b : Bundle) (hsrc : b.primary.source = .none) (hp : x.hasPayload b = true) (hb : Readable x io b) :
    ∃ a sys', sys.run x host store io (wellKnown dtn) [.other (.deliver ep b), .other (.pump sys.conn), .read, .handle, .read] = some sys' ∧
      a ∈ given x host sys.conn (Ws.init store) sys'.evs ∧ a.primary.destination = .none ∧
      ∀ (now : Nat) (asked after : List Routing.Cmd) (ps : List Peer) (r : List Cla) (p : Peer), p ∈ ps → Spec.Usable r p →
        (∀ c, (Routing.Epidemic.Task.run {} asked).core = some c → c.contains (Pack.ofBundle now a).id p.nodeName = false) →
        (Routing.Epidemic.Task.run {} (asked ++ [.senderForBundle ps r (Pack.ofBundle now a)] ++ after)).log =
          (Routing.Epidemic.Task.run {} asked).log ++ (Pack.ofBundle now a :: Spec.askedFor after).map fun b => (b, none) := by
  obtain ⟨sys', h1, -, h3⟩ := C123_answers x host store io dtn ep before moves sys hname hrun hread hw b hp hb
  have hd : (answer x b).primary.destination = .none := by unfold answer; rw [hbuild, hsrc]
  refine ⟨answer x b, sys', h1, by rw [h3]; simp, hd, fun now asked after ps r p hp hu hn => ?_⟩
  exact C65_null_destination_stops_epidemic_violated asked after ps r _ hd p hp hu hn

/-! A concrete case: the node `n`, whose echo service gets bundles with the payload `[7]` from `dtn://a/x`, from nobody, or from itself. -/

def exEchoEp : EID := .dtn "n" "echo"
def exEchoData (dst : String) : SendData := { src := "dtn://n/echo", dst, lifetime := 86400000, notify := false, data := [7] }

def exEchoBundle (src dst : EID) : Bundle :=
  { primary := { bid := "b", source := src, destination := dst, reportTo := src, creationTime := 1, lifetime := 60000 }
    canonicals := [{ btype := 1, num := 1, data := .data [7] }] }

def exEchoExt : Ext where
  parseEid s := if s = "dtn://n/echo" then some exEchoEp else if s = "dtn://a/x" then some (.dtn "a" "x") else if s = "dtn:none" then some .none else none
  newEndpoint _ a := if a = "echo" then some exEchoEp else none
  toCbor _ := []
  parseBundle _ := none
  encode _ b := if b.primary.source = .none then [0] else if b.primary.source = .dtn "a" "x" then [1] else [2]
  decode _ bin := if bin = [0] then some (exEchoData "dtn:none") else if bin = [1] then some (exEchoData "dtn://a/x") else some (exEchoData "dtn://n/echo")
  hasPayload b := (Tools.payload b).isSome
  build src dst lifetime _ data :=
    { primary := { bid := "b", source := src, destination := dst, reportTo := src, creationTime := 1, lifetime }
      canonicals := [{ btype := 1, num := 1, data := .data data }] }

def exEchoIo : Io where
  recv bin := some { bid := "b", src := if bin = [0] then "dtn:none" else if bin = [1] then "dtn://a/x" else "dtn://n/echo", dst := "dtn://n/echo", data := [7] }
  send d := if d.dst = "dtn:none" then [0] else if d.dst = "dtn://a/x" then [1] else [2]

/-- The program starts and subscribes. -/
def exEchoMoves : List Move := [.handle, .read, .handle, .read]

/-- A bundle arrives, is shown, read and answered. -/
def exEchoRound (b : Bundle) : List Move := [.other (.deliver exEchoEp b), .other (.pump 0), .read, .handle, .read]

def exEchoSystem (before : List Ev) : System :=
  ((EchoPing.start before).run exEchoExt exWsHost MemStore.new exEchoIo "echo" exEchoMoves).getD (EchoPing.start before)

theorem exEcho_readable (src : EID) (h : src = .none ∨ src = .dtn "a" "x" ∨ src = exEchoEp) : Readable exEchoExt exEchoIo (exEchoBundle src exEchoEp) := by
  rcases h with rfl | rfl | rfl <;> exact ⟨⟨"b", by decide +kernel⟩, by decide +kernel, by decide +kernel, by decide +kernel⟩

theorem exEcho_waits : EchoWaits exEchoExt exWsHost MemStore.new exEchoEp (exEchoSystem [.register exEchoEp]) :=
  ⟨by decide +kernel, by decide +kernel, by decide +kernel, by decide +kernel, by decide +kernel, by decide +kernel⟩

example : (EchoPing.start [.register exEchoEp]).run exEchoExt exWsHost MemStore.new exEchoIo (wellKnown true) exEchoMoves =
      some (exEchoSystem [.register exEchoEp]) ∧
    exEchoExt.parseEid (wellKnown true) = none ∧ exEchoExt.newEndpoint exWsHost (wellKnown true) = some exEchoEp ∧
    registered exEchoEp [.register exEchoEp] = true ∧
    handedTo (hub exEchoExt exWsHost MemStore.new (exEchoSystem [.register exEchoEp]).evs) 0 = [] := by decide +kernel

/-- Two bundles are answered, while another client is there and a second bundle arrives before the first is read. -/
example : let b := exEchoBundle (.dtn "a" "x") exEchoEp
    let c := exEchoBundle .none exEchoEp
    ((exEchoSystem [.register exEchoEp]).run exEchoExt exWsHost MemStore.new exEchoIo (wellKnown true)
      [.other .connect, .other (.deliver exEchoEp b), .other (.deliver exEchoEp c), .other (.pump 0), .other (.text 1 "/node"), .read, .other (.pump 0), .handle, .read, .handle]).map
      (fun s => (handedTo (hub exEchoExt exWsHost MemStore.new s.evs) 0, given exEchoExt exWsHost 0 (Ws.init MemStore.new) s.evs)) =
    some ([b, c], [answer exEchoExt b, answer exEchoExt c]) := by decide +kernel

example : ∀ s d l n p, (exEchoExt.build s d l n p).primary.source = s ∧ (exEchoExt.build s d l n p).primary.destination = d :=
  fun _ _ _ _ _ => ⟨rfl, rfl⟩

theorem exEcho_self (j : Nat) : ((answer exEchoExt)^[j + 1] (exEchoBundle exEchoEp exEchoEp)) = answer exEchoExt (exEchoBundle exEchoEp exEchoEp) := by
  induction j with
  | zero => rfl
  | succ j ih => rw [Function.iterate_succ_apply', ih]; decide +kernel

/-- The hypotheses of `C123_loop_violated` about the bundle. -/
example (j : Nat) : exEchoExt.hasPayload ((answer exEchoExt)^[j] (exEchoBundle exEchoEp exEchoEp)) = true ∧
    Readable exEchoExt exEchoIo ((answer exEchoExt)^[j] (exEchoBundle exEchoEp exEchoEp)) := by
  cases j with
  | zero => exact ⟨by decide +kernel, exEcho_readable _ (.inr (.inr rfl))⟩
  | succ j =>
    rw [exEcho_self]
    exact ⟨by decide +kernel, ⟨"b", by decide +kernel⟩, by decide +kernel, by decide +kernel, by decide +kernel⟩

/-- C123 is violated for bundles that came while the service was registered and not running: the program subscribes by its service name and
is not given what waits at the endpoint. It waits, all that arrives later is answered, and the bundle stays. -/
theorem C123_waiting_violated : ∃ (x : Ext) (host : EID) (store : MemStore) (io : Io) (ep : EID) (b : Bundle) (sys : System),
    (EchoPing.start [.register ep, .deliver ep b]).run x host store io (wellKnown true) [.handle, .read, .handle, .read] = some sys ∧
    x.parseEid (wellKnown true) = none ∧ x.hasPayload b = true ∧ Readable x io b ∧ EchoWaits x host store ep sys ∧
    waitingAt (hub x host store sys.evs) ep = [b] ∧ given x host sys.conn (Ws.init store) sys.evs = [] ∧
    ((sys.run x host store io (wellKnown true) [.other (.deliver ep b), .other (.pump sys.conn), .read, .handle, .read]).map fun s =>
      (waitingAt (hub x host store s.evs) ep, given x host sys.conn (Ws.init store) s.evs)) = some ([b], [answer x b]) := by
  refine ⟨exEchoExt, exWsHost, MemStore.new, exEchoIo, exEchoEp, exEchoBundle (.dtn "a" "x") exEchoEp,
    exEchoSystem [.register exEchoEp, .deliver exEchoEp (exEchoBundle (.dtn "a" "x") exEchoEp)], by decide +kernel, by decide +kernel,
    by decide +kernel, exEcho_readable _ (.inr (.inl rfl)),
    ⟨by decide +kernel, by decide +kernel, by decide +kernel, by decide +kernel, by decide +kernel, by decide +kernel⟩,
    by decide +kernel, by decide +kernel, by decide +kernel⟩

end Dtn.Props
