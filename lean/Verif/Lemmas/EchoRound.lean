import Verif.Lemmas.EchoSteps
import Mathlib.Logic.Function.Iterate

namespace Dtn.EchoPing
open Ws Spec.WsSpec Spec.EchoSpec

variable {x : Ext} {host : EID} {store : MemStore} {io : Io} {dtn : Bool} {ep : EID}

/-- The program serves the endpoint and nothing is left to do. -/
structure Idle (x : Ext) (host : EID) (store : MemStore) (ep : EID) (sys : System) (s : Session) : Prop where
  sess : (hub x host store sys.evs).sessions[sys.conn]? = some s
  alive : s.alive = true
  mode : s.mode = .data .cbor
  chan : s.chan = []
  up : sys.up = []
  got : sys.got = s.out.length
  phase : sys.phase = .serving
  deliv : D (hub x host store sys.evs).apps ep = some sys.conn

/-- What happens for one bundle. -/
def aRound (ep : EID) (i : Nat) (b : Bundle) : List Move := [.other (.deliver ep b), .other (.pump i), .read, .handle, .read]

theorem deliver_here {h : Hub} {i : Nat} {s : Session} {b : Bundle} (hs : h.sessions[i]? = some s) (ha : s.alive = true) (hc : s.chan = [])
    (hD : D h.apps ep = some i) :
    (deliver h ep b).sessions[i]? = some { s with chan := [b] } ∧ D (deliver h ep b).apps ep = some i ∧ (deliver h ep b).submitted = h.submitted := by
  unfold deliver
  have hD' := hD
  unfold D at hD'
  cases hf : Registry.find h.apps.agents ep with
  | none => rw [hf] at hD'; cases hD'
  | some a =>
    rw [hf] at hD'
    simp only [Option.bind_some] at hD'
    have hroom : roomFor h a = true := by simp [roomFor, hD', roomIn, hs, ha, hc, capacity]
    have hp : (a.push b true).2 = some i := by simp [AppAgent.push, hD']
    dsimp only
    rw [hroom, hp]
    dsimp only
    refine ⟨?_, ?_, rfl⟩
    · rw [upd_mk hs, hc]; rfl
    · exact (D_deliver h.apps ep b true ep).trans hD

theorem round_run {sys : System} {s : Session} {b : Bundle} (q : Idle x host store ep sys s)
    (hp : x.hasPayload b = true) (rd : Readable x io b) :
    ∃ sys' s', sys.run x host store io (service dtn) (aRound ep sys.conn b) = some sys' ∧ Idle x host store ep sys' s' ∧ sys'.conn = sys.conn ∧
      given x host sys.conn (Ws.init store) sys'.evs = given x host sys.conn (Ws.init store) sys.evs ++ [answer x b] := by
  obtain ⟨bid, hrec⟩ := rd.data
  obtain ⟨d1, d2, -⟩ := deliver_here (b := b) q.sess q.alive q.chan q.deliv
  -- the node takes the bundle from the channel
  let s1 : Session := { s with chan := [], out := s.out ++ [.binary (x.encode .cbor b)], handled := s.handled ++ [(.data .cbor, b)] }
  have hub1 : hub x host store (sys.evs ++ [.deliver ep b]) = deliver (hub x host store sys.evs) ep b := by rw [hub_snoc]; rfl
  have hub2 : hub x host store (sys.evs ++ [.deliver ep b] ++ [.pump sys.conn]) =
      (deliver (hub x host store sys.evs) ep b).upd sys.conn fun s =>
        { s with chan := [], out := s.out ++ present x s.mode b, handled := s.handled ++ [(s.mode, b)] } := by
    rw [hub_snoc, hub1]; simp only [step]; rw [live_alive _ d1 q.alive]; rfl
  have h2 : (hub x host store (sys.evs ++ [.deliver ep b] ++ [.pump sys.conn])).sessions[sys.conn]? = some s1 := by
    rw [hub2, upd_self d1]
    have : present x (.data .cbor) b = [.binary (x.encode .cbor b)] := by simp [present, hp]
    simp only [q.mode, this, s1]
  have D2 : D (hub x host store (sys.evs ++ [.deliver ep b] ++ [.pump sys.conn])).apps ep = some sys.conn := by rw [hub2]; exact d2
  -- the node handles the answer
  have e1 : x.parseEid (flipped b).dst = some b.primary.source := rd.source
  have e2 : x.parseEid (flipped b).src = some b.primary.destination := rd.destination
  have hub3 : ∃ msg, hub x host store (sys.evs ++ [.deliver ep b] ++ [.pump sys.conn] ++ [.binary sys.conn (io.send (flipped b))]) =
      ({ hub x host store (sys.evs ++ [.deliver ep b] ++ [.pump sys.conn]) with
          submitted := (hub x host store (sys.evs ++ [.deliver ep b] ++ [.pump sys.conn])).submitted ++ [answer x b] } : Hub).upd sys.conn fun s =>
        s.say (.text msg) := by
    refine ⟨"200 Sent bundle " ++ (answer x b).id ++ " with " ++ toString (flipped b).data.length ++ " bytes", ?_⟩
    rw [hub_snoc]
    generalize hub x host store (sys.evs ++ [.deliver ep b] ++ [.pump sys.conn]) = H at h2 ⊢
    simp only [step]; rw [live_alive _ h2 q.alive]
    have hm : s1.mode = .data .cbor := q.mode
    simp only [handleBinary, hm, rd.reply, e1, e2]
    rfl
  obtain ⟨msg, hub3⟩ := hub3
  have h3 : (hub x host store (sys.evs ++ [.deliver ep b] ++ [.pump sys.conn] ++ [.binary sys.conn (io.send (flipped b))])).sessions[sys.conn]? =
      some (s1.say (.text msg)) := by rw [hub3, upd_mk h2]
  refine ⟨{ evs := sys.evs ++ [.deliver ep b] ++ [.pump sys.conn] ++ [.binary sys.conn (io.send (flipped b))], conn := sys.conn, got := sys.got + 1 + 1, up := [], phase := .serving },
    s1.say (.text msg), ?_, ⟨h3, q.alive, q.mode, rfl, rfl, ?_, rfl, ?_⟩, rfl, ?_⟩
  · unfold aRound
    simp only [System.run, System.step, from', Bool.false_eq_true, if_false, Option.bind_some]
    rw [h2]
    have g1 : s1.out[sys.got]? = some (.binary (x.encode .cbor b)) := by rw [q.got]; simp [s1]
    simp only [g1, q.phase, q.up, echo, hrec, response_flipped, reduceCtorEq, if_false, Option.bind_some, List.nil_append]
    rw [h3]
    have g2 : (s1.say (.text msg)).out[sys.got + 1]? = some (.text msg) := by
      rw [q.got]; simp [s1, Session.say]
    simp only [g2, Option.bind_some]
  · change sys.got + 1 + 1 = (s1.out ++ [Msg.text msg]).length
    rw [q.got]; simp [s1]
  · rw [hub3]; exact D2
  · dsimp only
    rw [given_snoc, given_snoc, given_snoc]
    have e3 : given x host sys.conn (Ws.run x host (Ws.init store) (sys.evs ++ [.deliver ep b] ++ [.pump sys.conn])) [.binary sys.conn (io.send (flipped b))] = [answer x b] := by
      simp only [given, if_true, List.append_nil]
      change (step x host (hub x host store _) _).submitted.drop (hub x host store _).submitted.length = _
      rw [← hub_snoc, hub3]
      simp [Hub.upd]
    rw [e3]
    simp [given]

theorem Inv.idle {reg : Prop} {e' : EID} {sys : System} {s : Session} {W k} (v : Inv x host store io dtn reg e' sys s W k)
    (hs : sys.phase = .serving) (hc : connected sys.conn sys.evs.reverse = true) (hu : sys.up = [])
    (hg : sys.got = (outbox (hub x host store sys.evs) sys.conn).length) (hp : pending (hub x host store sys.evs) sys.conn = [])
    (hd : deliveredTo (hub x host store sys.evs) ep = some sys.conn) : Idle x host store ep sys s := by
  simp only [pending, v.sess, Option.map_some, Option.getD_some] at hp
  simp only [outbox, v.sess, Option.map_some, Option.getD_some] at hg
  refine ⟨v.sess, by rw [alive_connected v.sess]; exact hc, ?_, hp, hu, hg, hs, by rw [← D_eq]; exact hd⟩
  cases v.stage with
  | asked p _ _ _ _ => rw [hs] at p; cases p
  | moded p _ _ _ _ => rw [hs] at p; cases p
  | asking p _ _ _ _ _ => rw [hs] at p; cases p
  | lost p _ _ _ _ _ => rw [hs] at p; cases p
  | done m t rest o p r => exact m

/-- The answer to the answer, and so on. -/
theorem rounds_run {sys : System} {s : Session} {b : Bundle} (q : Idle x host store ep sys s) (n : Nat)
    (hall : ∀ j, x.hasPayload ((answer x)^[j] b) = true ∧ Readable x io ((answer x)^[j] b)) :
    ∃ sys' s', sys.run x host store io (service dtn) ((List.range n).flatMap fun j => aRound ep sys.conn ((answer x)^[j] b)) = some sys' ∧
      Idle x host store ep sys' s' ∧ sys'.conn = sys.conn ∧
      given x host sys.conn (Ws.init store) sys'.evs = given x host sys.conn (Ws.init store) sys.evs ++ (List.range n).map fun j => (answer x)^[j + 1] b := by
  induction n with
  | zero => exact ⟨sys, s, rfl, q, rfl, by simp⟩
  | succ n ih =>
    obtain ⟨sys1, s1, h1, q1, c1, g1⟩ := ih
    obtain ⟨sys2, s2, h2, q2, c2, g2⟩ := round_run (dtn := dtn) q1 (hall n).1 (hall n).2
    rw [c1] at h2 g2
    refine ⟨sys2, s2, ?_, q2, c2.trans c1, ?_⟩
    · rw [List.range_succ, List.flatMap_append, System.run_append, h1]
      simpa using h2
    · rw [g2, g1, List.range_succ, List.map_append, List.append_assoc]
      simp [Function.iterate_succ_apply']

end Dtn.EchoPing
