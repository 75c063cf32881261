import Verif.Lemmas.TcpclConn
import Verif.Spec.TcpPair
import Verif.Props.TcpPool
/-! # C118: two nodes with the layer `tcp` -/

namespace Dtn.Props
open Dtn.Tcpcl Dtn.Spec
open Dtn.Clas (Answer)
open Dtn.TcpPool
open Dtn.Spec.TcpPoolSpec (heard content)
open Dtn.Spec.TcpPairSpec

variable {A B : Type} [DecidableEq A] [DecidableEq B]

theorem tcpPair_recvs (k : Chan A) : heard k = recvs k.history := by
  unfold heard recvs
  congr 1
  funext ⟨_, ev⟩
  cases ev <;> rfl

theorem tcpPair_run_env (e e' : Env) (h1 : e'.parses = e.parses) (h2 : e'.bundleId = e.bundleId) (x : Sess) (l : List ((Bytes → Bool) × Sess.Ev)) :
    x.run e' l = x.run e l := by
  have : ∀ has, ({ e' with hasItem := has } : Env) = { e with hasItem := has } := by
    intro has
    rw [h1, h2]
  unfold Sess.run
  congr 1
  funext s y
  rw [this]

/-- The session at one end. -/
theorem tcpPair_end {cfg : Cfg A} {evs : List (TcpPool.Ev A)} {s : TcpPool.State A} (h : TcpPoolSpec.After cfg evs s) {c : Nat} {k : Chan A}
    (hk : s.chans[c]? = some k) {par : SessInit} (hpar : ∀ r, k.remote = some r → r = par) :
    ∃ a : Sess, a = (newSess cfg.refuse cfg.loc par).run cfg.env k.history ∧ a.out = written k ∧ a.processed = received k ∧
      (∀ (j : Nat) d, a.requests[j]? = some d → (contents s k)[j]? = some d) ∧
      (∀ x, k.sess = some x → x = a) ∧ (k.sess = none → k.stage ≠ .session) := by
  obtain ⟨hc, hh⟩ := hist_run h
  obtain ⟨h1, h2⟩ := hh c k hk
  cases hs : k.sess with
  | none =>
    refine ⟨newSess cfg.refuse cfg.loc par, by rw [h1 hs]; rfl, by simp [written, hs, newSess], by simp [received, hs, newSess], ?_, by simp, ?_⟩
    · intro j d hd
      simp [newSess] at hd
    · intro _ he
      obtain ⟨x, hx, _⟩ := (hc.chan c k hk).live he
      rw [hs] at hx
      cases hx
  | some x =>
    obtain ⟨rem, g1, g2⟩ := h2 x hs
    rw [hpar rem g1] at g2
    refine ⟨x, g2, by simp [written, hs], by simp [received, hs], ?_, ?_, by simp⟩
    · intro j d hd
      have hj : j < k.taken := by
        rw [← (hc.chan c k hk).count x hs]
        exact (List.getElem?_eq_some_iff.mp hd).1
      have hje : j < k.entered.length := Nat.lt_of_lt_of_le hj (hc.chan c k hk).taken
      obtain ⟨r, e1, _, _, e4⟩ := hc.member c k hk j _ (List.getElem?_eq_getElem hje)
      have e5 := e4 x hs hj
      rw [hd] at e5
      cases e5
      unfold contents
      rw [List.getElem?_map, List.getElem?_eq_getElem hje]
      simp [content, e1]
    · intro y hy
      exact (Option.some.inj hy).symm

/-- What holds of the sessions at the two ends. -/
theorem tcpPair_sessions {p : Cfg A} {q : Cfg B} {evs : List (TcpPool.Ev A)} {evs' : List (TcpPool.Ev B)} {s : TcpPool.State A} {t : TcpPool.State B}
    (hs : TcpPoolSpec.After p evs s) (ht : TcpPoolSpec.After q evs' t) {c d : Nat} {k : Chan A} {l : Chan B} (hk : s.chans[c]? = some k)
    (hl : t.chans[d]? = some l) (hal : Alike p q) (hw : Wire p q k l) (hb : Bundles p s k) :
    ∃ a b : Sess, a = (newSess p.refuse p.loc q.loc).run p.env k.history ∧ b = (newSess q.refuse q.loc p.loc).run p.env l.history ∧
      (∀ d ∈ a.requests, p.env.parses d = true) ∧ recvs k.history <+: b.out ∧ recvs l.history <+: a.out ∧
      a.out = written k ∧ b.out = written l ∧ b.processed = received l ∧ (∀ (j : Nat) d, a.requests[j]? = some d → (contents s k)[j]? = some d) ∧
      (∀ x, k.sess = some x → x = a) ∧ (∀ x, l.sess = some x → x = b) := by
  obtain ⟨a, a1, a2, a3, a4, a5, a6⟩ := tcpPair_end hs hk hw.paramsK
  obtain ⟨b, b1, b2, b3, b4, b5, b6⟩ := tcpPair_end ht hl hw.paramsL
  rw [tcpPair_run_env p.env q.env (funext hal.parses) (funext hal.ids)] at b1
  refine ⟨a, b, a1, b1, ?_, ?_, ?_, a2, b2, b3, a4, a5, b5⟩
  · intro d hd
    obtain ⟨j, hj⟩ := List.getElem?_of_mem hd
    exact hb d (List.mem_of_getElem? (a4 j d hj))
  · rw [← tcpPair_recvs, b2]; exact hw.back
  · rw [← tcpPair_recvs, a2]; exact hw.forth

namespace TcpPairEx

/-- Both nodes of the example have this setting. -/
def node (refuse : Bool) : Cfg Nat := { TcpPoolEx.cfg with refuse := refuse }

/-- The sender: two transfers, until all is acknowledged. -/
def sender : List (TcpPool.Ev Nat) :=
  [.request "10.0.0.1:16162" [0x9f, 1, 2, 3], .request "10.0.0.1:16162" [0x9f, 5], .take, .take, .go 0 true, .go 0 true, .go 0 true, .go 1 true,
    .go 1 true, .contact 0 true, .params 0 (some exSessInit) false, .next 0, .message 0 (fun _ => false) (.xferAck { flags := {}, tid := 1, len := 3 }),
    .message 0 (fun _ => false) (.xferAck { flags := {}, tid := 1, len := 4 }), .next 0,
    .message 0 (fun _ => false) (.xferAck { flags := {}, tid := 2, len := 2 })]

/-- The receiver. -/
def receiver : List (TcpPool.Ev Nat) :=
  [.accept 7, .contact 0 true, .params 0 (some exSessInit) false,
    .message 0 (fun _ => false) (.xferSeg { flags := { start := true }, tid := 1, len := 3, buf := [0x9f, 1, 2], extensions := [] }),
    .message 0 (fun _ => false) (.xferSeg { flags := { «end» := true }, tid := 1, len := 1, buf := [3], extensions := [] }),
    .message 0 (fun _ => false) (.xferSeg { flags := { start := true, «end» := true }, tid := 2, len := 2, buf := [0x9f, 5], extensions := [] })]

/-- The same when both nodes refuse what they have: the second bundle is there. -/
def asker : List (TcpPool.Ev Nat) :=
  [.request "10.0.0.1:16162" [0x9f, 1, 2, 3], .request "10.0.0.1:16162" [0x9f, 5], .take, .take, .go 0 true, .go 0 true, .go 0 true, .go 1 true,
    .go 1 true, .contact 0 true, .params 0 (some exSessInit) false, .next 0, .message 0 (fun _ => false) (.xferAck { flags := {}, tid := 1, len := 0 }),
    .message 0 (fun _ => false) (.xferAck { flags := {}, tid := 1, len := 3 }), .message 0 (fun _ => false) (.xferAck { flags := {}, tid := 1, len := 4 }),
    .next 0, .message 0 (fun _ => false) (.xferRefuse .notAcceptable 2)]

/-- The receiver of that. -/
def refuser : List (TcpPool.Ev Nat) :=
  [.accept 7, .contact 0 true, .params 0 (some exSessInit) false,
    .message 0 (fun b => b = [0x9f, 5]) (.xferSeg { flags := { start := true }, tid := 1, len := 0, buf := [], extensions := [{ critical := false, data := [0x9f, 1, 2] }] }),
    .message 0 (fun b => b = [0x9f, 5]) (.xferSeg { flags := {}, tid := 1, len := 3, buf := [0x9f, 1, 2], extensions := [] }),
    .message 0 (fun b => b = [0x9f, 5]) (.xferSeg { flags := { «end» := true }, tid := 1, len := 1, buf := [3], extensions := [] }),
    .message 0 (fun b => b = [0x9f, 5]) (.xferSeg { flags := { start := true }, tid := 2, len := 0, buf := [], extensions := [{ critical := false, data := [0x9f, 5] }] })]

/-- The connection of a node after a history. -/
def chan (cfg : Cfg Nat) (evs : List (TcpPool.Ev Nat)) : Chan Nat :=
  (((TcpPool.run cfg {} evs).bind fun s => s.chans[0]?).getD { addr := 0, active := false, stage := .ended })

theorem alike (r : Bool) : Alike (node r) (node r) := ⟨fun _ => rfl, fun _ => rfl, by cases r <;> decide, by cases r <;> decide⟩

example : Wire (node false) (node false) (chan (node false) sender) (chan (node false) receiver) ∧
    Delivered (chan (node false) sender) (chan (node false) receiver) := by
  have h1 : heard (chan (node false) receiver) = written (chan (node false) sender) := by decide +kernel
  have h2 : heard (chan (node false) sender) = written (chan (node false) receiver) := by decide +kernel
  have h3 : (chan (node false) sender).remote = some exSessInit ∧ (chan (node false) receiver).remote = some exSessInit := by decide +kernel
  refine ⟨⟨h1 ▸ List.prefix_refl _, h2 ▸ List.prefix_refl _, ?_, ?_⟩, h1, h2⟩
  · intro r hr; rw [h3.1] at hr; cases hr; rfl
  · intro r hr; rw [h3.2] at hr; cases hr; rfl

example : (chan (node false) sender).stage = .session ∧ (chan (node false) receiver).stage = .session ∧
    received (chan (node false) receiver) = [[0x9f, 1, 2, 3], [0x9f, 5]] ∧
    (TcpPool.run (node false) {} sender).map (fun s => (s.queue.length, s.reqs.map (·.pc))) =
      some (0, [.done (.replied .successful), .done (.replied .successful)]) ∧
    ∀ d ∈ [[0x9f, 1, 2, 3], [0x9f, 5]], (node false).env.parses d = true := by decide +kernel

example : heard (chan (node true) refuser) = written (chan (node true) asker) ∧ heard (chan (node true) asker) = written (chan (node true) refuser) ∧
    received (chan (node true) refuser) = [[0x9f, 1, 2, 3]] ∧ (chan (node true) asker).stage = .session ∧
    (TcpPool.run (node true) {} asker).map (fun s => s.reqs.map (·.pc)) = some [.done (.replied .successful), .done (.replied .successful)] := by
  decide +kernel

/-- The state of the sender. -/
def after : TcpPool.State Nat := (TcpPool.run (node false) {} sender).getD {}

example : TcpPoolSpec.Quiet (node false) after := by
  have h1 : after.queue = [] := by decide +kernel
  have h2 : after.reqs = [{ dest := "10.0.0.1:16162", data := [0x9f, 1, 2, 3], pc := .done (.replied .successful) },
    { dest := "10.0.0.1:16162", data := [0x9f, 5], pc := .done (.replied .successful) }] := by decide +kernel
  have h3 : after.chans.map (fun k => k.entered[k.taken]?) = [none] := by decide +kernel
  intro e he
  cases e with
  | take => simp [TcpPool.step, TcpPool.State.take, h1]
  | go i ok =>
    match i with
    | 0 => simp [TcpPool.step, TcpPool.State.go, h2]
    | 1 => simp [TcpPool.step, TcpPool.State.go, h2]
    | n + 2 => simp [TcpPool.step, h2]
  | next c =>
    simp only [TcpPool.step, TcpPool.State.next]
    cases hc : after.chans[c]? with
    | none => rfl
    | some k =>
      have : k.entered[k.taken]? = none := by
        have hm : k.entered[k.taken]? ∈ after.chans.map (fun k => k.entered[k.taken]?) :=
          List.mem_map.mpr ⟨k, List.mem_of_getElem? hc, rfl⟩
        rw [h3] at hm
        simpa using hm
      cases hs : k.sess <;> simp only [hs, this]
  | _ => exact he.elim

end TcpPairEx

/-- C118: a node gets from a connection what the other node was asked to transfer on it: every bundle handed to bundle processing is one
of these, unaltered, in the same order, and none more often than it was asked for. -/
theorem C118_received {p : Cfg A} {q : Cfg B} {evs : List (TcpPool.Ev A)} {evs' : List (TcpPool.Ev B)} {s : TcpPool.State A} {t : TcpPool.State B}
    (hs : TcpPoolSpec.After p evs s) (ht : TcpPoolSpec.After q evs' t) {c d : Nat} {k : Chan A} {l : Chan B} (hk : s.chans[c]? = some k)
    (hl : t.chans[d]? = some l) (hal : Alike p q) (hw : Wire p q k l) (hb : Bundles p s k) :
    (received l).Sublist (contents s k) := by
  obtain ⟨a, b, h1, h2, h3, h4, h5, h6, h7, h8, h9, _, _⟩ := tcpPair_sessions hs ht hk hl hal hw hb
  obtain ⟨fates, g1, _, g3, _⟩ := conn_fates p.env p.refuse q.refuse p.loc q.loc p.loc q.loc hal.mru.2 hal.nothing h1 h2 h3 h4 h5
  rw [← h8, g1]
  refine sublist_of_index id fates _ ?_
  intro i f hf
  obtain ⟨data, e1, e2⟩ := g3 i f hf
  exact ⟨data, h9 i data e1, e2⟩

/-- C118: a transfer answered as successful has arrived: the bundle was handed to bundle processing on the other node — or, if both nodes
are set to refuse bundles they have, the other node had it. -/
theorem C118_success {p : Cfg A} {q : Cfg B} {evs : List (TcpPool.Ev A)} {evs' : List (TcpPool.Ev B)} {s : TcpPool.State A} {t : TcpPool.State B}
    (hs : TcpPoolSpec.After p evs s) (ht : TcpPoolSpec.After q evs' t) {c d : Nat} {k : Chan A} {l : Chan B} (hk : s.chans[c]? = some k)
    (hl : t.chans[d]? = some l) (hal : Alike p q) (hw : Wire p q k l) (hb : Bundles p s k) {i : Nat} (hi : i ∈ k.entered)
    (hans : TcpPoolSpec.answer s i = some (.replied .successful)) :
    content s i ∈ received l ∨ (p.refuse = true ∧ q.refuse = true ∧ Had q l (content s i)) := by
  obtain ⟨a, b, h1, h2, h3, h4, h5, h6, h7, h8, h9, h10, h11⟩ := tcpPair_sessions hs ht hk hl hal hw hb
  obtain ⟨hc, _⟩ := hist_run hs
  obtain ⟨r, e1, e2⟩ := (tcpPool_answer_iff s i _).mp hans
  have hro := hc.req i r e1
  unfold ReqOk at hro
  rw [e2] at hro
  obtain ⟨c', k', j', x, f1, f2, f3, f4⟩ := hro
  obtain ⟨j, hj⟩ := List.getElem?_of_mem hi
  obtain ⟨rfl, rfl⟩ := hc.once c c' j j' i ⟨k, hk, hj⟩ ⟨k', f1, f2⟩
  rw [hk] at f1
  cases f1
  rw [h10 x f3] at f4
  obtain ⟨fates, g1, _, g3, g4⟩ := conn_fates p.env p.refuse q.refuse p.loc q.loc p.loc q.loc hal.mru.2 hal.nothing h1 h2 h3 h4 h5
  obtain ⟨data, m1, m2⟩ := g4 j f4
  have hcont : data = content s i := by
    have := h9 j data m1
    unfold contents at this
    rw [List.getElem?_map, hj] at this
    exact (Option.some.inj this).symm
  subst hcont
  rcases m2 with m | ⟨_, m1, y, m2, m3, ⟨pk, m4⟩, m5⟩
  · left
    rw [← h8, g1]
    exact List.mem_filterMap.mpr ⟨_, List.mem_of_getElem? m, rfl⟩
  · right
    rw [h2] at m5
    refine ⟨m1, run_refused_set hal.mru.1 _ m5, y.1, pk, ?_, by rw [hal.ids]; exact m3⟩
    rw [← m4]
    exact m2

/-- C118: between two nodes no transfer put on a connection is answered as failed: it succeeds, or its answer is lost with the
connection. -/
theorem C118_no_failure {p : Cfg A} {q : Cfg B} {evs : List (TcpPool.Ev A)} {evs' : List (TcpPool.Ev B)} {s : TcpPool.State A} {t : TcpPool.State B}
    (hs : TcpPoolSpec.After p evs s) (ht : TcpPoolSpec.After q evs' t) {c d : Nat} {k : Chan A} {l : Chan B} (hk : s.chans[c]? = some k)
    (hl : t.chans[d]? = some l) (hal : Alike p q) (hw : Wire p q k l) (hb : Bundles p s k) {i : Nat} (hi : i ∈ k.entered) {ans : Answer}
    (hans : TcpPoolSpec.answer s i = some ans) : ans = .replied .successful ∨ (ans = .lost ∧ k.stage = .ended) := by
  obtain ⟨a, b, h1, h2, h3, h4, h5, h6, h7, h8, h9, h10, h11⟩ := tcpPair_sessions hs ht hk hl hal hw hb
  obtain ⟨hc, _⟩ := hist_run hs
  obtain ⟨r, e1, e2⟩ := (tcpPool_answer_iff s i _).mp hans
  obtain ⟨j, hj⟩ := List.getElem?_of_mem hi
  obtain ⟨r', f1, _, f3, _⟩ := hc.member c k hk j i hj
  rw [e1] at f1
  cases f1
  have key : ∀ x res, k.sess = some x → (j, res) ∈ x.results → answerOf res = .replied .successful := by
    intro x res hx hres
    cases res with
    | successful => rfl
    | failure =>
      rw [h10 x hx] at hres
      exact absurd hres (conn_no_failure p.env p.refuse q.refuse p.loc q.loc p.loc q.loc hal.mru.2 hal.nothing h1 h2 h3 h4 h5 j)
  unfold Fits at f3
  rw [e2] at f3
  split at f3
  · next he =>
    obtain ⟨ans', g1, g2⟩ := f3
    cases g1
    rcases g2 with rfl | ⟨x, res, g1, g2, rfl⟩
    · exact .inr ⟨rfl, he⟩
    · exact .inl (key x res g1 g2)
  · split at f3
    · cases f3
    · split at f3
      · cases f3
      · obtain ⟨x, res, g1, g2, g3⟩ := f3
        cases g3
        exact .inl (key x res g1 g2)

/-- C118: once the node has done what it can and everything written to the connection has arrived, every transfer put on it is answered as
successful, if the session runs on both nodes. -/
theorem C118_answered {p : Cfg A} {q : Cfg B} {evs : List (TcpPool.Ev A)} {evs' : List (TcpPool.Ev B)} {s : TcpPool.State A} {t : TcpPool.State B}
    (hs : TcpPoolSpec.After p evs s) (ht : TcpPoolSpec.After q evs' t) {c d : Nat} {k : Chan A} {l : Chan B} (hk : s.chans[c]? = some k)
    (hl : t.chans[d]? = some l) (hal : Alike p q) (hw : Wire p q k l) (hb : Bundles p s k) (hq : TcpPoolSpec.Quiet p s)
    (hdel : Delivered k l) (hsk : k.stage = .session) (hsl : l.stage = .session) {i : Nat} (hi : i ∈ k.entered) :
    TcpPoolSpec.answer s i = some (.replied .successful) := by
  obtain ⟨a, b, h1, h2, h3, h4, h5, h6, h7, h8, h9, h10, h11⟩ := tcpPair_sessions hs ht hk hl hal hw hb
  obtain ⟨hc, _⟩ := hist_run hs
  obtain ⟨hc', _⟩ := hist_run ht
  obtain ⟨x, hx, tx⟩ := (hc.chan c k hk).live hsk
  obtain ⟨y, hy, ty⟩ := (hc'.chan d l hl).live hsl
  have hxa := h10 x hx
  have hyb := h11 y hy
  subst hxa
  subst hyb
  have hidle := conn_live p.env p.refuse q.refuse p.loc q.loc p.loc q.loc hal.mru.2 hal.nothing h1 h2 h3
    (by rw [← tcpPair_recvs, hdel.2, h7]) (by rw [← tcpPair_recvs, hdel.1, h6]) tx.live ty.live
  obtain ⟨j, hj⟩ := List.getElem?_of_mem hi
  obtain ⟨r, f1, _, f3, _⟩ := hc.member c k hk j i hj
  have hall : k.taken = k.entered.length := by
    refine Nat.le_antisymm (hc.chan c k hk).taken ?_
    apply Nat.le_of_not_lt
    intro hlt
    obtain ⟨k', g1, g2⟩ := tcpPool_stuck hc hq hk (by rw [hsk]; simp) (.inl hlt)
    rw [hk] at g1
    cases g1
    rcases g2 with g | g | ⟨_, x', g, g'⟩
    · rw [hsk] at g; cases g
    · rw [hsk] at g; cases g
    · rw [hx] at g; cases g; exact g' hidle
  have hjl := (List.getElem?_eq_some_iff.mp hj).1
  unfold Fits at f3
  rw [if_neg (by rw [hsk]; simp), if_neg (by omega), hx, if_neg (by simp [hidle, txReq])] at f3
  obtain ⟨x', res, g1, g2, g3⟩ := f3
  cases g1
  have hans := (tcpPool_answer_iff s i _).mpr ⟨r, f1, g3⟩
  rcases C118_no_failure hs ht hk hl hal hw hb hi hans with e | ⟨_, e⟩
  · rw [e] at hans; exact hans
  · rw [hsk] at e; cases e

/-- C118: then, unless both nodes are set to refuse bundles they have, the other node has got exactly what was put on the connection. -/
theorem C118_complete {p : Cfg A} {q : Cfg B} {evs : List (TcpPool.Ev A)} {evs' : List (TcpPool.Ev B)} {s : TcpPool.State A} {t : TcpPool.State B}
    (hs : TcpPoolSpec.After p evs s) (ht : TcpPoolSpec.After q evs' t) {c d : Nat} {k : Chan A} {l : Chan B} (hk : s.chans[c]? = some k)
    (hl : t.chans[d]? = some l) (hal : Alike p q) (hw : Wire p q k l) (hb : Bundles p s k) (hq : TcpPoolSpec.Quiet p s)
    (hdel : Delivered k l) (hsk : k.stage = .session) (hsl : l.stage = .session) (hno : p.refuse = false ∨ q.refuse = false) :
    received l = contents s k := by
  obtain ⟨a, b, h1, h2, h3, h4, h5, h6, h7, h8, h9, h10, h11⟩ := tcpPair_sessions hs ht hk hl hal hw hb
  obtain ⟨hc, _⟩ := hist_run hs
  obtain ⟨fates, g1, _, g3, g4⟩ := conn_fates p.env p.refuse q.refuse p.loc q.loc p.loc q.loc hal.mru.2 hal.nothing h1 h2 h3 h4 h5
  have hf : fates = (contents s k).map some := by
    apply List.ext_getElem?
    intro j
    cases hj : k.entered[j]? with
    | none =>
      have hc1 : (contents s k)[j]? = none := by unfold contents; rw [List.getElem?_map, hj]; rfl
      rw [List.getElem?_map, hc1]
      cases hfj : fates[j]? with
      | none => rfl
      | some f =>
        obtain ⟨data, m1, _⟩ := g3 j f hfj
        have := h9 j data m1
        rw [hc1] at this
        cases this
    | some i =>
      have hans := C118_answered hs ht hk hl hal hw hb hq hdel hsk hsl (List.mem_of_getElem? hj)
      obtain ⟨r, e1, e2⟩ := (tcpPool_answer_iff s i _).mp hans
      have hro := hc.req i r e1
      unfold ReqOk at hro
      rw [e2] at hro
      obtain ⟨c', k', j', x, f1, f2, f3, f4⟩ := hro
      obtain ⟨rfl, rfl⟩ := hc.once c c' j j' i ⟨k, hk, hj⟩ ⟨k', f1, f2⟩
      rw [hk] at f1
      cases f1
      rw [h10 x f3] at f4
      obtain ⟨data, m1, m2⟩ := g4 j f4
      rw [List.getElem?_map, h9 j data m1]
      rcases m2 with m | ⟨_, m, y, _, _, _, m5⟩
      · exact m
      · rw [h2] at m5
        have := run_refused_set hal.mru.1 _ m5
        rcases hno with e | e
        · rw [e] at m; cases m
        · rw [e] at this; cases this
  rw [← h8, g1, hf, List.filterMap_map]
  simp

end Dtn.Props
