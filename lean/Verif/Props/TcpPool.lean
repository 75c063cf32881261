import Verif.Lemmas.TcpPoolMoves
import Verif.Lemmas.TcpPoolSmall
import Verif.Props.TcpclSession
import Verif.Props.Clas
/-! # C117: the layer `tcp` around its sessions -/

namespace Dtn.Props
open Dtn.Tcpcl Dtn.Spec
open Dtn.Clas (Answer Sock)
open Dtn.TcpPool
open Dtn.Spec.TcpPoolSpec

namespace TcpPoolEx

/-- A node for the examples. -/
def cfg : Cfg Nat where
  net := ClasEx.net
  env := exSessEnv
  refuse := false
  loc := exSessInit
  node b := if b = [1] then some (some "dtn://b/") else none

/-- A transfer that needs a new connection, up to its acknowledgement. -/
def sent : List (TcpPool.Ev Nat) :=
  [.request "10.0.0.1:16162" [0x9f, 1, 2, 3], .take, .go 0 true, .go 0 true, .go 0 true, .contact 0 true, .params 0 (some exSessInit) false,
    .next 0, .message 0 (fun _ => false) (.xferAck { flags := {}, tid := 1, len := 4 })]

/-- Whatever can happen has a state after it. -/
theorem after {evs : List (TcpPool.Ev Nat)} (h : (TcpPool.run cfg {} evs).isSome = true) :
    TcpPoolSpec.After cfg evs ((TcpPool.run cfg {} evs).get h) := by
  unfold TcpPoolSpec.After; simp

end TcpPoolEx

set_option linter.unusedSectionVars false

variable {A : Type} [DecidableEq A]

theorem tcpPool_answer_iff (s : TcpPool.State A) (i : Nat) (ans : Answer) :
    TcpPoolSpec.answer s i = some ans ↔ ∃ r, s.reqs[i]? = some r ∧ r.pc = .done ans := by
  unfold TcpPoolSpec.answer
  cases h : s.reqs[i]? with
  | none => simp
  | some r =>
    obtain ⟨dest, data, pc⟩ := r
    cases pc <;> simp

/-- C117: whoever asks the layer `tcp` for a transfer gets at most one answer: it never changes. What was asked for never changes either. -/
theorem C117_answer_final {cfg : Cfg A} {evs more : List (TcpPool.Ev A)} {s t : TcpPool.State A} (h : TcpPoolSpec.After cfg evs s)
    (hr : TcpPool.run cfg s more = some t) (i : Nat) :
    (∀ ans, TcpPoolSpec.answer s i = some ans → TcpPoolSpec.answer t i = some ans) ∧
    ∀ dest data, TcpPoolSpec.Asked s i dest data → TcpPoolSpec.Asked t i dest data := by
  have hl := later_run (hist_run h).1 hr
  constructor
  · intro ans ha
    obtain ⟨r, h1, h2⟩ := (tcpPool_answer_iff s i ans).mp ha
    obtain ⟨r', h3, _, _, h4⟩ := hl i r h1
    exact (tcpPool_answer_iff t i ans).mpr ⟨r', h3, h4 ans h2⟩
  · rintro dest data ⟨r, h1, h2, h3⟩
    obtain ⟨r', h4, h5, h6, _⟩ := hl i r h1
    exact ⟨r', h4, h5.trans h2, h6.trans h3⟩

example : (TcpPool.run TcpPoolEx.cfg {} TcpPoolEx.sent).map (TcpPoolSpec.answer · 0) = some (some (.replied .successful)) ∧
    ((TcpPool.run TcpPoolEx.cfg {} (TcpPoolEx.sent ++ [.lost 0])).map (TcpPoolSpec.answer · 0)) = some (some (.replied .successful)) := by
  decide +kernel

/-- C117: the node never works for ever without hearing from callers or peers: after any history, what it can do by itself, in any
order, is at most six things per transfer and one per command waiting. -/
theorem C117_work_ends {cfg : Cfg A} {evs : List (TcpPool.Ev A)} {s : TcpPool.State A} (h : TcpPoolSpec.After cfg evs s)
    {more : List (TcpPool.Ev A)} {t : TcpPool.State A} (hm : ∀ e ∈ more, TcpPoolSpec.Local e) (hr : TcpPool.run cfg s more = some t) :
    more.length ≤ 6 * s.reqs.length + s.queue.length := by
  have key : ∀ (more : List (TcpPool.Ev A)) (s t : TcpPool.State A), Core cfg s → (∀ e ∈ more, TcpPoolSpec.Local e) →
      TcpPool.run cfg s more = some t → more.length ≤ work s.reqs + s.queue.length := by
    intro more
    induction more with
    | nil => intro s t _ _ _; exact Nat.zero_le _
    | cons e es ih =>
      intro s t hc hm hr
      simp only [TcpPool.run] at hr
      obtain ⟨u, h1, h2⟩ := Option.bind_eq_some_iff.mp hr
      have g1 := work_step hc (hm e (by simp)) h1
      have g2 := ih u t (core_step hc h1) (fun x hx => hm x (List.mem_cons_of_mem _ hx)) h2
      simp only [List.length_cons]
      omega
  have g1 := key more s t (hist_run h).1 hm hr
  have g2 := work_le s.reqs
  omega

example : (∀ e ∈ ([.take, .go 0 true, .go 0 true, .go 0 true] : List (TcpPool.Ev Nat)), TcpPoolSpec.Local e) ∧
    (TcpPool.run TcpPoolEx.cfg {} (TcpPoolEx.sent.take 5)).isSome = true := by
  refine ⟨?_, by decide +kernel⟩
  intro e he
  simp at he
  rcases he with rfl | rfl <;> trivial

/-- A connection that transfers wait for. -/
theorem tcpPool_stuck {cfg : Cfg A} {s : TcpPool.State A} (h : Core cfg s) (hq : TcpPoolSpec.Quiet cfg s) {c : Nat} {k : Chan A}
    (hk : s.chans[c]? = some k) (hne : k.stage ≠ .ended)
    (hw : k.taken < k.entered.length ∨ (k.stage = .session ∧ ∃ x, k.sess = some x ∧ x.tx ≠ .idle)) : TcpPoolSpec.PeersTurn s c := by
  refine ⟨k, hk, ?_⟩
  cases hst : k.stage with
  | connecting =>
    obtain ⟨i, r, a, h1, h2⟩ := h.connecting c k hk hst
    have := hq (.go i true) trivial
    simp only [TcpPool.step, h1, State.go, h2] at this
    simp at this
  | contact => exact .inl rfl
  | params => exact .inr (.inl rfl)
  | ended => exact absurd hst hne
  | session =>
    refine .inr (.inr ⟨rfl, ?_⟩)
    obtain ⟨x, hx, htd⟩ := (h.chan c k hk).live hst
    rcases hw with hw | ⟨_, hw⟩
    · refine ⟨x, hx, ?_⟩
      intro hi
      obtain ⟨r, g1, _⟩ := h.member c k hk k.taken (k.entered[k.taken]) (List.getElem?_eq_getElem hw)
      have := hq (.next c) trivial
      simp only [TcpPool.step, State.next, hk, hx, List.getElem?_eq_getElem hw, g1] at this
      rw [if_pos ⟨hi, hst⟩] at this
      simp only [State.session, hst] at this
      cases this
    · exact hw

/-- C117: when the node has done what it can, every transfer asked for has been answered, or there is an open connection with the
destination of the transfer, and on this connection it is the peer's turn. -/
theorem C117_waits_for_peer {cfg : Cfg A} {evs : List (TcpPool.Ev A)} {s : TcpPool.State A} (h : TcpPoolSpec.After cfg evs s)
    (hq : TcpPoolSpec.Quiet cfg s) {i : Nat} {dest : String} {data : Bytes} (ha : TcpPoolSpec.Asked s i dest data) :
    (∃ ans, TcpPoolSpec.answer s i = some ans) ∨
    ∃ a c, cfg.net.parse dest = some a ∧ TcpPoolSpec.Open s c a ∧ TcpPoolSpec.PeersTurn s c := by
  have hc := (hist_run h).1
  obtain ⟨r, hr, rfl, rfl⟩ := ha
  have hro := hc.req i r hr
  unfold ReqOk at hro
  cases hp : r.pc with
  | queued =>
    rw [hp] at hro
    exfalso
    have := hq .take trivial
    simp only [TcpPool.step, State.take] at this
    split at this
    · next hal =>
      have := hc.dead (by simpa using hal)
      rw [this] at hro
      simp at hro
    · split at this
      · next e => rw [e] at hro; simp at hro
      · cases this
      · cases this
  | start =>
    exfalso
    have := hq (.go i true) trivial
    simp only [TcpPool.step, hr, State.go, hp] at this
    split at this
    · cases this
    · split at this <;> cases this
  | connect a c =>
    exfalso
    have := hq (.go i true) trivial
    simp only [TcpPool.step, hr, State.go, hp] at this
    simp at this
  | send a c =>
    rw [hp] at hro
    obtain ⟨g1, k, g2, g3⟩ := hro
    have := hq (.go i true) trivial
    simp only [TcpPool.step, hr, State.go, hp, g2] at this
    split at this
    · cases this
    · next hne =>
      split at this
      · cases this
      · next hfull =>
        refine .inr ⟨a, c, g1, ⟨k, g2, g3, hne⟩, tcpPool_stuck hc hq g2 hne (.inl ?_)⟩
        simp only [capacity] at hfull
        omega
  | waiting c =>
    rw [hp] at hro
    obtain ⟨k, j, g1, g2⟩ := hro
    obtain ⟨r', g3, g4, g5, g6⟩ := hc.member c k g1 j i g2
    rw [hr] at g3
    cases g3
    rw [hp] at g5
    unfold Fits at g5
    split at g5
    · obtain ⟨ans, e, _⟩ := g5; cases e
    · next hne =>
      split at g5
      · next hle =>
        refine .inr ⟨k.addr, c, g4, ⟨k, g1, rfl, hne⟩, tcpPool_stuck hc hq g1 hne (.inl ?_)⟩
        exact Nat.lt_of_le_of_lt hle (List.getElem?_eq_some_iff.mp g2).1
      · split at g5
        · cases g5
        · obtain ⟨_, _, _, _, e⟩ := g5; cases e
  | flying c =>
    rw [hp] at hro
    obtain ⟨k, j, g1, g2⟩ := hro
    obtain ⟨r', g3, g4, g5, g6⟩ := hc.member c k g1 j i g2
    rw [hr] at g3
    cases g3
    rw [hp] at g5
    unfold Fits at g5
    split at g5
    · obtain ⟨ans, e, _⟩ := g5; cases e
    · next hne =>
      split at g5
      · cases g5
      · next hlt =>
        split at g5
        · next htx =>
          have hst : k.stage = .session := by
            by_cases hst : k.stage = .session
            · exact hst
            · have := (hc.chan c k g1).early hst hne
              omega
          obtain ⟨x, hx, _⟩ := (hc.chan c k g1).live hst
          refine .inr ⟨k.addr, c, g4, ⟨k, g1, rfl, hne⟩, tcpPool_stuck hc hq g1 hne (.inr ⟨hst, x, hx, ?_⟩)⟩
          intro hi
          rw [hx] at htx
          simp [hi, txReq] at htx
        · obtain ⟨_, _, _, _, e⟩ := g5; cases e
  | done ans => exact .inl ⟨ans, (tcpPool_answer_iff s i ans).mpr ⟨r, hr, hp⟩⟩

example : (TcpPool.run TcpPoolEx.cfg {} [.request "10.0.0.1:16162" [0x9f], .request "10.0.0.2:16162" [0x9f], .take, .take, .go 0 true,
    .go 0 true, .go 0 true, .go 1 true, .go 1 false]).map (fun s => (s.queue.length, s.reqs.map (·.pc), s.chans.map (·.stage))) =
      some (0, [.waiting 0, .done (.replied .failure)], [.contact, .ended]) := by decide +kernel

/-- C117: when a connection is over, everything that had been put on it has been answered. -/
theorem C117_over {cfg : Cfg A} {evs : List (TcpPool.Ev A)} {s : TcpPool.State A} (h : TcpPoolSpec.After cfg evs s) {c j i : Nat}
    {k : Chan A} (hk : s.chans[c]? = some k) (hover : k.stage = .ended) (hn : TcpPoolSpec.Nth s c j i) :
    ∃ ans, TcpPoolSpec.answer s i = some ans := by
  have hc := (hist_run h).1
  obtain ⟨k', h1, h2⟩ := hn
  rw [hk] at h1
  cases h1
  obtain ⟨r, g1, _, g3, _⟩ := hc.member c k hk j i h2
  unfold Fits at g3
  rw [if_pos hover] at g3
  obtain ⟨ans, e, _⟩ := g3
  exact ⟨ans, (tcpPool_answer_iff s i ans).mpr ⟨r, g1, e⟩⟩

/-- Two transfers to the same peer; the connection is lost when the first is being sent. -/
def tcpPoolLost : List (TcpPool.Ev Nat) :=
  [.request "10.0.0.1:16162" [0x9f, 1, 2, 3], .request "10.0.0.1:16162" [0x9f, 4, 5], .take, .take, .go 0 true, .go 1 true, .go 1 true,
    .go 0 true, .go 0 true, .contact 0 true, .params 0 (some exSessInit) false, .next 0]

example : (TcpPool.run TcpPoolEx.cfg {} (tcpPoolLost ++ [.lost 0])).map (fun s =>
    (TcpPoolSpec.answer s 0, TcpPoolSpec.answer s 1, s.chans.map (·.stage), s.chans.map (·.entered))) =
      some (some .lost, some .lost, [.ended], [[1, 0]]) := by decide +kernel

/-- C117: with no connection open and nothing left to do for the node, every transfer has been answered. -/
theorem C117_all_answered {cfg : Cfg A} {evs : List (TcpPool.Ev A)} {s : TcpPool.State A} (h : TcpPoolSpec.After cfg evs s)
    (hq : TcpPoolSpec.Quiet cfg s) (hno : ∀ c a, ¬ TcpPoolSpec.Open s c a) {i : Nat} {dest : String} {data : Bytes}
    (ha : TcpPoolSpec.Asked s i dest data) : ∃ ans, TcpPoolSpec.answer s i = some ans := by
  rcases C117_waits_for_peer h hq ha with g | ⟨a, c, _, g, _⟩
  · exact g
  · exact absurd g (hno c a)

example : (TcpPool.run TcpPoolEx.cfg {} (TcpPoolEx.sent ++ [.lost 0])).map (fun s =>
    (s.queue.length, s.reqs.map (·.pc), s.chans.map (·.stage))) = some (0, [.done (.replied .successful)], [.ended]) := by decide +kernel

/-- C117: a transfer answered as successful was put on a connection with its destination and the peer has confirmed it there, under
its own number. (Refusals count if this node is set to ask first, see C46.) -/
theorem C117_success {cfg : Cfg A} {evs : List (TcpPool.Ev A)} {s : TcpPool.State A} (h : TcpPoolSpec.After cfg evs s) {i : Nat}
    {dest : String} {data : Bytes} (ha : TcpPoolSpec.Asked s i dest data) (hs : TcpPoolSpec.answer s i = some (.replied .successful)) :
    ∃ a, ∃ (c : Nat) (k : Chan A) (j : Nat), cfg.net.parse dest = some a ∧ s.chans[c]? = some k ∧ k.addr = a ∧ k.entered[j]? = some i ∧
      ∃ p ∈ TcpPoolSpec.heard k, TcpPoolSpec.Confirms cfg.refuse j data p := by
  obtain ⟨hc, hh⟩ := hist_run h
  obtain ⟨r, hr, rfl, rfl⟩ := ha
  obtain ⟨r', h1, hp⟩ := (tcpPool_answer_iff s i _).mp hs
  rw [hr] at h1
  cases h1
  have hro := hc.req i r hr
  unfold ReqOk at hro
  rw [hp] at hro
  obtain ⟨c, k, j, x, g1, g2, g3, g4⟩ := hro
  obtain ⟨r', e1, e2, e3, e4⟩ := hc.member c k g1 j i g2
  rw [hr] at e1
  cases e1
  obtain ⟨rem, f1, f2⟩ := (hh c k g1).2 x g3
  have hf := run_facts cfg.env cfg.refuse cfg.loc rem k.history
  simp only at hf
  rw [← f2] at hf
  obtain ⟨d, p, has, q1, q2, q3⟩ := hf.2.2 j g4
  have hjt : j < k.taken := by
    rw [← (hc.chan c k g1).count x g3]
    exact (List.getElem?_eq_some_iff.mp q1).1
  have := e4 x g3 hjt
  rw [q1] at this
  cases this
  refine ⟨k.addr, c, k, j, e2, g1, rfl, g2, p, ?_, q3⟩
  unfold heard
  rw [List.mem_filterMap]
  exact ⟨_, q2, rfl⟩

/-- C117: a transfer is put on at most one connection, and there only once. -/
theorem C117_once {cfg : Cfg A} {evs : List (TcpPool.Ev A)} {s : TcpPool.State A} (h : TcpPoolSpec.After cfg evs s) {c c' j j' i : Nat}
    (h1 : TcpPoolSpec.Nth s c j i) (h2 : TcpPoolSpec.Nth s c' j' i) : c = c' ∧ j = j' :=
  (hist_run h).1.once c c' j j' i h1 h2

example : (TcpPool.run TcpPoolEx.cfg {} tcpPoolLost).map (fun s => s.chans.map (·.entered)) = some [[1, 0]] := by decide +kernel

/-- C117: what is written to a connection are the transfers put on it, in this order, each with all its bytes: the segments written are
one group per transfer, the group with index `j` is a segmentation of the bytes of the transfer with index `j` under the number `j + 1`.
(If this node is set to ask first there is a question before them, and nothing if the peer refuses.) -/
theorem C117_sent {cfg : Cfg A} {evs : List (TcpPool.Ev A)} {s : TcpPool.State A} (h : TcpPoolSpec.After cfg evs s) {c : Nat} {k : Chan A}
    {x : Sess} {rem : SessInit} (hk : s.chans[c]? = some k) (hx : k.sess = some x) (hrem : k.remote = some rem) (hmru : 0 < rem.segmentMru) :
    ∃ parts : List (List XferSeg), segsIn x.out = parts.flatten ∧ parts.length ≤ k.entered.length ∧
      ∀ (j : Nat) part, parts[j]? = some part → ∃ i dest data, k.entered[j]? = some i ∧ TcpPoolSpec.Asked s i dest data ∧
        cfg.net.parse dest = some k.addr ∧
        (cfg.refuse = false → IsSegmentation true (j + 1) rem.segmentMru data part) ∧
        (cfg.refuse = true → (part = [] ∧ cfg.env.parses data = false) ∨
          ∃ q rest, part = q :: rest ∧ q.buf = [] ∧ q.tid = j + 1 ∧ (rest = [] ∨ IsSegmentation false (j + 1) rem.segmentMru data rest)) := by
  obtain ⟨hc, hh⟩ := hist_run h
  obtain ⟨rem', f1, f2⟩ := (hh c k hk).2 x hx
  rw [hrem] at f1
  cases f1
  obtain ⟨parts, g1, g2, g3⟩ := C45_tcpcl_segments_every_request cfg.env cfg.refuse cfg.loc rem hmru k.history x f2
  have hcount := (hc.chan c k hk).count x hx
  have htk := (hc.chan c k hk).taken
  refine ⟨parts, g1, by omega, ?_⟩
  intro j part hj
  have hjl : j < parts.length := (List.getElem?_eq_some_iff.mp hj).1
  have hje : j < k.entered.length := by omega
  obtain ⟨r, e1, e2, e3, e4⟩ := hc.member c k hk j _ (List.getElem?_eq_getElem hje)
  have hd := e4 x hx (by omega)
  obtain ⟨p1, p2⟩ := g3 j r.data part hd hj
  refine ⟨_, r.dest, r.data, List.getElem?_eq_getElem hje, ⟨r, e1, rfl, rfl⟩, e2, p1, ?_⟩
  intro hrf
  rcases p2 hrf with p | ⟨q, rest, q1, q2, q3, q4, q5, q6, q7⟩
  · exact .inl p
  · exact .inr ⟨q, rest, q1, q2, q4, q7⟩

example : (TcpPool.run TcpPoolEx.cfg {} TcpPoolEx.sent).map (fun s => s.chans.map fun k => (k.addr, k.entered, (TcpPoolSpec.heard k).length)) =
      some [(1, [0], 1)] ∧
    (TcpPool.run TcpPoolEx.cfg {} TcpPoolEx.sent).map (fun s => s.chans.map fun k => (k.sess.map fun x => (segsIn x.out).map (·.buf)).getD []) =
      some [[[0x9f, 1, 2], [3]]] ∧
    (TcpPool.run TcpPoolEx.cfg {} TcpPoolEx.sent).map (fun s => s.chans.map (·.remote)) = some [some exSessInit] := by decide +kernel

/-- An open connection can be used. -/
theorem tcpPool_usable {s : TcpPool.State A} {a : A} {c : Nat} {k : Chan A} (h1 : AList.get? s.table a = some c) (h2 : s.chans[c]? = some k)
    (h3 : k.stage ≠ .ended) : s.usable a = some c := by
  unfold State.usable
  rw [h1]
  simp only [h2]
  rw [if_neg h3]

/-- Without connections from there, the table names the open connection with an address. -/
theorem tcpPool_table {cfg : Cfg A} {evs : List (TcpPool.Ev A)} {s : TcpPool.State A} (h : TcpPoolSpec.After cfg evs s) {a : A}
    (hna : .accept a ∉ evs) (c : Nat) (ho : TcpPoolSpec.Open s c a) : AList.get? s.table a = some c := by
  have key : ∀ (evs : List (TcpPool.Ev A)) (s t : TcpPool.State A), Core cfg s → .accept a ∉ evs →
      (∀ c, TcpPoolSpec.Open s c a → AList.get? s.table a = some c) → TcpPool.run cfg s evs = some t →
      ∀ c, TcpPoolSpec.Open t c a → AList.get? t.table a = some c := by
    intro evs
    induction evs with
    | nil => intro s t _ _ hi hr; cases hr; exact hi
    | cons e es ih =>
      intro s t hc hn hi hr
      simp only [TcpPool.run] at hr
      obtain ⟨u, g1, g2⟩ := Option.bind_eq_some_iff.mp hr
      refine ih u t (core_step hc g1) (fun hm => hn (List.mem_cons_of_mem _ hm)) ?_ g2
      rintro d ⟨k', k1, k2, k3⟩
      rcases (chans_step hc g1).new d k' k1 with ⟨k, e1, e2⟩ | ⟨_, _, e3⟩
      · have hne : k.stage ≠ .ended := fun e => k3 (e2.ended e)
        have hd := hi d ⟨k, e1, e2.addr.symm.trans k2, hne⟩
        rcases table_step hc g1 with ht | ⟨b, ht, hb⟩
        · rw [ht]; exact hd
        · rw [ht, AList.get?_insert]
          split
          · next hab =>
            subst hab
            rcases hb with rfl | hb
            · exact absurd (by simp) hn
            · rw [tcpPool_usable hd e1 hne] at hb
              cases hb
          · exact hd
      · rw [k2] at e3
        exact e3
  exact key evs {} s (core_init cfg) hna (by rintro d ⟨k, hk, _⟩; simp at hk) h c ho

/-- C117: unless peers connect to it from there, the node never has more than one connection at a time with an address, however many
transfers run at once. -/
theorem C117_one_connection {cfg : Cfg A} {evs : List (TcpPool.Ev A)} {s : TcpPool.State A} (h : TcpPoolSpec.After cfg evs s) {a : A}
    (hna : .accept a ∉ evs) {c c' : Nat} (h1 : TcpPoolSpec.Open s c a) (h2 : TcpPoolSpec.Open s c' a) : c = c' := by
  have g1 := tcpPool_table h hna c h1
  have g2 := tcpPool_table h hna c' h2
  rw [g1] at g2
  cases g2
  rfl

example : .accept 1 ∉ tcpPoolLost ∧ (TcpPool.run TcpPoolEx.cfg {} tcpPoolLost).map (fun s => s.chans.map fun k => (k.addr, k.stage)) =
    some [(1, .session)] := by
  refine ⟨by simp [tcpPoolLost], by decide +kernel⟩

/-- C117: connections stay open for later transfers: this node hangs up one that nobody uses only if another connection has come in
from the same address, which takes its place. -/
theorem C117_hangs_up {cfg : Cfg A} {evs : List (TcpPool.Ev A)} {s t : TcpPool.State A} (h : TcpPoolSpec.After cfg evs s) {c : Nat}
    (hs : TcpPool.step cfg s (.closed c) = some t) : ∃ a, TcpPoolSpec.Open s c a ∧ .accept a ∈ evs := by
  unfold TcpPool.step at hs
  simp only at hs
  split at hs
  · cases hs
  · next k hk =>
    split at hs
    · next hcond =>
      have hst : k.stage = .session := by
        unfold State.session at hs
        split at hs
        · assumption
        · cases hs
      have ho : TcpPoolSpec.Open s c k.addr := ⟨k, hk, rfl, by rw [hst]; simp⟩
      refine ⟨k.addr, ho, Classical.byContradiction fun hn => ?_⟩
      have hm := AList.mem_of_get? (tcpPool_table h hn c ho)
      have hsl := hcond.2.1
      unfold State.senderless at hsl
      rw [Bool.and_eq_true, List.all_eq_true] at hsl
      simpa using hsl.1 _ hm
    · cases hs

example : (TcpPool.run TcpPoolEx.cfg {} (TcpPoolEx.sent ++ [.closed 0])).isSome = false ∧
    (TcpPool.run TcpPoolEx.cfg {} (TcpPoolEx.sent ++ [.accept 1, .closed 0])).isSome = true := by decide +kernel

/-- A connection that is over stays over. -/
theorem tcpPool_ended {cfg : Cfg A} {evs : List (TcpPool.Ev A)} {c : Nat} : ∀ {s t : TcpPool.State A} {k : Chan A}, Core cfg s →
    s.chans[c]? = some k → k.stage = .ended → TcpPool.run cfg s evs = some t → ∃ k', t.chans[c]? = some k' ∧ k'.stage = .ended := by
  induction evs with
  | nil => intro s t k _ hk he hr; cases hr; exact ⟨k, hk, he⟩
  | cons e es ih =>
    intro s t k hc hk he hr
    simp only [TcpPool.run] at hr
    obtain ⟨u, g1, g2⟩ := Option.bind_eq_some_iff.mp hr
    obtain ⟨k', e1, e2⟩ := (chans_step hc g1).old c k hk
    exact ih (core_step hc g1) e1 (e2.ended he) g2

/-- What is so while a connection that came in is open. -/
structure TcpPoolBack (a : A) (n c : Nat) (u : TcpPool.State A) : Prop where
  table : AList.get? u.table a = some c
  chans : ∀ (d : Nat) k, u.chans[d]? = some k → c < d → k.addr ≠ a
  reqs : ∀ (i : Nat) r, n ≤ i → u.reqs[i]? = some r → (∀ d, r.pc ≠ .connect a d) ∧ ∀ d, r.pc = .send a d → d = c
  nth : ∀ d j i k, n ≤ i → TcpPoolSpec.Nth u d j i → u.chans[d]? = some k → k.addr = a → d = c

theorem tcpPool_back_step {cfg : Cfg A} {a : A} {n c : Nat} {u v : TcpPool.State A} (hc : Core cfg u) (hb : TcpPoolBack a n c u)
    (ho : TcpPoolSpec.Open u c a) {e : TcpPool.Ev A} (he : e ≠ .accept a) (hs : TcpPool.step cfg u e = some v) : TcpPoolBack a n c v := by
  obtain ⟨k0, o1, o2, o3⟩ := ho
  have huse := tcpPool_usable hb.table o1 o3
  have htab : AList.get? v.table a = some c := by
    rcases table_step hc hs with ht | ⟨b, ht, hh⟩
    · rw [ht]; exact hb.table
    · rw [ht, AList.get?_insert]
      split
      · next hab =>
        subst hab
        rcases hh with rfl | hh
        · exact absurd rfl he
        · rw [huse] at hh
          cases hh
      · exact hb.table
  have hnew : ∀ (d : Nat) k', v.chans[d]? = some k' → k'.addr = a → ∃ k, u.chans[d]? = some k ∧ k.addr = a := by
    intro d k' hk' hka
    rcases (chans_step hc hs).new d k' hk' with ⟨k, e1, e2⟩ | ⟨e1, _, e3⟩
    · exact ⟨k, e1, e2.addr.symm.trans hka⟩
    · rw [hka, htab] at e3
      cases e3
      rw [e1] at o1
      simp at o1
  refine ⟨htab, ?_, ?_, ?_⟩
  · intro d k' hk' hlt hka
    obtain ⟨k, e1, e2⟩ := hnew d k' hk' hka
    exact hb.chans d k e1 hlt e2
  · intro i r' hi hr'
    rcases moved_step hc hs i r' hr' with ⟨r, e1, _, _, e4⟩ | ⟨_, e2, _⟩
    · obtain ⟨q1, q2⟩ := hb.reqs i r hi e1
      generalize r'.pc = pc at e4
      cases e4 with
      | same => exact ⟨q1, q2⟩
      | done ans => exact ⟨by simp, by simp⟩
      | start _ => exact ⟨by simp, by simp⟩
      | @use b d hp hpa hu =>
        refine ⟨by simp, ?_⟩
        intro d' hd
        cases hd
        rw [huse] at hu
        cases hu
        rfl
      | @connect b hp hpa hu =>
        refine ⟨?_, by simp⟩
        intro d' hd
        cases hd
        rw [huse] at hu
        cases hu
      | @send b d hp =>
        refine ⟨by simp, ?_⟩
        intro d' hd
        cases hd
        exact absurd hp (q1 _)
      | enter _ => exact ⟨by simp, by simp⟩
      | fly _ => exact ⟨by simp, by simp⟩
    · rcases e2 with e | e
      · rw [e]; exact ⟨by simp, by simp⟩
      · rw [e]; exact ⟨by simp, by simp⟩
  · intro d j i k' hi hn hk' hka
    obtain ⟨k, e1, e2⟩ := hnew d k' hk' hka
    rcases entered_step hc hs d j i hn with g | ⟨r, b, g1, g2⟩
    · exact hb.nth d j i k hi g e1 e2
    · have hro := hc.req i r g1
      unfold ReqOk at hro
      rw [g2] at hro
      obtain ⟨_, k2, g3, g4⟩ := hro
      rw [e1] at g3
      cases g3
      rw [e2] at g4
      subst g4
      exact (hb.reqs i r hi g1).2 d g2

/-- C117: connections that come in are used in both directions: as long as a connection that came in from `a` is open and no other has
come in from there, no connection with `a` is made and every transfer to `a` asked for since then that is put on a connection is put on
this one. -/
theorem C117_back_channel {cfg : Cfg A} {evs more : List (TcpPool.Ev A)} {s s1 t : TcpPool.State A} {a : A} (h : TcpPoolSpec.After cfg evs s)
    (hs : TcpPool.step cfg s (.accept a) = some s1) (hr : TcpPool.run cfg s1 more = some t) (hna : .accept a ∉ more)
    (ho : TcpPoolSpec.Open t s.chans.length a) :
    (∀ (c : Nat) k, t.chans[c]? = some k → s.chans.length < c → k.addr ≠ a) ∧
    ∀ c j i dest data, TcpPoolSpec.Nth t c j i → TcpPoolSpec.Asked t i dest data → cfg.net.parse dest = some a → s.reqs.length ≤ i →
      c = s.chans.length := by
  have hc := (hist_run h).1
  have key : ∀ (more : List (TcpPool.Ev A)) (u : TcpPool.State A), Core cfg u → TcpPoolBack a s.reqs.length s.chans.length u → .accept a ∉ more →
      (∃ k, u.chans[s.chans.length]? = some k ∧ k.addr = a) →
      TcpPool.run cfg u more = some t → TcpPoolBack a s.reqs.length s.chans.length t := by
    intro more
    induction more with
    | nil => intro u _ hb _ _ hr; cases hr; exact hb
    | cons e es ih =>
      intro u hu hb hn hk hr
      obtain ⟨k, hk, hka⟩ := hk
      have hopen : TcpPoolSpec.Open u s.chans.length a := by
        refine ⟨k, hk, hka, ?_⟩
        intro hend
        obtain ⟨k', e1, e2⟩ := tcpPool_ended hu hk hend hr
        obtain ⟨k2, o1, _, o3⟩ := ho
        rw [e1] at o1
        cases o1
        exact o3 e2
      simp only [TcpPool.run] at hr
      obtain ⟨v, g1, g2⟩ := Option.bind_eq_some_iff.mp hr
      obtain ⟨k', e1, e2⟩ := (chans_step hu g1).old _ k hk
      exact ih v (core_step hu g1) (tcpPool_back_step hu hb hopen (fun e' => hn (by rw [e']; simp)) g1)
        (fun hm => hn (List.mem_cons_of_mem _ hm)) ⟨k', e1, e2.addr.trans hka⟩ g2
  have hs1 := step_accept hs
  have hlast : s1.chans[s.chans.length]? = some { addr := a, active := false, stage := .contact } := by rw [hs1]; simp [State.open]
  have hb : TcpPoolBack a s.reqs.length s.chans.length s1 := by
    refine ⟨by rw [hs1]; simp [State.open], ?_, ?_, ?_⟩
    · intro d k hk hlt
      rw [hs1] at hk
      rcases append_get hk with ⟨_, hl⟩ | ⟨rfl, _⟩
      · omega
      · exact absurd hlt (Nat.lt_irrefl _)
    · intro i r hi hri
      rw [hs1] at hri
      have : i < s.reqs.length := (List.getElem?_eq_some_iff.mp hri).1
      omega
    · rintro d j i k hi ⟨k', q1, q2⟩ _ _
      rw [hs1] at q1
      rcases append_get q1 with ⟨q1, _⟩ | ⟨rfl, _⟩
      · obtain ⟨r, q3, _⟩ := hc.member d k' q1 j i q2
        have : i < s.reqs.length := (List.getElem?_eq_some_iff.mp q3).1
        omega
      · rfl
  have hc1 := core_step hc hs
  have hbt := key more s1 hc1 hb hna ⟨_, hlast, rfl⟩ hr
  refine ⟨hbt.chans, ?_⟩
  rintro c j i dest data hn ⟨r, r1, rfl, _⟩ hpa hi
  obtain ⟨k, q1, q2⟩ := hn
  have hct := core_run hc1 hr
  obtain ⟨r', q3, q4, _⟩ := hct.member c k q1 j i q2
  rw [r1] at q3
  cases q3
  rw [hpa] at q4
  cases q4
  exact hbt.nth c j i k hi ⟨k, q1, q2⟩ q1 rfl

/-- A peer connects, and a bundle is sent to it. -/
def tcpPoolBackEvs : List (TcpPool.Ev Nat) :=
  [.request "10.0.0.1:16162" [0x9f, 1, 2, 3], .take, .go 0 true, .go 0 true]

example : (TcpPool.run TcpPoolEx.cfg {} (.accept 1 :: tcpPoolBackEvs)).map (fun s => s.chans.map fun k => (k.addr, k.active, k.stage, k.entered)) =
    some [(1, false, .contact, [0])] ∧ .accept 1 ∉ tcpPoolBackEvs := by
  refine ⟨by decide +kernel, by simp [tcpPoolBackEvs]⟩

/-- C117: nothing but the order to stop ends the layer: neither destinations that are no addresses nor anything peers send. -/
theorem C117_survives {cfg : Cfg A} {evs : List (TcpPool.Ev A)} {s : TcpPool.State A} (h : TcpPoolSpec.After cfg evs s)
    (hn : .shutdown ∉ evs) : s.alive = true := by
  have key : ∀ (evs : List (TcpPool.Ev A)) (s t : TcpPool.State A), Core cfg s → .shutdown ∉ evs → ¬(none ∈ s.queue ∨ s.alive = false) →
      TcpPool.run cfg s evs = some t → ¬(none ∈ t.queue ∨ t.alive = false) := by
    intro evs
    induction evs with
    | nil => intro s t _ _ hi hr; cases hr; exact hi
    | cons e es ih =>
      intro s t hc hn hi hr
      simp only [TcpPool.run] at hr
      obtain ⟨u, g1, g2⟩ := Option.bind_eq_some_iff.mp hr
      exact ih u t (core_step hc g1) (fun hm => hn (List.mem_cons_of_mem _ hm))
        (fun hx => hi (lives_step hc (fun e' => hn (by rw [e']; simp)) g1 hx)) g2
  have := key evs {} s (core_init cfg) hn (by simp) h
  cases hs : s.alive with
  | true => rfl
  | false => exact absurd (.inr hs) this

example : (TcpPool.run TcpPoolEx.cfg {} [.request "nowhere" [1], .take, .go 0 true, .accept 7, .contact 0 false]).map (fun s =>
    (s.alive, TcpPoolSpec.answer s 0)) = some (true, some .lost) := by decide +kernel

/-- C117 is false for peers with an IPv6 address or a host name: their destinations cannot be read, so whatever happens no transfer to
them succeeds, and none is even put on a connection. -/
theorem C117_ipv6_violated {cfg : Cfg A} (ht : ClasSpec.SockText cfg.net) (p : Peer) (port : Option Nat) (c : Cla)
    (hp : (∃ a, p.addr = .ipv6 a ∧ 2 ≤ a.toList.count ':' ∧ a.toList.head? ≠ some '[') ∨
      (∃ a x, p.addr = .generic a ∧ a.toList.head? ≠ some '[' ∧ x ∈ a.toList ∧ x.isAlpha = true))
    {evs : List (TcpPool.Ev A)} {s : TcpPool.State A} (h : TcpPoolSpec.After cfg evs s) {i : Nat} {data : Bytes}
    (ha : TcpPoolSpec.Asked s i (p.sender port c).dest data) :
    TcpPoolSpec.answer s i ≠ some (.replied .successful) ∧ ∀ d j, ¬ TcpPoolSpec.Nth s d j i := by
  have hno := C98_peer_destinations_violated ht p port c hp
  constructor
  · intro hs
    obtain ⟨a, _, _, _, h1, _⟩ := C117_success h ha hs
    rw [hno] at h1
    cases h1
  · rintro d j ⟨k, q1, q2⟩
    obtain ⟨r, r1, r2, _⟩ := ha
    obtain ⟨r', q3, q4, _⟩ := (hist_run h).1.member d k q1 j i q2
    rw [r1] at q3
    cases q3
    rw [r2, hno] at q4
    cases q4

example : (TcpPool.run TcpPoolEx.cfg {} [.request (clasV6.sender (some 16162) ⟨"tcp", 4556, true⟩).dest [0x9f, 1], .take, .go 0 true]).map
    (TcpPoolSpec.answer · 0) = some (some .lost) := by decide +kernel

/-- Only the peer's greeting, or the end of the connection, ends the wait for it. -/
theorem tcpPool_contact_stays {cfg : Cfg A} {s t : TcpPool.State A} (h : Core cfg s) {c : Nat} {k : Chan A} (hk : s.chans[c]? = some k)
    (hst : k.stage = .contact) {e : TcpPool.Ev A} (he : ∀ ok, e ≠ .contact c ok) (hs : TcpPool.step cfg s e = some t) :
    ∃ k', t.chans[c]? = some k' ∧ k'.stage = .contact := by
  have hother : ∀ (u : TcpPool.State A) (d : Nat) (f : Chan A → Chan A), u.chans = s.chans.modify d f → d ≠ c → ∃ k', u.chans[c]? = some k' ∧ k'.stage = .contact := by
    intro u d f hu hd
    rw [hu, modify_get, if_neg hd]
    exact ⟨k, hk, hst⟩
  have hsess : ∀ (d : Nat) (k2 : Chan A) (has : Bytes → Bool) (ev : Sess.Ev) (u : TcpPool.State A), s.chans[d]? = some k2 →
      s.session cfg d k2 has ev = some u → ∃ k', u.chans[c]? = some k' ∧ k'.stage = .contact := by
    intro d k2 has ev u hd hu
    unfold State.session at hu
    split at hu
    · next x1 x2 old e1 e2 =>
      have hne : d ≠ c := by
        rintro rfl
        rw [hk] at hd
        cases hd
        rw [hst] at e1
        cases e1
      cases hu
      rw [settle_chans]
      split
      · rw [modify_get, if_neg hne, modify_get, if_neg hne]
        exact ⟨k, hk, hst⟩
      · rw [modify_get, if_neg hne]
        exact ⟨k, hk, hst⟩
    · cases hu
  cases e with
  | request dest data =>
    rw [(step_request hs).2.1]
    exact ⟨k, hk, hst⟩
  | shutdown =>
    rw [(step_shutdown hs).2.1]
    exact ⟨k, hk, hst⟩
  | take =>
    simp only [TcpPool.step, State.take] at hs
    split at hs
    · cases hs
    · split at hs
      · cases hs
      · cases hs; exact ⟨k, hk, hst⟩
      · cases hs; exact ⟨k, hk, hst⟩
  | go i ok =>
    simp only [TcpPool.step] at hs
    split at hs
    · cases hs
    · next r hr =>
      unfold State.go at hs
      split at hs
      · split at hs
        · cases hs; exact ⟨k, hk, hst⟩
        · split at hs
          · cases hs; exact ⟨k, hk, hst⟩
          · cases hs
            exact ⟨k, append_old hk, hst⟩
      · next a d hp =>
        have hne : d ≠ c := by
          rintro rfl
          have := h.req i r hr
          unfold ReqOk at this
          rw [hp] at this
          obtain ⟨_, k', h1, _, h2⟩ := this
          rw [hk] at h1
          cases h1
          rw [hst] at h2
          cases h2
        split at hs
        · cases hs
          exact hother _ d _ rfl hne
        · cases hs
          exact hother _ d (fun k => { k with stage := .ended }) rfl hne
      · next a d hp =>
        split at hs
        · cases hs
        · split at hs
          · cases hs; exact ⟨k, hk, hst⟩
          · split at hs
            · cases hs
              show ∃ k', (s.chans.modify d fun k => { k with entered := k.entered ++ [i] })[c]? = some k' ∧ _
              rw [modify_get]
              split
              · rw [hk]
                exact ⟨_, rfl, hst⟩
              · exact ⟨k, hk, hst⟩
            · cases hs
      · cases hs
  | accept a =>
    rw [step_accept hs]
    exact ⟨k, append_old hk, hst⟩
  | contact d ok =>
    have hne : d ≠ c := fun e => he ok (by rw [e])
    simp only [TcpPool.step] at hs
    split at hs
    · cases hs
    · split at hs
      · cases ok
        · cases hs; exact hother _ d (fun k => { k with stage := .ended }) rfl hne
        · cases hs; exact hother _ d _ rfl hne
      · cases hs
  | params d r known =>
    simp only [TcpPool.step] at hs
    split at hs
    · cases hs
    · next k2 hk2 =>
      split at hs
      · next hst2 =>
        have hne : d ≠ c := by
          rintro rfl
          rw [hk] at hk2
          cases hk2
          rw [hst] at hst2
          cases hst2
        have hclose := hother (s.close d) d (fun k => { k with stage := .ended }) rfl hne
        cases r with
        | none => cases hs; exact hclose
        | some r =>
          cases hs
          simp only [State.begun]
          split
          · exact hclose
          · split
            · exact hother _ d _ rfl hne
            · split
              · exact hclose
              · split
                · exact hother _ d _ rfl hne
                · exact hother _ d _ rfl hne
      · cases hs
  | next d =>
    obtain ⟨k2, old, i, r, hk2, hst2, _, _, _, _, _, _, _, rfl⟩ := next_facts h hs
    have hne : d ≠ c := by
      rintro rfl
      rw [hk] at hk2
      cases hk2
      rw [hst] at hst2
      cases hst2
    rw [settle_chans]
    split
    · simp only
      rw [modify_get, if_neg hne, modify_get, if_neg hne, modify_get, if_neg hne]
      exact ⟨k, hk, hst⟩
    · simp only
      rw [modify_get, if_neg hne, modify_get, if_neg hne]
      exact ⟨k, hk, hst⟩
  | message d has p =>
    simp only [TcpPool.step] at hs
    split at hs
    · cases hs
    · next k2 hk2 => exact hsess d k2 _ _ t hk2 hs
  | timeout d =>
    simp only [TcpPool.step] at hs
    split at hs
    · cases hs
    · next k2 hk2 => exact hsess d k2 _ _ t hk2 hs
  | lost d =>
    simp only [TcpPool.step] at hs
    split at hs
    · cases hs
    · next k2 hk2 => exact hsess d k2 _ _ t hk2 hs
  | closed d =>
    simp only [TcpPool.step] at hs
    split at hs
    · cases hs
    · next k2 hk2 =>
      split at hs
      · exact hsess d k2 _ _ t hk2 hs
      · cases hs

/-- C117 is false for peers that accept connections but stay silent: there is no time limit before the session has begun. The node has
nothing left to do, and whatever happens afterwards, except that the peer greets or closes, the transfer is never answered. -/
theorem C117_silent_peer_violated {cfg : Cfg A} {dest : String} {a : A} (hp : cfg.net.parse dest = some a) (data : Bytes) :
    ∃ evs s, TcpPoolSpec.After cfg evs s ∧ TcpPoolSpec.Quiet cfg s ∧ TcpPoolSpec.Asked s 0 dest data ∧
      ∀ more t, (∀ ok, .contact 0 ok ∉ more) → TcpPool.run cfg s more = some t → TcpPoolSpec.answer t 0 = none := by
  let s : TcpPool.State A :=
    { reqs := [{ dest, data, pc := .waiting 0 }], table := [(a, 0)], chans := [{ addr := a, active := true, stage := .contact, entered := [0] }] }
  have hafter : TcpPoolSpec.After cfg [.request dest data, .take, .go 0 true, .go 0 true, .go 0 true] s := by
    simp [TcpPoolSpec.After, TcpPool.run, TcpPool.step, State.take, State.go, State.goto, hp, State.usable, State.open, AList.get?, AList.insert,
      AList.erase, capacity, s]
  have key : ∀ (more : List (TcpPool.Ev A)) (u t : TcpPool.State A), Core cfg u → TcpPoolSpec.Nth u 0 0 0 →
      (∃ k, u.chans[0]? = some k ∧ k.stage = .contact) → (∀ ok, .contact 0 ok ∉ more) → TcpPool.run cfg u more = some t →
      TcpPoolSpec.answer t 0 = none := by
    intro more
    induction more with
    | nil =>
      intro u t hc hn hk _ hr
      cases hr
      obtain ⟨k, h1, h2⟩ := hk
      obtain ⟨k', h3, h4⟩ := hn
      rw [h1] at h3
      cases h3
      obtain ⟨r, g1, _, g3, _⟩ := hc.member 0 k h1 0 0 h4
      have he := (hc.chan 0 k h1).early (by rw [h2]; simp) (by rw [h2]; simp)
      unfold Fits at g3
      rw [if_neg (by rw [h2]; simp), if_pos (by omega)] at g3
      cases ha : TcpPoolSpec.answer u 0 with
      | none => rfl
      | some ans =>
        obtain ⟨r', e1, e2⟩ := (tcpPool_answer_iff u 0 ans).mp ha
        rw [g1] at e1
        cases e1
        rw [g3] at e2
        cases e2
    | cons e es ih =>
      intro u t hc hn hk hno hr
      obtain ⟨k, h1, h2⟩ := hk
      obtain ⟨k', h3, h4⟩ := hn
      rw [h1] at h3
      cases h3
      simp only [TcpPool.run] at hr
      obtain ⟨v, g1, g2⟩ := Option.bind_eq_some_iff.mp hr
      obtain ⟨k', e1, e2⟩ := (chans_step hc g1).old 0 k h1
      have hn' : TcpPoolSpec.Nth v 0 0 0 := by
        obtain ⟨rest, e3⟩ := e2.entered
        refine ⟨k', e1, ?_⟩
        rw [← e3, List.getElem?_append_left (List.getElem?_eq_some_iff.mp h4).1]
        exact h4
      exact ih v t (core_step hc g1) hn' (tcpPool_contact_stays hc h1 h2 (fun ok e' => hno ok (by rw [e']; simp)) g1)
        (fun ok hm => hno ok (List.mem_cons_of_mem _ hm)) g2
  refine ⟨_, s, hafter, ?_, ⟨_, rfl, rfl, rfl⟩, ?_⟩
  · intro e he
    cases e with
    | take => rfl
    | go i ok =>
      cases i with
      | zero => rfl
      | succ i => rfl
    | next c =>
      cases c with
      | zero => rfl
      | succ c => rfl
    | _ => exact he.elim
  · intro more t hno hr
    exact key more s t (hist_run hafter).1 ⟨_, rfl, rfl⟩ ⟨_, rfl, rfl⟩ hno hr

example : TcpPoolEx.cfg.net.parse "10.0.0.1:16162" = some 1 := by decide +kernel

/-- An address that has an entry in the table keeps one. -/
theorem tcpPool_entry_stays {cfg : Cfg A} {evs : List (TcpPool.Ev A)} {a : A} : ∀ {s t : TcpPool.State A}, Core cfg s →
    (∃ c, AList.get? s.table a = some c) → TcpPool.run cfg s evs = some t → ∃ c, AList.get? t.table a = some c := by
  induction evs with
  | nil => intro s t _ h hr; cases hr; exact h
  | cons e es ih =>
    intro s t hc ⟨c, h⟩ hr
    simp only [TcpPool.run] at hr
    obtain ⟨u, g1, g2⟩ := Option.bind_eq_some_iff.mp hr
    refine ih (core_step hc g1) ?_ g2
    rcases table_step hc g1 with ht | ⟨b, ht, _⟩
    · exact ⟨c, by rw [ht]; exact h⟩
    · rw [ht, AList.get?_insert]
      split
      · exact ⟨_, rfl⟩
      · exact ⟨c, h⟩

/-- C117 is false for what the node remembers: the entry of a connection that came in is never removed, also when the connection is
over. Connections from any number of ports leave that many entries, with no connection open. -/
theorem C117_entries_stay_violated {cfg : Cfg A} :
    (∀ (evs more : List (TcpPool.Ev A)) (s t : TcpPool.State A) (a : A), TcpPoolSpec.After cfg evs s → .accept a ∈ evs →
      TcpPool.run cfg s more = some t → ∃ c, AList.get? t.table a = some c) ∧
    ∀ l : List A, l.Nodup → ∃ evs s, TcpPoolSpec.After cfg evs s ∧ (∀ c a, ¬ TcpPoolSpec.Open s c a) ∧ s.table.length = l.length := by
  constructor
  · intro evs more s t a h hm hr
    refine tcpPool_entry_stays (hist_run h).1 ?_ hr
    obtain ⟨l1, l2, rfl⟩ := List.append_of_mem hm
    have happ : ∀ (l1 l2 : List (TcpPool.Ev A)) (u v : TcpPool.State A), TcpPool.run cfg u (l1 ++ l2) = some v →
        ∃ w, TcpPool.run cfg u l1 = some w ∧ TcpPool.run cfg w l2 = some v := by
      intro l1
      induction l1 with
      | nil => intro l2 u v h; exact ⟨u, rfl, h⟩
      | cons e es ih =>
        intro l2 u v h
        rw [List.cons_append] at h
        simp only [TcpPool.run] at h ⊢
        obtain ⟨w, g1, g2⟩ := Option.bind_eq_some_iff.mp h
        obtain ⟨w', g3, g4⟩ := ih l2 w v g2
        exact ⟨w', by rw [g1]; exact g3, g4⟩
    obtain ⟨w, h1, h2⟩ := happ l1 _ _ _ h
    simp only [TcpPool.run] at h2
    obtain ⟨w', h3, h4⟩ := Option.bind_eq_some_iff.mp h2
    have hcw := core_run (core_init cfg) h1
    refine tcpPool_entry_stays (core_step hcw h3) ?_ h4
    rw [step_accept h3]
    exact ⟨_, by simp [State.open]; rfl⟩
  · intro l hl
    have happ : ∀ (l1 l2 : List (TcpPool.Ev A)) (u v w : TcpPool.State A), TcpPool.run cfg u l1 = some v → TcpPool.run cfg v l2 = some w →
        TcpPool.run cfg u (l1 ++ l2) = some w := by
      intro l1
      induction l1 with
      | nil => intro l2 u v w h h2; cases h; exact h2
      | cons e es ih =>
        intro l2 u v w h h2
        rw [List.cons_append]
        simp only [TcpPool.run] at h ⊢
        obtain ⟨x, g1, g2⟩ := Option.bind_eq_some_iff.mp h
        rw [g1]
        exact ih l2 x v w g2 h2
    have key : ∀ l : List A, l.Nodup → ∃ evs s, TcpPoolSpec.After cfg evs s ∧ (∀ c a, ¬ TcpPoolSpec.Open s c a) ∧ s.table.length = l.length ∧
        s.reqs = [] ∧ ∀ x ∈ s.table, x.1 ∈ l := by
      intro l
      induction l with
      | nil => intro _; exact ⟨[], {}, rfl, by rintro c a ⟨k, hk, _⟩; simp at hk, rfl, rfl, by simp⟩
      | cons a l ih =>
        intro hl
        obtain ⟨evs, s, h1, h2, h3, h4, h5⟩ := ih (List.nodup_cons.mp hl).2
        have ha : a ∉ l := (List.nodup_cons.mp hl).1
        have herase : AList.erase s.table a = s.table := by
          unfold AList.erase
          rw [List.filter_eq_self]
          intro x hx
          have := h5 x hx
          simp
          rintro rfl
          exact ha this
        have hlast : (s.open a false .contact).chans[s.chans.length]? = some { addr := a, active := false, stage := .contact } := by simp [State.open]
        refine ⟨evs ++ [.accept a, .contact s.chans.length false], (s.open a false .contact).close s.chans.length, ?_, ?_, ?_, ?_, ?_⟩
        · refine happ evs _ _ s _ h1 ?_
          simp only [TcpPool.run, TcpPool.step, Option.bind_some, hlast]
          rfl
        · rintro c b ⟨k, g1, g2, g3⟩
          replace g1 : ((s.open a false .contact).chans.modify s.chans.length fun k => { k with stage := .ended })[c]? = some k := g1
          rcases modify_some g1 with ⟨_, k', _, rfl⟩ | ⟨hne, g4⟩
          · exact g3 rfl
          · rcases append_get g4 with ⟨g4, _⟩ | ⟨rfl, _⟩
            · exact h2 c b ⟨k, g4, g2, g3⟩
            · exact hne rfl
        · show (AList.insert s.table a s.chans.length).length = _
          simp [AList.insert, herase, h3]
        · show s.reqs.map _ = _
          rw [h4]; rfl
        · intro x hx
          replace hx : x ∈ AList.insert s.table a s.chans.length := hx
          simp only [AList.insert, herase, List.mem_cons] at hx
          rcases hx with rfl | hx
          · simp
          · exact List.mem_cons_of_mem _ (h5 x hx)
    obtain ⟨evs, s, h1, h2, h3, _⟩ := key l hl
    exact ⟨evs, s, h1, h2, h3⟩

example : (List.range 1000).Nodup := List.nodup_range

/-- C117 (bounded). However many transfers are asked for, at most 200 commands wait in the channel of the layer, and at most 200
transfers in that of each connection: whoever has one more waits. -/
theorem C117_bounded {cfg : Cfg A} {evs : List (TcpPool.Ev A)} {s : TcpPool.State A} (h : TcpPoolSpec.After cfg evs s) :
    s.queue.length ≤ 200 ∧ ∀ k ∈ s.chans, k.entered.length - k.taken ≤ 200 := by
  obtain ⟨h1, h2⟩ := Small.run (s := ({} : TcpPool.State A)) ⟨Nat.zero_le _, by simp⟩ h
  refine ⟨h1, fun k hk => ?_⟩
  have := h2 k hk
  simp only [capacity] at this
  omega

/-- The channel of the layer is full: neither another transfer nor the end of the layer can be asked for. -/
example : (TcpPool.run TcpPoolEx.cfg {} (List.replicate 199 (.request "10.0.0.1:16162" [1]) ++ [.shutdown])).map (fun s => s.queue.length) =
      some 200 ∧
    (TcpPool.run TcpPoolEx.cfg {} (List.replicate 199 (.request "10.0.0.1:16162" [1]) ++ [.shutdown, .request "10.0.0.1:16162" [1]])).isNone ∧
    (TcpPool.run TcpPoolEx.cfg {} (List.replicate 199 (.request "10.0.0.1:16162" [1]) ++ [.shutdown, .shutdown])).isNone := by
  decide +kernel

end Dtn.Props
