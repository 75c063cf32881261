import Verif.Lemmas.TcpPoolSess
import Verif.Lemmas.AList
/-! Invariant of the layer `tcp`. -/

namespace Dtn.TcpPool
open Dtn.Tcpcl
open Dtn.Clas (Answer)
open Dtn.Spec.TcpPoolSpec

variable {A : Type} [DecidableEq A]

set_option linter.unusedSectionVars false

theorem modify_get {α : Type} (l : List α) (c : Nat) (f : α → α) (d : Nat) :
    (l.modify c f)[d]? = if c = d then (l[d]?).map f else l[d]? := by
  rw [List.getElem?_modify]
  by_cases h : c = d
  · simp [h]
  · simp [h]

theorem goto_get (s : State A) (i : Nat) (pc : Pc A) (j : Nat) :
    (s.goto i pc).reqs[j]? = if i = j then (s.reqs[j]?).map fun r => { r with pc := pc } else s.reqs[j]? := by
  unfold State.goto
  exact modify_get _ _ _ _

/-- What the transfer with index `j` in channel `c` is doing. -/
def Fits (c : Nat) (k : Chan A) (j : Nat) (pc : Pc A) : Prop :=
  if k.stage = .ended then ∃ ans, pc = .done ans ∧ (ans = .lost ∨ ∃ x r, k.sess = some x ∧ (j, r) ∈ x.results ∧ ans = answerOf r)
  else if k.taken ≤ j then pc = .waiting c
  else if k.sess.bind (fun x => txReq x.tx) = some j then pc = .flying c
  else ∃ x r, k.sess = some x ∧ (j, r) ∈ x.results ∧ pc = .done (answerOf r)

/-- A connection makes sense. -/
structure ChanOk (k : Chan A) : Prop where
  taken : k.taken ≤ k.entered.length
  early : k.stage ≠ .session → k.stage ≠ .ended → k.taken = 0 ∧ k.sess = none
  live : k.stage = .session → ∃ x, k.sess = some x ∧ Tidy x
  count : ∀ x, k.sess = some x → x.requests.length = k.taken

/-- A transfer makes sense. -/
def ReqOk (cfg : Cfg A) (s : State A) (i : Nat) (r : Req A) : Prop :=
  match r.pc with
  | .queued => some i ∈ s.queue
  | .start => True
  | .connect a c => cfg.net.parse r.dest = some a ∧ ∃ k, s.chans[c]? = some k ∧ k.addr = a ∧ k.stage = .connecting
  | .send a c => cfg.net.parse r.dest = some a ∧ ∃ k, s.chans[c]? = some k ∧ k.addr = a
  | .waiting c | .flying c => ∃ (k : Chan A) (j : Nat), s.chans[c]? = some k ∧ k.entered[j]? = some i
  | .done (.replied .successful) => ∃ (c : Nat) (k : Chan A) (j : Nat) (x : Sess), s.chans[c]? = some k ∧ k.entered[j]? = some i ∧ k.sess = some x ∧
      (j, TransferResult.successful) ∈ x.results
  | .done _ => True

/-- The transfers in a channel. -/
def MemberOk (cfg : Cfg A) (reqs : List (Req A)) (c : Nat) (k : Chan A) : Prop :=
  ∀ (j i : Nat), k.entered[j]? = some i → ∃ r, reqs[i]? = some r ∧ cfg.net.parse r.dest = some k.addr ∧ Fits c k j r.pc ∧
    ∀ x, k.sess = some x → j < k.taken → x.requests[j]? = some r.data

/-- The invariant. -/
structure Core (cfg : Cfg A) (s : State A) : Prop where
  req : ∀ (i : Nat) r, s.reqs[i]? = some r → ReqOk cfg s i r
  chan : ∀ (c : Nat) k, s.chans[c]? = some k → ChanOk k
  member : ∀ (c : Nat) k, s.chans[c]? = some k → MemberOk cfg s.reqs c k
  once : ∀ c c' j j' i, Nth s c j i → Nth s c' j' i → c = c' ∧ j = j'
  table : ∀ a c, AList.get? s.table a = some c → ∃ k, s.chans[c]? = some k ∧ k.addr = a
  connecting : ∀ (c : Nat) k, s.chans[c]? = some k → k.stage = .connecting → ∃ (i : Nat) (r : Req A) (a : A), s.reqs[i]? = some r ∧ r.pc = .connect a c
  unique : ∀ (i j : Nat) (r q : Req A) (a b : A) (c : Nat), s.reqs[i]? = some r → s.reqs[j]? = some q → r.pc = .connect a c →
    q.pc = .connect b c → i = j
  nodup : (s.queue.filterMap id).Nodup
  queued : ∀ i, some i ∈ s.queue → ∃ r, s.reqs[i]? = some r ∧ r.pc = .queued
  dead : s.alive = false → s.queue = []

/-- Connections are kept, and their logs grow. -/
def Grow (s t : State A) : Prop :=
  ∀ (c : Nat) k, s.chans[c]? = some k → ∃ k', t.chans[c]? = some k' ∧ k'.addr = k.addr ∧
    (∀ (j i : Nat), k.entered[j]? = some i → k'.entered[j]? = some i) ∧
    (∀ x, k.sess = some x → ∃ x', k'.sess = some x' ∧ ∀ y ∈ x.results, y ∈ x'.results)

theorem Grow.refl (s : State A) : Grow s s := fun _ k h => ⟨k, h, rfl, fun _ _ h => h, fun x h => ⟨x, h, fun _ h => h⟩⟩

theorem grow_eq {s t : State A} (h : t.chans = s.chans) : Grow s t := by
  intro c k hk
  exact ⟨k, by rw [h]; exact hk, rfl, fun _ _ h => h, fun x h => ⟨x, h, fun _ h => h⟩⟩

theorem ReqOk.mono {cfg : Cfg A} {s t : State A} {i : Nat} {r : Req A} (h : ReqOk cfg s i r) (g : Grow s t)
    (hq : r.pc = .queued → some i ∈ s.queue → some i ∈ t.queue)
    (hc : ∀ a c k, r.pc = .connect a c → s.chans[c]? = some k → k.stage = .connecting → ∃ k', t.chans[c]? = some k' ∧ k'.stage = .connecting) :
    ReqOk cfg t i r := by
  unfold ReqOk at h ⊢
  cases hp : r.pc with
  | queued => rw [hp] at h; exact hq hp h
  | start => trivial
  | connect a c =>
    rw [hp] at h
    obtain ⟨h1, k, h2, h3, h4⟩ := h
    obtain ⟨k', g1, g2, _⟩ := g c k h2
    obtain ⟨k'', e1, e2⟩ := hc a c k hp h2 h4
    rw [g1] at e1
    cases e1
    exact ⟨h1, k', g1, g2.trans h3, e2⟩
  | send a c =>
    rw [hp] at h
    obtain ⟨h1, k, h2, h3⟩ := h
    obtain ⟨k', g1, g2, _⟩ := g c k h2
    exact ⟨h1, k', g1, g2.trans h3⟩
  | waiting c =>
    rw [hp] at h
    obtain ⟨k, j, h2, h3⟩ := h
    obtain ⟨k', g1, g2, g3, _⟩ := g c k h2
    exact ⟨k', j, g1, g3 j i h3⟩
  | flying c =>
    rw [hp] at h
    obtain ⟨k, j, h2, h3⟩ := h
    obtain ⟨k', g1, g2, g3, _⟩ := g c k h2
    exact ⟨k', j, g1, g3 j i h3⟩
  | done ans =>
    rw [hp] at h
    cases ans with
    | lost => trivial
    | replied x =>
      cases x with
      | failure => trivial
      | successful =>
        obtain ⟨c, k, j, x, h1, h2, h3, h4⟩ := h
        obtain ⟨k', g1, g2, g3, g4⟩ := g c k h1
        obtain ⟨x', e1, e2⟩ := g4 x h3
        exact ⟨c, k', j, x', g1, g3 j i h2, e1, e2 _ h4⟩

theorem reqOk_lost {cfg : Cfg A} {s : State A} {i : Nat} {r : Req A} (h : r.pc = .done .lost) : ReqOk cfg s i r := by
  unfold ReqOk; rw [h]; trivial

theorem reqOk_failure {cfg : Cfg A} {s : State A} {i : Nat} {r : Req A} (h : r.pc = .done (.replied .failure)) : ReqOk cfg s i r := by
  unfold ReqOk; rw [h]; trivial

/-- A transfer that is not in a channel. -/
def Outside (pc : Pc A) : Prop :=
  match pc with
  | .queued | .start | .connect _ _ | .send _ _ => True
  | _ => False

theorem Fits.inside {c : Nat} {k : Chan A} {j : Nat} {pc : Pc A} (h : Fits c k j pc) : ¬ Outside pc := by
  unfold Fits at h
  split at h
  · obtain ⟨ans, rfl, _⟩ := h; exact id
  · split at h
    · subst h; exact id
    · split at h
      · subst h; exact id
      · obtain ⟨_, _, _, _, rfl⟩ := h; exact id

/-- A transfer that is not in a channel is not in the log of any channel. -/
theorem Core.outside {cfg : Cfg A} {s : State A} (h : Core cfg s) {i : Nat} {r : Req A} (hr : s.reqs[i]? = some r)
    (ho : Outside r.pc) (c j : Nat) : ¬ Nth s c j i := by
  rintro ⟨k, h1, h2⟩
  obtain ⟨q, h3, _, h4, _⟩ := h.member c k h1 j i h2
  rw [hr] at h3
  cases h3
  exact h4.inside ho

/-- Members of a channel do not mind what happens to transfers that are not in a channel. -/
theorem member_keep {cfg : Cfg A} {reqs reqs' : List (Req A)} {c : Nat} {k : Chan A} (h : MemberOk cfg reqs c k)
    (hk : ∀ (j i : Nat), k.entered[j]? = some i → reqs'[i]? = reqs[i]?) : MemberOk cfg reqs' c k := by
  intro j i hj
  obtain ⟨r, h1, h2⟩ := h j i hj
  exact ⟨r, by rw [hk j i hj]; exact h1, h2⟩

/-- A transfer outside of the channels goes on, outside of the channels or to its answer. -/
theorem core_goto {cfg : Cfg A} {s : State A} (h : Core cfg s) {i : Nat} {r : Req A} (hr : s.reqs[i]? = some r)
    (ho : Outside r.pc) (hnq : r.pc ≠ .queued) (hnc : ∀ a c, r.pc ≠ .connect a c) {pc : Pc A}
    (hpc : ReqOk cfg s i { r with pc := pc }) (hn : ∀ a c, pc ≠ .connect a c) : Core cfg (s.goto i pc) := by
  have hget := goto_get s i pc
  have hother : ∀ {j}, i ≠ j → (s.goto i pc).reqs[j]? = s.reqs[j]? := by
    intro j hj; rw [hget, if_neg hj]
  have hself : (s.goto i pc).reqs[i]? = some { r with pc := pc } := by rw [hget, if_pos rfl, hr]; rfl
  have hchans : (s.goto i pc).chans = s.chans := rfl
  have hback : ∀ (j : Nat) (q : Req A) (a : A) (c : Nat), (s.goto i pc).reqs[j]? = some q → q.pc = .connect a c → i ≠ j ∧ s.reqs[j]? = some q := by
    intro j q a c hq hqc
    by_cases hj : i = j
    · subst hj
      rw [hself] at hq
      cases hq
      exact absurd hqc (hn a c)
    · rw [hother hj] at hq
      exact ⟨hj, hq⟩
  refine ⟨?_, h.chan, ?_, h.once, h.table, ?_, ?_, h.nodup, ?_, h.dead⟩
  · intro j q hq
    by_cases hj : i = j
    · subst hj
      rw [hself] at hq
      cases hq
      exact hpc
    · rw [hother hj] at hq
      exact h.req j q hq
  · intro c k hk
    refine member_keep (h.member c k hk) (fun j l hl => hother ?_)
    rintro rfl
    exact h.outside hr ho c j ⟨k, hk, hl⟩
  · intro c k hk hs
    obtain ⟨j, q, a, h1, h2⟩ := h.connecting c k hk hs
    refine ⟨j, q, a, ?_, h2⟩
    rw [hother]
    · exact h1
    · rintro rfl
      rw [hr] at h1
      cases h1
      exact hnc a c h2
  · intro j l q p a b c h1 h2 h3 h4
    exact h.unique j l q p a b c (hback j q a c h1 h3).2 (hback l p b c h2 h4).2 h3 h4
  · intro j hj
    obtain ⟨q, h1, h2⟩ := h.queued j hj
    refine ⟨q, ?_, h2⟩
    rw [hother]
    · exact h1
    · rintro rfl
      rw [hr] at h1
      cases h1
      exact hnq h2

/-- A new transfer. -/
theorem core_request {cfg : Cfg A} {s : State A} (h : Core cfg s) (r : Req A) (q : List (Option Nat))
    (hr : r.pc = .queued ∨ r.pc = .done .lost) (hq : q = s.queue ∧ r.pc ≠ .queued ∨ q = s.queue ++ [some s.reqs.length] ∧ r.pc = .queued)
    (ha : r.pc = .queued → s.alive = true) : Core cfg { s with reqs := s.reqs ++ [r], queue := q } := by
  have hold : ∀ {j : Nat} {p : Req A}, s.reqs[j]? = some p → (s.reqs ++ [r])[j]? = some p := by
    intro j p hj
    rw [List.getElem?_append_left (List.getElem?_eq_some_iff.mp hj).1]
    exact hj
  have hnew : ∀ {j : Nat} {p : Req A}, (s.reqs ++ [r])[j]? = some p → s.reqs[j]? = some p ∨ (j = s.reqs.length ∧ p = r) := by
    intro j p hj
    rw [List.getElem?_append] at hj
    split at hj
    · exact .inl hj
    · next hl =>
      right
      have : j - s.reqs.length = 0 := by
        rcases Nat.eq_zero_or_pos (j - s.reqs.length) with e | e
        · exact e
        · rw [List.getElem?_eq_none (by simp; omega)] at hj; cases hj
      rw [this] at hj
      simp at hj
      exact ⟨by omega, hj.symm⟩
  have hbound : ∀ i, some i ∈ s.queue → i < s.reqs.length := by
    intro i hi
    obtain ⟨p, h1, _⟩ := h.queued i hi
    exact (List.getElem?_eq_some_iff.mp h1).1
  have hqsub : ∀ i, some i ∈ s.queue → some i ∈ q := by
    intro i hi
    rcases hq with ⟨rfl, _⟩ | ⟨rfl, _⟩
    · exact hi
    · exact List.mem_append_left _ hi
  have hnoc : ∀ a c, r.pc ≠ .connect a c := by
    intro a c hc
    rcases hr with e | e <;> rw [e] at hc <;> cases hc
  refine ⟨?_, h.chan, ?_, h.once, h.table, ?_, ?_, ?_, ?_, ?_⟩
  · intro j p hp
    rcases hnew hp with hp | ⟨rfl, rfl⟩
    · exact (h.req j p hp).mono (grow_eq rfl) (fun _ hx => hqsub _ hx) (fun _ _ k _ h1 h2 => ⟨k, h1, h2⟩)
    · rcases hr with e | e
      · unfold ReqOk
        rw [e]
        rcases hq with ⟨_, hh⟩ | ⟨rfl, _⟩
        · exact absurd e hh
        · simp
      · exact reqOk_lost e
  · intro c k hk j i hi
    obtain ⟨p, h1, h2⟩ := h.member c k hk j i hi
    exact ⟨p, hold h1, h2⟩
  · intro c k hk hs
    obtain ⟨j, p, a, h1, h2⟩ := h.connecting c k hk hs
    exact ⟨j, p, a, hold h1, h2⟩
  · intro i j p p' a b c h1 h2 h3 h4
    rcases hnew h1 with h1 | ⟨_, rfl⟩
    · rcases hnew h2 with h2 | ⟨_, rfl⟩
      · exact h.unique i j p p' a b c h1 h2 h3 h4
      · exact absurd h4 (hnoc b c)
    · exact absurd h3 (hnoc a c)
  · rcases hq with ⟨rfl, _⟩ | ⟨rfl, _⟩
    · exact h.nodup
    · simp only [List.filterMap_append]
      rw [List.nodup_append]
      refine ⟨h.nodup, by simp, ?_⟩
      intro x hx y hy
      simp at hx hy
      have := hbound x hx
      omega
  · intro i hi
    rcases hq with ⟨rfl, _⟩ | ⟨rfl, he⟩
    · obtain ⟨p, h1, h2⟩ := h.queued i hi
      exact ⟨p, hold h1, h2⟩
    · simp at hi
      rcases hi with hi | rfl
      · obtain ⟨p, h1, h2⟩ := h.queued i hi
        exact ⟨p, hold h1, h2⟩
      · exact ⟨r, by simp, he⟩
  · intro hd
    rcases hq with ⟨rfl, _⟩ | ⟨rfl, he⟩
    · exact h.dead hd
    · rw [show s.alive = true from ha he] at hd
      cases hd

theorem core_shutdown {cfg : Cfg A} {s : State A} (h : Core cfg s) (ha : s.alive = true) :
    Core cfg { s with queue := s.queue ++ [none] } := by
  refine ⟨?_, h.chan, h.member, h.once, h.table, h.connecting, h.unique, ?_, ?_, ?_⟩
  · intro i r hr
    exact (h.req i r hr).mono (grow_eq rfl) (fun _ hx => List.mem_append_left _ hx) (fun _ _ k _ h1 h2 => ⟨k, h1, h2⟩)
  · simpa using h.nodup
  · intro i hi
    simp at hi
    exact h.queued i hi
  · intro hd
    rw [show s.alive = true from ha] at hd
    cases hd

theorem map_get {s : State A} (f : Req A → Req A) (j : Nat) : (s.reqs.map f)[j]? = (s.reqs[j]?).map f := List.getElem?_map ..

theorem core_die {cfg : Cfg A} {s : State A} (h : Core cfg s) : Core cfg s.die := by
  have hkeep : ∀ r : Req A, r.pc ≠ .queued → r.drop = r := fun r hr => if_neg hr
  have hpc : ∀ (r : Req A) (a : A) (c : Nat), r.drop.pc = .connect a c → r.pc = .connect a c := by
    intro r a c hc
    unfold Req.drop at hc
    split at hc
    · cases hc
    · exact hc
  refine ⟨?_, h.chan, ?_, h.once, h.table, ?_, ?_, by simp [State.die], by simp [State.die], fun _ => rfl⟩
  · intro i r hr
    simp only [State.die] at hr
    rw [map_get] at hr
    cases hq : s.reqs[i]? with
    | none => rw [hq] at hr; cases hr
    | some q =>
      rw [hq] at hr
      simp at hr
      subst hr
      by_cases hp : q.pc = .queued
      · exact reqOk_lost (by simp [Req.drop, hp])
      · rw [hkeep q hp]
        exact (h.req i q hq).mono (grow_eq rfl) (fun e => absurd e hp) (fun _ _ k _ h1 h2 => ⟨k, h1, h2⟩)
  · intro c k hk j i hi
    obtain ⟨r, h1, h2, h3, h4⟩ := h.member c k hk j i hi
    refine ⟨r, ?_, h2, h3, h4⟩
    simp only [State.die]
    rw [map_get, h1]
    simp
    refine hkeep r fun e => h3.inside ?_
    rw [e]; trivial
  · intro c k hk hs
    obtain ⟨j, r, a, h1, h2⟩ := h.connecting c k hk hs
    refine ⟨j, r, a, ?_, h2⟩
    simp only [State.die]
    rw [map_get, h1]
    simp
    exact hkeep r (by rw [h2]; simp)
  · intro i j r q a b c h1 h2 h3 h4
    simp only [State.die] at h1 h2
    rw [map_get] at h1 h2
    obtain ⟨r', g1, rfl⟩ := Option.map_eq_some_iff.mp h1
    obtain ⟨q', g2, rfl⟩ := Option.map_eq_some_iff.mp h2
    exact h.unique i j r' q' a b c g1 g2 (hpc _ _ _ h3) (hpc _ _ _ h4)

theorem core_start {cfg : Cfg A} {s : State A} (h : Core cfg s) {i : Nat} {q : List (Option Nat)} (hq : s.queue = some i :: q) :
    Core cfg { s.goto i .start with queue := q } := by
  obtain ⟨r, hr, hrq⟩ := h.queued i (by rw [hq]; simp)
  have hget := goto_get s i .start
  have hother : ∀ {j}, i ≠ j → (s.goto i .start).reqs[j]? = s.reqs[j]? := by
    intro j hj; rw [hget, if_neg hj]
  have hself : (s.goto i .start).reqs[i]? = some { r with pc := .start } := by rw [hget, if_pos rfl, hr]; rfl
  have hnd := h.nodup
  rw [hq] at hnd
  simp at hnd
  have hback : ∀ (j : Nat) (p : Req A) (a : A) (c : Nat), (s.goto i .start).reqs[j]? = some p → p.pc = .connect a c → s.reqs[j]? = some p := by
    intro j p a c hp hpc
    by_cases hj : i = j
    · subst hj
      rw [hself] at hp
      cases hp
      cases hpc
    · rw [hother hj] at hp
      exact hp
  refine ⟨?_, h.chan, ?_, h.once, h.table, ?_, ?_, hnd.2, ?_, ?_⟩
  · intro j p hp
    replace hp : (s.goto i .start).reqs[j]? = some p := hp
    by_cases hj : i = j
    · subst hj
      rw [hself] at hp
      cases hp
      trivial
    · rw [hother hj] at hp
      refine (h.req j p hp).mono (grow_eq rfl) (fun _ hx => ?_) (fun _ _ k _ h1 h2 => ⟨k, h1, h2⟩)
      rw [hq] at hx
      simp at hx
      rcases hx with rfl | hx
      · exact absurd rfl hj
      · exact hx
  · intro c k hk
    refine member_keep (h.member c k hk) (fun j l hl => hother ?_)
    rintro rfl
    exact h.outside hr (by rw [hrq]; trivial) c j ⟨k, hk, hl⟩
  · intro c k hk hs
    obtain ⟨j, p, a, h1, h2⟩ := h.connecting c k hk hs
    refine ⟨j, p, a, ?_, h2⟩
    show (s.goto i .start).reqs[j]? = _
    rw [hother]
    · exact h1
    · rintro rfl
      rw [hr] at h1
      cases h1
      rw [hrq] at h2
      cases h2
  · intro j l p p' a b c h1 h2 h3 h4
    exact h.unique j l p p' a b c (hback j p a c h1 h3) (hback l p' b c h2 h4) h3 h4
  · intro j hj
    obtain ⟨p, h1, h2⟩ := h.queued j (by rw [hq]; exact List.mem_cons_of_mem _ hj)
    refine ⟨p, ?_, h2⟩
    show (s.goto i .start).reqs[j]? = _
    rw [hother]
    · exact h1
    · rintro rfl
      exact hnd.1 hj
  · intro hd
    have := h.dead hd
    rw [hq] at this
    cases this

theorem append_get {l : List (Chan A)} {k0 : Chan A} {c : Nat} {k : Chan A} (h : (l ++ [k0])[c]? = some k) :
    (l[c]? = some k ∧ c < l.length) ∨ (c = l.length ∧ k = k0) := by
  rw [List.getElem?_append] at h
  split at h
  · next hl => exact .inl ⟨h, hl⟩
  · next hl =>
    right
    have : c - l.length = 0 := by
      rcases Nat.eq_zero_or_pos (c - l.length) with e | e
      · exact e
      · rw [List.getElem?_eq_none (by simp; omega)] at h; cases h
    rw [this] at h
    simp at h
    exact ⟨by omega, h.symm⟩

theorem append_old {l : List (Chan A)} {k0 : Chan A} {c : Nat} {k : Chan A} (h : l[c]? = some k) : (l ++ [k0])[c]? = some k := by
  rw [List.getElem?_append_left (List.getElem?_eq_some_iff.mp h).1]
  exact h

theorem grow_append {s t : State A} {k0 : Chan A} (h : t.chans = s.chans ++ [k0]) : Grow s t := by
  intro c k hk
  exact ⟨k, by rw [h]; exact append_old hk, rfl, fun _ _ h => h, fun x h => ⟨x, h, fun _ h => h⟩⟩

/-- A connection comes in. -/
theorem core_accept {cfg : Cfg A} {s : State A} (h : Core cfg s) (a : A) : Core cfg (s.open a false .contact) := by
  have hch : (s.open a false .contact).chans = s.chans ++ [{ addr := a, active := false, stage := .contact }] := rfl
  refine ⟨?_, ?_, ?_, ?_, ?_, ?_, h.unique, h.nodup, h.queued, h.dead⟩
  · intro i r hr
    exact (h.req i r hr).mono (grow_append hch) (fun _ h => h) (fun _ _ k _ h1 h2 => ⟨k, by rw [hch]; exact append_old h1, h2⟩)
  · intro c k hk
    rw [hch] at hk
    rcases append_get hk with ⟨hk, _⟩ | ⟨_, rfl⟩
    · exact h.chan c k hk
    · exact ⟨by simp, by simp, by simp, by simp⟩
  · intro c k hk
    rw [hch] at hk
    rcases append_get hk with ⟨hk, _⟩ | ⟨_, rfl⟩
    · exact h.member c k hk
    · intro j i hj
      simp at hj
  · rintro c c' j j' i ⟨k, h1, h2⟩ ⟨k', h3, h4⟩
    rw [hch] at h1 h3
    rcases append_get h1 with ⟨h1, _⟩ | ⟨_, rfl⟩
    · rcases append_get h3 with ⟨h3, _⟩ | ⟨_, rfl⟩
      · exact h.once c c' j j' i ⟨k, h1, h2⟩ ⟨k', h3, h4⟩
      · simp at h4
    · simp at h2
  · intro b c hb
    simp only [State.open] at hb
    rw [AList.get?_insert] at hb
    rw [hch]
    split at hb
    · next e =>
      cases hb
      exact ⟨_, by simp; rfl, e.symm⟩
    · obtain ⟨k, h1, h2⟩ := h.table b c hb
      exact ⟨k, append_old h1, h2⟩
  · intro c k hk hs
    rw [hch] at hk
    rcases append_get hk with ⟨hk, _⟩ | ⟨_, rfl⟩
    · exact h.connecting c k hk hs
    · cases hs

/-- A transfer opens a connection. -/
theorem core_connect {cfg : Cfg A} {s : State A} (h : Core cfg s) {i : Nat} {r : Req A} (hr : s.reqs[i]? = some r)
    (hs : r.pc = .start) {a : A} (ha : cfg.net.parse r.dest = some a) :
    Core cfg ((s.open a true .connecting).goto i (.connect a s.chans.length)) := by
  have hch : ((s.open a true .connecting).goto i (.connect a s.chans.length)).chans =
    s.chans ++ [{ addr := a, active := true, stage := .connecting }] := rfl
  have hget := goto_get (s.open a true .connecting) i (.connect a s.chans.length)
  have hreqs : (s.open a true .connecting).reqs = s.reqs := rfl
  generalize ht : (s.open a true .connecting).goto i (.connect a s.chans.length) = t at hch hget ⊢
  rw [hreqs] at hget
  have hother : ∀ {j}, i ≠ j → t.reqs[j]? = s.reqs[j]? := by
    intro j hj; rw [hget, if_neg hj]
  have hself : t.reqs[i]? = some { r with pc := .connect a s.chans.length } := by rw [hget, if_pos rfl, hr]; rfl
  have htable : t.table = AList.insert s.table a s.chans.length := by rw [← ht]; rfl
  have hqueue : t.queue = s.queue := by rw [← ht]; rfl
  have halive : t.alive = s.alive := by rw [← ht]; rfl
  have hlast : t.chans[s.chans.length]? = some { addr := a, active := true, stage := .connecting } := by rw [hch]; simp
  have hgrow : Grow s t := grow_append hch
  have hlt : ∀ (j : Nat) (q : Req A) (b : A) (c : Nat), s.reqs[j]? = some q → q.pc = .connect b c → c < s.chans.length := by
    intro j q b c hq hqc
    have := h.req j q hq
    unfold ReqOk at this
    rw [hqc] at this
    obtain ⟨_, k, hk, _⟩ := this
    exact (List.getElem?_eq_some_iff.mp hk).1
  refine ⟨?_, ?_, ?_, ?_, ?_, ?_, ?_, by rw [hqueue]; exact h.nodup, ?_, by rw [halive, hqueue]; exact h.dead⟩
  · intro j q hq
    by_cases hj : i = j
    · subst hj
      rw [hself] at hq
      cases hq
      exact ⟨ha, _, hlast, rfl, rfl⟩
    · rw [hother hj] at hq
      exact (h.req j q hq).mono hgrow (fun _ h => by rw [hqueue]; exact h) (fun _ _ k _ h1 h2 => ⟨k, by rw [hch]; exact append_old h1, h2⟩)
  · intro c k hk
    rw [hch] at hk
    rcases append_get hk with ⟨hk, _⟩ | ⟨_, rfl⟩
    · exact h.chan c k hk
    · exact ⟨by simp, by simp, by simp, by simp⟩
  · intro c k hk
    rw [hch] at hk
    rcases append_get hk with ⟨hk, _⟩ | ⟨_, rfl⟩
    · refine member_keep (h.member c k hk) (fun j l hl => hother ?_)
      rintro rfl
      exact h.outside hr (by rw [hs]; trivial) c j ⟨k, hk, hl⟩
    · intro j l hl
      simp at hl
  · rintro c c' j j' l ⟨k, h1, h2⟩ ⟨k', h3, h4⟩
    rw [hch] at h1 h3
    rcases append_get h1 with ⟨h1, _⟩ | ⟨_, rfl⟩
    · rcases append_get h3 with ⟨h3, _⟩ | ⟨_, rfl⟩
      · exact h.once c c' j j' l ⟨k, h1, h2⟩ ⟨k', h3, h4⟩
      · simp at h4
    · simp at h2
  · intro b c hb
    rw [htable, AList.get?_insert] at hb
    split at hb
    · next e =>
      cases hb
      exact ⟨_, hlast, e.symm⟩
    · obtain ⟨k, h1, h2⟩ := h.table b c hb
      exact ⟨k, by rw [hch]; exact append_old h1, h2⟩
  · intro c k hk hst
    rw [hch] at hk
    rcases append_get hk with ⟨hk, _⟩ | ⟨rfl, rfl⟩
    · obtain ⟨j, q, b, h1, h2⟩ := h.connecting c k hk hst
      refine ⟨j, q, b, ?_, h2⟩
      rw [hother]
      · exact h1
      · rintro rfl
        rw [hr] at h1
        cases h1
        rw [hs] at h2
        cases h2
    · exact ⟨i, _, a, hself, rfl⟩
  · intro j l q p b b' c h1 h2 h3 h4
    by_cases hj : i = j
    · by_cases hl : i = l
      · rw [← hj, ← hl]
      · subst hj
        rw [hself] at h1
        cases h1
        cases h3
        rw [hother hl] at h2
        exact absurd (hlt l p b' _ h2 h4) (Nat.lt_irrefl _)
    · rw [hother hj] at h1
      by_cases hl : i = l
      · subst hl
        rw [hself] at h2
        cases h2
        cases h4
        exact absurd (hlt j q b _ h1 h3) (Nat.lt_irrefl _)
      · rw [hother hl] at h2
        exact h.unique j l q p b b' c h1 h2 h3 h4
  · intro j hj
    rw [hqueue] at hj
    obtain ⟨q, h1, h2⟩ := h.queued j hj
    refine ⟨q, ?_, h2⟩
    rw [hother]
    · exact h1
    · rintro rfl
      rw [hr] at h1
      cases h1
      rw [hs] at h2
      cases h2

/-- What is known of connection `c` after `f`. -/
theorem grow_modify {s t : State A} {c : Nat} {f : Chan A → Chan A} (h : t.chans = s.chans.modify c f)
    (hf : ∀ k, s.chans[c]? = some k → (f k).addr = k.addr ∧ (∀ (j i : Nat), k.entered[j]? = some i → (f k).entered[j]? = some i) ∧
      (∀ x, k.sess = some x → ∃ x', (f k).sess = some x' ∧ ∀ y ∈ x.results, y ∈ x'.results)) : Grow s t := by
  intro d k hk
  rw [h, modify_get]
  by_cases hd : c = d
  · subst hd
    rw [if_pos rfl, hk]
    exact ⟨f k, rfl, hf k hk⟩
  · rw [if_neg hd]
    exact ⟨k, hk, rfl, fun _ _ h => h, fun x h => ⟨x, h, fun _ h => h⟩⟩

theorem modify_some {l : List (Chan A)} {c d : Nat} {f : Chan A → Chan A} {k' : Chan A} (h : (l.modify c f)[d]? = some k') :
    (c = d ∧ ∃ k, l[c]? = some k ∧ k' = f k) ∨ (c ≠ d ∧ l[d]? = some k') := by
  rw [modify_get] at h
  by_cases hd : c = d
  · subst hd
    rw [if_pos rfl] at h
    obtain ⟨k, h1, h2⟩ := Option.map_eq_some_iff.mp h
    exact .inl ⟨rfl, k, h1, h2.symm⟩
  · rw [if_neg hd] at h
    exact .inr ⟨hd, h⟩

/-- Channels with the same logs have the same transfers. -/
theorem nth_modify {s t : State A} {c : Nat} {f : Chan A → Chan A} (h : t.chans = s.chans.modify c f)
    (hf : ∀ k, s.chans[c]? = some k → (f k).entered = k.entered) {d j i : Nat} (hn : Nth t d j i) : Nth s d j i := by
  obtain ⟨k, h1, h2⟩ := hn
  rw [h] at h1
  rcases modify_some h1 with ⟨rfl, k', h3, rfl⟩ | ⟨_, h3⟩
  · exact ⟨k', h3, by rw [← hf k' h3]; exact h2⟩
  · exact ⟨k, h3, h2⟩

theorem table_modify {s t : State A} {c : Nat} {f : Chan A → Chan A} (h : t.chans = s.chans.modify c f) (ht : t.table = s.table)
    (hf : ∀ k, s.chans[c]? = some k → (f k).addr = k.addr) (hs : ∀ a d, AList.get? s.table a = some d → ∃ k, s.chans[d]? = some k ∧ k.addr = a) :
    ∀ a d, AList.get? t.table a = some d → ∃ k, t.chans[d]? = some k ∧ k.addr = a := by
  intro a d hd
  rw [ht] at hd
  obtain ⟨k, h1, h2⟩ := hs a d hd
  rw [h, modify_get]
  by_cases e : c = d
  · subst e
    rw [if_pos rfl, h1]
    exact ⟨f k, rfl, (hf k h1).trans h2⟩
  · rw [if_neg e]
    exact ⟨k, h1, h2⟩

/-- A connection goes on without a session taking transfers. -/
theorem core_begin {cfg : Cfg A} {s t : State A} (h : Core cfg s) {c : Nat} {k : Chan A} {f : Chan A → Chan A} (hk : s.chans[c]? = some k)
    (hst : k.stage = .contact ∨ k.stage = .params) (h1 : t.chans = s.chans.modify c f) (h2 : t.table = s.table)
    (h3 : t.reqs = s.reqs) (h4 : t.queue = s.queue) (h5 : t.alive = s.alive) (f1 : (f k).addr = k.addr) (f2 : (f k).entered = k.entered)
    (f3 : (f k).taken = k.taken) (f4 : (f k).stage ≠ .connecting) (f5 : (f k).stage ≠ .ended) (f6 : ChanOk (f k)) : Core cfg t := by
  have hall : ∀ k', s.chans[c]? = some k' → k' = k := by
    intro k' hk'
    rw [hk] at hk'
    exact (Option.some.inj hk').symm
  have he := (h.chan c k hk).early (by rcases hst with e | e <;> rw [e] <;> simp) (by rcases hst with e | e <;> rw [e] <;> simp)
  have hnc : k.stage ≠ .connecting := by rcases hst with e | e <;> rw [e] <;> simp
  have hne : k.stage ≠ .ended := by rcases hst with e | e <;> rw [e] <;> simp
  have hgrow : Grow s t := grow_modify h1 (by
    intro k' hk'
    rw [hall k' hk']
    exact ⟨f1, fun j i hj => by rw [f2]; exact hj, fun x hx => by rw [he.2] at hx; cases hx⟩)
  refine ⟨?_, ?_, ?_, ?_, table_modify h1 h2 (fun k' hk' => by rw [hall k' hk']; exact f1) h.table, ?_, by rw [h3]; exact h.unique, by rw [h4]; exact h.nodup,
    by rw [h4, h3]; exact h.queued, by rw [h4, h5]; exact h.dead⟩
  · intro i r hr
    rw [h3] at hr
    refine (h.req i r hr).mono hgrow (fun _ hx => by rw [h4]; exact hx) ?_
    intro a d k' _ hd hs
    refine ⟨k', ?_, hs⟩
    rw [h1, modify_get, if_neg]
    · exact hd
    · rintro rfl
      rw [hall k' hd] at hs
      exact hnc hs
  · intro d k' hk'
    rw [h1] at hk'
    rcases modify_some hk' with ⟨rfl, k'', h6, rfl⟩ | ⟨_, h6⟩
    · rw [hall k'' h6]; exact f6
    · exact h.chan d k' h6
  · intro d k' hk'
    rw [h1] at hk'
    rw [h3]
    rcases modify_some hk' with ⟨rfl, k'', h6, rfl⟩ | ⟨_, h6⟩
    · rw [hall k'' h6]
      intro j i hj
      rw [f2] at hj
      obtain ⟨r, g1, g2, g3, g4⟩ := h.member c k hk j i hj
      refine ⟨r, g1, by rw [f1]; exact g2, ?_, ?_⟩
      · unfold Fits at g3 ⊢
        rw [if_neg hne, if_pos (by omega)] at g3
        rw [if_neg f5, if_pos (by omega)]
        exact g3
      · intro x hx hj
        omega
    · exact h.member d k' h6
  · intro d d' j j' i hd hd'
    exact h.once d d' j j' i (nth_modify h1 (fun k' hk' => by rw [hall k' hk']; exact f2) hd)
      (nth_modify h1 (fun k' hk' => by rw [hall k' hk']; exact f2) hd')
  · intro d k' hk' hs
    rw [h1] at hk'
    rw [h3]
    rcases modify_some hk' with ⟨rfl, k'', h6, rfl⟩ | ⟨_, h6⟩
    · rw [hall k'' h6] at hs
      exact absurd hs f4
    · exact h.connecting d k' h6 hs

/-- A connection has been made. -/
theorem core_connected {cfg : Cfg A} {s : State A} (h : Core cfg s) {i c : Nat} {r : Req A} {a : A} (hr : s.reqs[i]? = some r)
    (hp : r.pc = .connect a c) :
    Core cfg { s.goto i (.send a c) with chans := s.chans.modify c fun k => { k with stage := .contact } } := by
  have hro := h.req i r hr
  unfold ReqOk at hro
  rw [hp] at hro
  obtain ⟨ha, k, hk, hka, hks⟩ := hro
  have hget := goto_get s i (.send a c)
  generalize ht : ({ s.goto i (.send a c) with chans := s.chans.modify c fun k => { k with stage := .contact } } : State A) = t
  have h1 : t.chans = s.chans.modify c fun k => { k with stage := .contact } := by rw [← ht]
  have h2 : t.table = s.table := by rw [← ht]; rfl
  have h3 : t.reqs = (s.goto i (.send a c)).reqs := by rw [← ht]
  have h4 : t.queue = s.queue := by rw [← ht]; rfl
  have h5 : t.alive = s.alive := by rw [← ht]; rfl
  rw [← h3] at hget
  have hother : ∀ {j}, i ≠ j → t.reqs[j]? = s.reqs[j]? := by
    intro j hj; rw [hget, if_neg hj]
  have hself : t.reqs[i]? = some { r with pc := .send a c } := by rw [hget, if_pos rfl, hr]; rfl
  have hall : ∀ k', s.chans[c]? = some k' → k' = k := by
    intro k' hk'
    rw [hk] at hk'
    exact (Option.some.inj hk').symm
  have he := (h.chan c k hk).early (by rw [hks]; simp) (by rw [hks]; simp)
  have hgrow : Grow s t := grow_modify h1 (by
    intro k' hk'
    exact ⟨rfl, fun j i hj => hj, fun x hx => ⟨x, hx, fun _ h => h⟩⟩)
  have hback : ∀ (j : Nat) (q : Req A) (b : A) (d : Nat), t.reqs[j]? = some q → q.pc = .connect b d → i ≠ j ∧ s.reqs[j]? = some q := by
    intro j q b d hq hqc
    by_cases hj : i = j
    · subst hj
      rw [hself] at hq
      cases hq
      cases hqc
    · rw [hother hj] at hq
      exact ⟨hj, hq⟩
  refine ⟨?_, ?_, ?_, ?_, table_modify h1 h2 (fun k' hk' => rfl) h.table, ?_, ?_, by rw [h4]; exact h.nodup, ?_, by rw [h4, h5]; exact h.dead⟩
  · intro j q hq
    by_cases hj : i = j
    · subst hj
      rw [hself] at hq
      cases hq
      obtain ⟨k', e1, e2, _⟩ := hgrow c k hk
      exact ⟨ha, k', e1, e2.trans hka⟩
    · rw [hother hj] at hq
      refine (h.req j q hq).mono hgrow (fun _ hx => by rw [h4]; exact hx) ?_
      intro b d k' hb hd hs
      refine ⟨k', ?_, hs⟩
      rw [h1, modify_get, if_neg]
      · exact hd
      · rintro rfl
        exact hj (h.unique i j r q a b c hr hq hp hb)
  · intro d k' hk'
    rw [h1] at hk'
    rcases modify_some hk' with ⟨rfl, k'', h6, rfl⟩ | ⟨_, h6⟩
    · rw [hall k'' h6]
      exact ⟨(h.chan c k hk).taken, fun _ _ => he, by simp, (h.chan c k hk).count⟩
    · exact h.chan d k' h6
  · intro d k' hk'
    rw [h1] at hk'
    have hkeep : ∀ (d : Nat) (k : Chan A), s.chans[d]? = some k → MemberOk cfg t.reqs d k := by
      intro d k hk
      refine member_keep (h.member d k hk) (fun j l hl => hother ?_)
      rintro rfl
      exact h.outside hr (by rw [hp]; trivial) d j ⟨k, hk, hl⟩
    rcases modify_some hk' with ⟨rfl, k'', h6, rfl⟩ | ⟨_, h6⟩
    · rw [hall k'' h6]
      intro j l hl
      obtain ⟨q, g1, g2, g3, g4⟩ := hkeep c k hk j l hl
      refine ⟨q, g1, g2, ?_, g4⟩
      unfold Fits at g3 ⊢
      rw [if_neg (by rw [hks]; simp), if_pos (by omega)] at g3
      rw [if_neg (by simp), if_pos (show k.taken ≤ j by omega)]
      exact g3
    · exact hkeep d k' h6
  · intro d d' j j' l hd hd'
    exact h.once d d' j j' l (nth_modify h1 (fun k' hk' => rfl) hd) (nth_modify h1 (fun k' hk' => rfl) hd')
  · intro d k' hk' hs
    rw [h1] at hk'
    rcases modify_some hk' with ⟨rfl, k'', h6, rfl⟩ | ⟨hne, h6⟩
    · cases hs
    · obtain ⟨j, q, b, g1, g2⟩ := h.connecting d k' h6 hs
      refine ⟨j, q, b, ?_, g2⟩
      rw [hother]
      · exact g1
      · rintro rfl
        rw [hr] at g1
        cases g1
        rw [hp] at g2
        cases g2
        exact hne rfl
  · intro j l q p b b' d g1 g2 g3 g4
    exact h.unique j l q p b b' d (hback j q b d g1 g3).2 (hback l p b' d g2 g4).2 g3 g4
  · intro j hj
    rw [h4] at hj
    obtain ⟨q, g1, g2⟩ := h.queued j hj
    refine ⟨q, ?_, g2⟩
    rw [hother]
    · exact g1
    · rintro rfl
      rw [hr] at g1
      cases g1
      rw [hp] at g2
      cases g2

/-- The reader of a channel ends. -/
theorem core_close {cfg : Cfg A} {s : State A} (h : Core cfg s) {c : Nat} {k : Chan A} (hk : s.chans[c]? = some k)
    (hnc : k.stage ≠ .connecting) : Core cfg (s.close c) := by
  have h1 : (s.close c).chans = s.chans.modify c fun k => { k with stage := .ended } := rfl
  have h3 : (s.close c).reqs = s.reqs.map (Req.lose c) := rfl
  have hall : ∀ k', s.chans[c]? = some k' → k' = k := by
    intro k' hk'
    rw [hk] at hk'
    exact (Option.some.inj hk').symm
  have hkeep : ∀ r : Req A, r.pc ≠ .waiting c → r.pc ≠ .flying c → r.lose c = r := by
    intro r e1 e2
    exact if_neg (fun e => e.elim e1 e2)
  have hpc : ∀ (r : Req A) (a : A) (d : Nat), (r.lose c).pc = .connect a d → r.pc = .connect a d := by
    intro r a d hc
    unfold Req.lose at hc
    split at hc
    · cases hc
    · exact hc
  have hstay : ∀ (i : Nat) (r : Req A), s.reqs[i]? = some r → r.pc ≠ .waiting c → r.pc ≠ .flying c → (s.close c).reqs[i]? = some r := by
    intro i r hr e1 e2
    rw [h3, List.getElem?_map, hr]
    simp [hkeep r e1 e2]
  have hgrow : Grow s (s.close c) := grow_modify h1 (by
    intro k' hk'
    exact ⟨rfl, fun j i hj => hj, fun x hx => ⟨x, hx, fun _ h => h⟩⟩)
  refine ⟨?_, ?_, ?_, ?_, table_modify h1 rfl (fun k' hk' => rfl) h.table, ?_, ?_, h.nodup, ?_, h.dead⟩
  · intro i q hq
    rw [h3, List.getElem?_map] at hq
    obtain ⟨r, hr, rfl⟩ := Option.map_eq_some_iff.mp hq
    by_cases hw : r.pc = .waiting c ∨ r.pc = .flying c
    · exact reqOk_lost (by unfold Req.lose; rw [if_pos hw])
    · have : r.lose c = r := if_neg hw
      rw [this]
      refine (h.req i r hr).mono hgrow (fun _ hx => hx) ?_
      intro a d k' _ hd hs
      refine ⟨k', ?_, hs⟩
      rw [h1, modify_get, if_neg]
      · exact hd
      · rintro rfl
        rw [hall k' hd] at hs
        exact hnc hs
  · intro d k' hk'
    rw [h1] at hk'
    rcases modify_some hk' with ⟨rfl, k'', h6, rfl⟩ | ⟨_, h6⟩
    · rw [hall k'' h6]
      exact ⟨(h.chan c k hk).taken, by simp, by simp, (h.chan c k hk).count⟩
    · exact h.chan d k' h6
  · intro d k' hk' j i hj
    rw [h1] at hk'
    rcases modify_some hk' with ⟨rfl, k'', h6, rfl⟩ | ⟨hne, h6⟩
    · obtain ⟨r, g1, g2, g3, g4⟩ := h.member c k'' h6 j i hj
      by_cases hw : r.pc = .waiting c ∨ r.pc = .flying c
      · have hl : r.lose c = { r with pc := .done .lost } := if_pos hw
        refine ⟨r.lose c, by rw [h3, List.getElem?_map, g1]; rfl, by rw [hl]; exact g2, ?_, by rw [hl]; exact g4⟩
        unfold Fits
        rw [if_pos rfl, hl]
        exact ⟨_, rfl, .inl rfl⟩
      · refine ⟨r, hstay i r g1 (fun e => hw (.inl e)) (fun e => hw (.inr e)), g2, ?_, g4⟩
        unfold Fits at g3 ⊢
        rw [if_pos rfl]
        split at g3
        · exact g3
        · split at g3
          · exact absurd (.inl g3) hw
          · split at g3
            · exact absurd (.inr g3) hw
            · obtain ⟨x, ans, e1, e2, e⟩ := g3
              exact ⟨_, e, .inr ⟨x, ans, e1, e2, rfl⟩⟩
    · obtain ⟨r, g1, g2, g3, g4⟩ := h.member d k' h6 j i hj
      have hw : r.pc ≠ .waiting c ∧ r.pc ≠ .flying c := by
        unfold Fits at g3
        split at g3
        · obtain ⟨ans, e, _⟩ := g3; rw [e]; simp
        · split at g3
          · rw [g3]; simp; exact fun e => hne e.symm
          · split at g3
            · rw [g3]; simp; exact fun e => hne e.symm
            · obtain ⟨_, _, _, _, e⟩ := g3; rw [e]; simp
      exact ⟨r, hstay i r g1 hw.1 hw.2, g2, g3, g4⟩
  · intro d d' j j' l hd hd'
    exact h.once d d' j j' l (nth_modify h1 (fun k' hk' => rfl) hd) (nth_modify h1 (fun k' hk' => rfl) hd')
  · intro d k' hk' hs
    rw [h1] at hk'
    rcases modify_some hk' with ⟨rfl, k'', h6, rfl⟩ | ⟨hne, h6⟩
    · cases hs
    · obtain ⟨j, q, b, g1, g2⟩ := h.connecting d k' h6 hs
      exact ⟨j, q, b, hstay j q g1 (by rw [g2]; simp) (by rw [g2]; simp), g2⟩
  · intro i j r q a b d g1 g2 g3 g4
    rw [h3, List.getElem?_map] at g1 g2
    obtain ⟨r', e1, rfl⟩ := Option.map_eq_some_iff.mp g1
    obtain ⟨q', e2, rfl⟩ := Option.map_eq_some_iff.mp g2
    exact h.unique i j r' q' a b d e1 e2 (hpc _ _ _ g3) (hpc _ _ _ g4)
  · intro j hj
    obtain ⟨q, g1, g2⟩ := h.queued j hj
    exact ⟨q, hstay j q g1 (by rw [g2]; simp) (by rw [g2]; simp), g2⟩

theorem modify_twice {α : Type} (l : List α) (c : Nat) (f g : α → α) : (l.modify c f).modify c g = l.modify c (g ∘ f) := by
  apply List.ext_getElem?
  intro i
  rw [modify_get, modify_get, modify_get]
  by_cases h : c = i
  · simp [h]
  · simp [h]

/-- Connecting has failed. -/
theorem core_refused {cfg : Cfg A} {s : State A} (h : Core cfg s) {i c : Nat} {r : Req A} {a : A} (hr : s.reqs[i]? = some r)
    (hp : r.pc = .connect a c) : Core cfg ((s.goto i (.done (.replied .failure))).close c) := by
  have hro := h.req i r hr
  unfold ReqOk at hro
  rw [hp] at hro
  obtain ⟨ha, k, hk, hka, hks⟩ := hro
  have hc := core_connected h hr hp
  have hr' : ({ s.goto i (.send a c) with chans := s.chans.modify c fun k => { k with stage := .contact } } : State A).reqs[i]? =
      some { r with pc := .send a c } := by
    show (s.goto i (.send a c)).reqs[i]? = _
    rw [goto_get, if_pos rfl, hr]; rfl
  have h2 := core_goto hc hr' trivial (by simp) (by simp) (pc := .done (.replied .failure)) (reqOk_failure rfl) (by simp)
  have h3 := core_close h2 (c := c) (k := { k with stage := .contact }) (by
    show (s.chans.modify c _)[c]? = _
    rw [modify_get, if_pos rfl, hk]; rfl) (by simp)
  have he : (State.goto { s.goto i (.send a c) with chans := s.chans.modify c fun k => { k with stage := .contact } } i (.done (.replied .failure))).close c =
      (s.goto i (.done (.replied .failure))).close c := by
    simp only [State.goto, State.close, modify_twice]
    rfl
  rw [he] at h3
  exact h3

/-- A transfer goes into its channel. -/
theorem core_enter {cfg : Cfg A} {s : State A} (h : Core cfg s) {i c : Nat} {r : Req A} {a : A} {k : Chan A} (hr : s.reqs[i]? = some r)
    (hp : r.pc = .send a c) (hk : s.chans[c]? = some k) (hne : k.stage ≠ .ended) :
    Core cfg { s.goto i (.waiting c) with chans := s.chans.modify c fun k => { k with entered := k.entered ++ [i] } } := by
  have hro := h.req i r hr
  unfold ReqOk at hro
  rw [hp] at hro
  obtain ⟨ha, k', hk', hka⟩ := hro
  rw [hk] at hk'
  cases hk'
  have hget := goto_get s i (.waiting c)
  generalize ht : ({ s.goto i (.waiting c) with chans := s.chans.modify c fun k => { k with entered := k.entered ++ [i] } } : State A) = t
  have h1 : t.chans = s.chans.modify c fun k => { k with entered := k.entered ++ [i] } := by rw [← ht]
  have h2 : t.table = s.table := by rw [← ht]; rfl
  have h3 : t.reqs = (s.goto i (.waiting c)).reqs := by rw [← ht]
  have h4 : t.queue = s.queue := by rw [← ht]; rfl
  have h5 : t.alive = s.alive := by rw [← ht]; rfl
  rw [← h3] at hget
  have hother : ∀ {j}, i ≠ j → t.reqs[j]? = s.reqs[j]? := by
    intro j hj; rw [hget, if_neg hj]
  have hself : t.reqs[i]? = some { r with pc := .waiting c } := by rw [hget, if_pos rfl, hr]; rfl
  have hall : ∀ k', s.chans[c]? = some k' → k' = k := by
    intro k' hk'
    rw [hk] at hk'
    exact (Option.some.inj hk').symm
  have hout := h.outside hr (by rw [hp]; trivial)
  have hpush : ∀ {l : List Nat} {j x : Nat}, (l ++ [i])[j]? = some x → l[j]? = some x ∨ (j = l.length ∧ x = i) := by
    intro l j x hj
    rw [List.getElem?_append] at hj
    split at hj
    · exact .inl hj
    · right
      have : j - l.length = 0 := by
        rcases Nat.eq_zero_or_pos (j - l.length) with e | e
        · exact e
        · rw [List.getElem?_eq_none (by simp; omega)] at hj; cases hj
      rw [this] at hj
      simp at hj
      exact ⟨by omega, hj.symm⟩
  have hold : ∀ {l : List Nat} {j x : Nat}, l[j]? = some x → (l ++ [i])[j]? = some x := by
    intro l j x hj
    rw [List.getElem?_append_left (List.getElem?_eq_some_iff.mp hj).1]
    exact hj
  have hgrow : Grow s t := grow_modify h1 (by
    intro k' hk'
    exact ⟨rfl, fun j i hj => hold hj, fun x hx => ⟨x, hx, fun _ h => h⟩⟩)
  have hback : ∀ (j : Nat) (q : Req A) (b : A) (d : Nat), t.reqs[j]? = some q → q.pc = .connect b d → i ≠ j ∧ s.reqs[j]? = some q := by
    intro j q b d hq hqc
    by_cases hj : i = j
    · subst hj
      rw [hself] at hq
      cases hq
      cases hqc
    · rw [hother hj] at hq
      exact ⟨hj, hq⟩
  have hnth : ∀ {d j l : Nat}, Nth t d j l → Nth s d j l ∨ (d = c ∧ l = i ∧ j = k.entered.length) := by
    rintro d j l ⟨k', g1, g2⟩
    rw [h1] at g1
    rcases modify_some g1 with ⟨rfl, k'', g3, rfl⟩ | ⟨_, g3⟩
    · rcases hpush g2 with g2 | ⟨rfl, rfl⟩
      · exact .inl ⟨k'', g3, g2⟩
      · exact .inr ⟨rfl, rfl, by rw [hall k'' g3]⟩
    · exact .inl ⟨k', g3, g2⟩
  refine ⟨?_, ?_, ?_, ?_, table_modify h1 h2 (fun k' hk' => rfl) h.table, ?_, ?_, by rw [h4]; exact h.nodup, ?_, by rw [h4, h5]; exact h.dead⟩
  · intro j q hq
    by_cases hj : i = j
    · subst hj
      rw [hself] at hq
      cases hq
      exact ⟨{ k with entered := k.entered ++ [i] }, k.entered.length, by rw [h1, modify_get, if_pos rfl, hk]; rfl, by simp⟩
    · rw [hother hj] at hq
      refine (h.req j q hq).mono hgrow (fun _ hx => by rw [h4]; exact hx) ?_
      intro b d k' hb hd hs
      obtain ⟨k'', e1, e2, e3, e4⟩ := hgrow d k' hd
      refine ⟨k'', e1, ?_⟩
      rw [h1] at e1
      rcases modify_some e1 with ⟨rfl, k3, g3, rfl⟩ | ⟨_, g3⟩
      · rw [hd] at g3; cases g3; exact hs
      · rw [hd] at g3; cases g3; exact hs
  · intro d k' hk'
    rw [h1] at hk'
    rcases modify_some hk' with ⟨rfl, k'', h6, rfl⟩ | ⟨_, h6⟩
    · rw [hall k'' h6]
      have hc := h.chan c k hk
      exact ⟨by simp; exact Nat.le_succ_of_le hc.taken, hc.early, hc.live, hc.count⟩
    · exact h.chan d k' h6
  · intro d k' hk'
    rw [h1] at hk'
    have hkeep : ∀ (d : Nat) (k : Chan A), s.chans[d]? = some k → MemberOk cfg t.reqs d k := by
      intro d k hk
      refine member_keep (h.member d k hk) (fun j l hl => hother ?_)
      rintro rfl
      exact hout d j ⟨k, hk, hl⟩
    rcases modify_some hk' with ⟨rfl, k'', h6, rfl⟩ | ⟨_, h6⟩
    · rw [hall k'' h6]
      intro j l hl
      rcases hpush hl with hl | ⟨rfl, rfl⟩
      · obtain ⟨q, g1, g2, g3, g4⟩ := hkeep c k hk j l hl
        exact ⟨q, g1, g2, g3, g4⟩
      · have htk := (h.chan c k hk).taken
        refine ⟨_, hself, ha.trans (by rw [← hka]), ?_, ?_⟩
        · unfold Fits
          rw [if_neg hne, if_pos htk]
        · intro x _ hlt
          exact absurd hlt (Nat.not_lt.mpr htk)
    · exact hkeep d k' h6
  · intro d d' j j' l hd hd'
    rcases hnth hd with hd | ⟨e1, e2, e3⟩
    · rcases hnth hd' with hd' | ⟨e4, e5, e6⟩
      · exact h.once d d' j j' l hd hd'
      · rw [e5] at hd
        exact absurd hd (hout _ _)
    · rcases hnth hd' with hd' | ⟨e4, e5, e6⟩
      · rw [e2] at hd'
        exact absurd hd' (hout _ _)
      · exact ⟨e1.trans e4.symm, e3.trans e6.symm⟩
  · intro d k' hk' hs
    rw [h1] at hk'
    have hh : ∃ k, s.chans[d]? = some k ∧ k.stage = .connecting := by
      rcases modify_some hk' with ⟨rfl, k'', h6, rfl⟩ | ⟨hne, h6⟩
      · exact ⟨k'', h6, hs⟩
      · exact ⟨k', h6, hs⟩
    obtain ⟨k2, h6, h7⟩ := hh
    obtain ⟨j, q, b, g1, g2⟩ := h.connecting d k2 h6 h7
    refine ⟨j, q, b, ?_, g2⟩
    rw [hother]
    · exact g1
    · rintro rfl
      rw [hr] at g1
      cases g1
      rw [hp] at g2
      cases g2
  · intro j l q p b b' d g1 g2 g3 g4
    exact h.unique j l q p b b' d (hback j q b d g1 g3).2 (hback l p b' d g2 g4).2 g3 g4
  · intro j hj
    rw [h4] at hj
    obtain ⟨q, g1, g2⟩ := h.queued j hj
    refine ⟨q, ?_, g2⟩
    rw [hother]
    · exact g1
    · rintro rfl
      rw [hr] at g1
      cases g1
      rw [hp] at g2
      cases g2

end Dtn.TcpPool
