import Verif.Spec.Clas
import Verif.Lemmas.AList
/-! Invariant of the convergence layers. -/

namespace Dtn.Clas
open Spec.ClasSpec

variable {A : Type} [DecidableEq A]

set_option linter.unusedSectionVars false

theorem goto_get (s : State A) (i : Nat) (pc : Pc A) (j : Nat) :
    (s.goto i pc).reqs[j]? = if i = j then (s.reqs[j]?).map fun r => { r with pc := pc } else s.reqs[j]? := by
  unfold State.goto
  dsimp only
  rw [List.getElem?_modify]
  by_cases h : i = j
  · simp [h]
  · simp [h]

/-- The answer `Ok(())`. -/
abbrev success : Pc A := .done (.replied .successful)

/-- What a success means, in terms of the logs. -/
def Succ (k : Kind) (s : State A) (i : Nat) (r : Req A) : Prop :=
  match k with
  | .dummy => True
  | .httppull => False
  | .external true => False
  | .external false => (i, r.dest, r.data, .successful) ∈ s.submitted
  | .http => r.data = [] ∨ ∃ a code, (i, a, r.data, code) ∈ s.posts
  | .mtcp => r.data = [] ∨ ∃ c, (i, c) ∈ s.handed
  | .udp => r.data = [] ∨ ∃ a, (i, a, r.data) ∈ s.datagrams

/-- The state of one transfer makes sense. -/
def Ok (k : Kind) (net : Sock A) (s : State A) (i : Nat) (r : Req A) : Prop :=
  match r.pc with
  | .queued => some i ∈ s.queue
  | .check a | .connect a | .get a | .remove a => k = .mtcp ∧ net.parse r.dest = some a ∧ r.data ≠ []
  | .insert a c | .write a c _ => k = .mtcp ∧ net.parse r.dest = some a ∧ r.data ≠ [] ∧ ∃ b, s.streams[c]? = some (a, b)
  | .udpBind a | .udpConnect a => k = .udp ∧ net.parse r.dest = some a ∧ r.data ≠ []
  | .udpSend a => k = .udp ∧ net.parse r.dest = some a ∧ r.data ≠ [] ∧ net.isV4 a = true
  | .http => k = .http
  | .post a => k = .http ∧ net.parse r.dest = some a ∧ r.data ≠ [] ∧ net.isV4 a = true
  | .submit => k = .external false
  | .done (.replied .successful) => Succ k s i r
  | .done _ => True

/-- The entries of the logs. -/
structure Logs (k : Kind) (net : Sock A) (s : State A) : Prop where
  datagrams : ∀ i a d, (i, a, d) ∈ s.datagrams → ∃ r, s.reqs[i]? = some r ∧ r.pc = success ∧ r.data = d ∧ d ≠ [] ∧
    net.parse r.dest = some a ∧ net.isV4 a = true ∧ d.length ≤ 65535
  posts : ∀ i a d code, (i, a, d, code) ∈ s.posts → ∃ r, s.reqs[i]? = some r ∧ r.pc = success ∧ r.data = d ∧ d ≠ [] ∧
    net.parse r.dest = some a ∧ net.isV4 a = true
  submitted : ∀ i dest d res, (i, dest, d, res) ∈ s.submitted → ∃ r, s.reqs[i]? = some r ∧ r.pc = .done (.replied res) ∧
    r.data = d ∧ r.dest = dest
  handed : ∀ i c, (i, c) ∈ s.handed → ∃ r a b, s.reqs[i]? = some r ∧ r.pc = success ∧ r.data ≠ [] ∧
    net.parse r.dest = some a ∧ s.streams[c]? = some (a, b)
  table : ∀ a c, AList.get? s.table a = some c → ∃ b, s.streams[c]? = some (a, b)
  once : (s.datagrams.map (·.1)).Nodup ∧ (s.posts.map (·.1)).Nodup ∧ (s.submitted.map (·.1)).Nodup ∧
    (s.handed.map (·.1)).Nodup

/-- The invariant. -/
structure Inv (k : Kind) (net : Sock A) (s : State A) : Prop where
  ok : ∀ i r, s.reqs[i]? = some r → Ok k net s i r
  logs : Logs k net s
  nodup : (s.queue.filterMap id).Nodup
  queued : ∀ i, some i ∈ s.queue → ∃ r, s.reqs[i]? = some r ∧ r.pc = .queued
  dead : s.alive = false → s.queue = []

/-- Logs and streams only grow. -/
structure Grow (s t : State A) : Prop where
  datagrams : ∀ x ∈ s.datagrams, x ∈ t.datagrams
  posts : ∀ x ∈ s.posts, x ∈ t.posts
  submitted : ∀ x ∈ s.submitted, x ∈ t.submitted
  handed : ∀ x ∈ s.handed, x ∈ t.handed
  streams : ∀ (c : Nat) a b, s.streams[c]? = some (a, b) → ∃ b', t.streams[c]? = some (a, b')

theorem Grow.refl (s : State A) : Grow s s :=
  ⟨fun _ h => h, fun _ h => h, fun _ h => h, fun _ h => h, fun _ _ b h => ⟨b, h⟩⟩

theorem Succ.mono {k} {s t : State A} (g : Grow s t) {i r} (h : Succ k s i r) : Succ k t i r := by
  unfold Succ at h ⊢
  split
  · trivial
  · exact h
  · exact h
  · exact g.submitted _ h
  · rcases h with h | ⟨a, code, h⟩
    · exact .inl h
    · exact .inr ⟨a, code, g.posts _ h⟩
  · rcases h with h | ⟨c, h⟩
    · exact .inl h
    · exact .inr ⟨c, g.handed _ h⟩
  · rcases h with h | ⟨a, h⟩
    · exact .inl h
    · exact .inr ⟨a, g.datagrams _ h⟩

theorem Ok.mono {k net} {s t : State A} (g : Grow s t) {i r} (hq : r.pc = .queued → some i ∈ s.queue → some i ∈ t.queue)
    (h : Ok k net s i r) : Ok k net t i r := by
  unfold Ok at h ⊢
  split <;> rename_i hp <;> simp only [hp] at h
  · exact hq hp h
  all_goals first
    | (obtain ⟨h1, h2, h3, b, h4⟩ := h; exact ⟨h1, h2, h3, g.streams _ _ _ h4⟩)
    | exact Succ.mono g h
    | exact h

/-- Transfer `i` is not answered. -/
def Open (s : State A) (i : Nat) : Prop := ∀ r, s.reqs[i]? = some r → ∀ ans, r.pc ≠ .done ans

/-- New entries of the logs, for transfer `i`. -/
structure Extends (k : Kind) (net : Sock A) (s t : State A) (i : Nat) (r : Req A) : Prop where
  datagrams : t.datagrams = s.datagrams ∨ ∃ a, t.datagrams = s.datagrams ++ [(i, a, r.data)] ∧ r.pc = success ∧ r.data ≠ [] ∧
    net.parse r.dest = some a ∧ net.isV4 a = true ∧ r.data.length ≤ 65535
  posts : t.posts = s.posts ∨ ∃ a code, t.posts = s.posts ++ [(i, a, r.data, code)] ∧ r.pc = success ∧ r.data ≠ [] ∧
    net.parse r.dest = some a ∧ net.isV4 a = true
  submitted : t.submitted = s.submitted ∨ ∃ res, t.submitted = s.submitted ++ [(i, r.dest, r.data, res)] ∧ r.pc = .done (.replied res)
  handed : t.handed = s.handed ∨ ∃ c a b, t.handed = s.handed ++ [(i, c)] ∧ r.pc = success ∧ r.data ≠ [] ∧
    net.parse r.dest = some a ∧ t.streams[c]? = some (a, b)
  streams : ∀ (c : Nat) a b, s.streams[c]? = some (a, b) → ∃ b', t.streams[c]? = some (a, b')
  table : ∀ a c, AList.get? t.table a = some c → AList.get? s.table a = some c ∨ ∃ b, t.streams[c]? = some (a, b)

theorem Extends.grow {k net} {s t : State A} {i r} (h : Extends k net s t i r) : Grow s t where
  datagrams x hx := by
    rcases h.datagrams with e | ⟨a, e, _⟩ <;> rw [e]
    · exact hx
    · exact List.mem_append_left _ hx
  posts x hx := by
    rcases h.posts with e | ⟨a, c, e, _⟩ <;> rw [e]
    · exact hx
    · exact List.mem_append_left _ hx
  submitted x hx := by
    rcases h.submitted with e | ⟨a, e, _⟩ <;> rw [e]
    · exact hx
    · exact List.mem_append_left _ hx
  handed x hx := by
    rcases h.handed with e | ⟨a, c, b, e, _⟩ <;> rw [e]
    · exact hx
    · exact List.mem_append_left _ hx
  streams := h.streams

theorem nodup_snoc {α : Type} {l : List α} {x : α} (h : l.Nodup) (hx : x ∉ l) : (l ++ [x]).Nodup := by
  rw [List.nodup_append]
  refine ⟨h, by simp, ?_⟩
  intro a ha b hb
  rw [List.mem_singleton] at hb
  subst hb
  rintro rfl
  exact hx ha

/-- Transfer `i`, which is open, becomes `r`. -/
theorem Logs.move {k net} {s t : State A} {i : Nat} {r : Req A} (h : Logs k net s) (ho : Open s i)
    (hr : t.reqs[i]? = some r) (hother : ∀ j, j ≠ i → t.reqs[j]? = s.reqs[j]?) (he : Extends k net s t i r) : Logs k net t := by
  have ne : ∀ {j q ans}, s.reqs[j]? = some q → q.pc = .done ans → j ≠ i := by
    rintro j q ans h1 h2 rfl
    exact ho q h1 ans h2
  refine ⟨?_, ?_, ?_, ?_, ?_, ?_, ?_, ?_, ?_⟩
  · intro j a d hm
    have old : (j, a, d) ∈ s.datagrams → ∃ r, t.reqs[j]? = some r ∧ r.pc = success ∧ r.data = d ∧ d ≠ [] ∧
        net.parse r.dest = some a ∧ net.isV4 a = true ∧ d.length ≤ 65535 := fun hm => by
      obtain ⟨q, h1, h2, h3⟩ := h.datagrams j a d hm
      exact ⟨q, by rw [hother j (ne h1 h2)]; exact h1, h2, h3⟩
    rcases he.datagrams with e | ⟨a', e, h1, h2, h3, h4, h5⟩ <;> rw [e] at hm
    · exact old hm
    · rcases List.mem_append.mp hm with hm | hm
      · exact old hm
      · simp only [List.mem_singleton, Prod.mk.injEq] at hm
        obtain ⟨rfl, rfl, rfl⟩ := hm
        exact ⟨r, hr, h1, rfl, h2, h3, h4, h5⟩
  · intro j a d code hm
    have old : (j, a, d, code) ∈ s.posts → ∃ r, t.reqs[j]? = some r ∧ r.pc = success ∧ r.data = d ∧ d ≠ [] ∧
        net.parse r.dest = some a ∧ net.isV4 a = true := fun hm => by
      obtain ⟨q, h1, h2, h3⟩ := h.posts j a d code hm
      exact ⟨q, by rw [hother j (ne h1 h2)]; exact h1, h2, h3⟩
    rcases he.posts with e | ⟨a', c', e, h1, h2, h3⟩ <;> rw [e] at hm
    · exact old hm
    · rcases List.mem_append.mp hm with hm | hm
      · exact old hm
      · simp only [List.mem_singleton, Prod.mk.injEq] at hm
        obtain ⟨rfl, rfl, rfl, rfl⟩ := hm
        exact ⟨r, hr, h1, rfl, h2, h3⟩
  · intro j dest d res hm
    have old : (j, dest, d, res) ∈ s.submitted → ∃ r, t.reqs[j]? = some r ∧ r.pc = .done (.replied res) ∧ r.data = d ∧
        r.dest = dest := fun hm => by
      obtain ⟨q, h1, h2, h3⟩ := h.submitted j dest d res hm
      exact ⟨q, by rw [hother j (ne h1 h2)]; exact h1, h2, h3⟩
    rcases he.submitted with e | ⟨a', e, h1⟩ <;> rw [e] at hm
    · exact old hm
    · rcases List.mem_append.mp hm with hm | hm
      · exact old hm
      · simp only [List.mem_singleton, Prod.mk.injEq] at hm
        obtain ⟨rfl, rfl, rfl, rfl⟩ := hm
        exact ⟨r, hr, h1, rfl, rfl⟩
  · intro j c hm
    have old : (j, c) ∈ s.handed → ∃ r a b, t.reqs[j]? = some r ∧ r.pc = success ∧
        r.data ≠ [] ∧ net.parse r.dest = some a ∧ t.streams[c]? = some (a, b) := fun hm => by
      obtain ⟨q, a, b, h1, h2, h3, h4, h5⟩ := h.handed j c hm
      obtain ⟨b', h6⟩ := he.streams _ _ _ h5
      exact ⟨q, a, b', by rw [hother j (ne h1 h2)]; exact h1, h2, h3, h4, h6⟩
    rcases he.handed with e | ⟨c', a', b', e, h1, h2, h3, h4⟩ <;> rw [e] at hm
    · exact old hm
    · rcases List.mem_append.mp hm with hm | hm
      · exact old hm
      · simp only [List.mem_singleton, Prod.mk.injEq] at hm
        obtain ⟨rfl, rfl⟩ := hm
        exact ⟨r, a', b', hr, h1, h2, h3, h4⟩
  · intro a c hm
    rcases he.table a c hm with hm | hm
    · obtain ⟨b, hb⟩ := h.table a c hm
      exact he.streams _ _ _ hb
    · exact hm
  · rcases he.datagrams with e | ⟨a', e, _⟩ <;> rw [e]
    · exact h.once.1
    · rw [List.map_append]
      refine nodup_snoc h.once.1 fun hm => ?_
      obtain ⟨⟨j, a, d⟩, hx, hj⟩ := List.mem_map.mp hm
      obtain ⟨q, h1, h2, _⟩ := h.datagrams j a d hx
      exact ne h1 h2 hj
  · rcases he.posts with e | ⟨a', c', e, _⟩ <;> rw [e]
    · exact h.once.2.1
    · rw [List.map_append]
      refine nodup_snoc h.once.2.1 fun hm => ?_
      obtain ⟨⟨j, a, d, code⟩, hx, hj⟩ := List.mem_map.mp hm
      obtain ⟨q, h1, h2, _⟩ := h.posts j a d code hx
      exact ne h1 h2 hj
  · rcases he.submitted with e | ⟨a', e, _⟩ <;> rw [e]
    · exact h.once.2.2.1
    · rw [List.map_append]
      refine nodup_snoc h.once.2.2.1 fun hm => ?_
      obtain ⟨⟨j, a, d, res⟩, hx, hj⟩ := List.mem_map.mp hm
      obtain ⟨q, h1, h2, _⟩ := h.submitted j a d res hx
      exact ne h1 h2 hj
  · rcases he.handed with e | ⟨c', a', b', e, _⟩ <;> rw [e]
    · exact h.once.2.2.2
    · rw [List.map_append]
      refine nodup_snoc h.once.2.2.2 fun hm => ?_
      obtain ⟨⟨j, c⟩, hx, hj⟩ := List.mem_map.mp hm
      obtain ⟨q, _, _, h1, h2, _⟩ := h.handed j c hx
      exact ne h1 h2 hj

/-- The invariant, apart from transfer `i`. -/
structure But (k : Kind) (net : Sock A) (s : State A) (i : Nat) : Prop where
  ok : ∀ j r, j ≠ i → s.reqs[j]? = some r → Ok k net s j r
  logs : Logs k net s
  nodup : (s.queue.filterMap id).Nodup
  queued : ∀ i, some i ∈ s.queue → ∃ r, s.reqs[i]? = some r ∧ r.pc = .queued
  dead : s.alive = false → s.queue = []
  out : some i ∉ s.queue

theorem Inv.but {k net} {s : State A} {i r} (h : Inv k net s) (hr : s.reqs[i]? = some r) (hq : r.pc ≠ .queued) : But k net s i where
  ok j r _ := h.ok j r
  logs := h.logs
  nodup := h.nodup
  queued := h.queued
  dead := h.dead
  out hm := by
    obtain ⟨q, h1, h2⟩ := h.queued i hm
    rw [hr] at h1
    cases h1
    exact hq h2

theorem But.move {k net} {s t : State A} {i : Nat} {r : Req A} (h : But k net s i) (ho : Open s i)
    (hr : t.reqs[i]? = some r) (hother : ∀ j, j ≠ i → t.reqs[j]? = s.reqs[j]?) (he : Extends k net s t i r)
    (hq : t.queue = s.queue) (ha : t.alive = s.alive) (hok : Ok k net t i r) : Inv k net t where
  ok j q hj := by
    by_cases hi : j = i
    · subst hi
      rw [hr] at hj
      cases hj
      exact hok
    · rw [hother j hi] at hj
      exact (h.ok j q hi hj).mono he.grow fun _ hm => by rw [hq]; exact hm
  logs := h.logs.move ho hr hother he
  nodup := by rw [hq]; exact h.nodup
  queued j hm := by
    rw [hq] at hm
    have hi : j ≠ i := by rintro rfl; exact h.out hm
    rw [hother j hi]
    exact h.queued j hm
  dead hd := by rw [hq]; exact h.dead (by rw [← ha]; exact hd)

theorem extends_same {k net} {s t : State A} {i r} (h1 : t.datagrams = s.datagrams) (h2 : t.posts = s.posts)
    (h3 : t.submitted = s.submitted) (h4 : t.handed = s.handed) (h5 : t.streams = s.streams) (h6 : t.table = s.table) :
    Extends k net s t i r :=
  ⟨.inl h1, .inl h2, .inl h3, .inl h4, fun _ _ b h => ⟨b, by rw [h5]; exact h⟩, fun _ _ h => .inl (by rw [h6] at h; exact h)⟩

/-- Only the place of transfer `i` changes. -/
theorem But.goto {k net} {s : State A} {i : Nat} {r : Req A} (h : But k net s i) (hr : s.reqs[i]? = some r) (ho : Open s i)
    (pc : Pc A) (hok : Ok k net (s.goto i pc) i { r with pc := pc }) : Inv k net (s.goto i pc) := by
  refine h.move ho (r := { r with pc := pc }) ?_ ?_ (extends_same rfl rfl rfl rfl rfl rfl) rfl rfl hok
  · rw [goto_get, if_pos rfl, hr]; rfl
  · intro j hj
    rw [goto_get, if_neg (Ne.symm hj)]

theorem die_get (s : State A) (j : Nat) : s.die.reqs[j]? = (s.reqs[j]?).map Req.drop := by
  unfold State.die
  exact List.getElem?_map

theorem die_inv {k net} {s : State A} (hok : ∀ j r, s.reqs[j]? = some r → r.pc ≠ .queued → Ok k net s j r) (hl : Logs k net s) :
    Inv k net s.die where
  ok j q hj := by
    rw [die_get] at hj
    cases hs : s.reqs[j]? with
    | none => rw [hs] at hj; cases hj
    | some r =>
      rw [hs] at hj
      cases hj
      unfold Req.drop
      by_cases hp : r.pc = .queued
      · rw [if_pos hp]; trivial
      · rw [if_neg hp]
        exact (hok j r hs hp).mono (s := s) (t := s.die) ⟨fun _ h => h, fun _ h => h, fun _ h => h, fun _ h => h, fun _ _ b h => ⟨b, h⟩⟩
          (fun h => absurd h hp)
  logs := by
    have keep : ∀ {j : Nat} {r : Req A} {ans}, s.reqs[j]? = some r → r.pc = .done ans → s.die.reqs[j]? = some r := by
      intro j r ans h1 h2
      rw [die_get, h1, Option.map_some, Req.drop, if_neg (by rw [h2]; simp)]
    refine ⟨?_, ?_, ?_, ?_, hl.table, hl.once⟩
    · intro j a d hm
      obtain ⟨r, h1, h2, h3⟩ := hl.datagrams j a d hm
      exact ⟨r, keep h1 h2, h2, h3⟩
    · intro j a d c hm
      obtain ⟨r, h1, h2, h3⟩ := hl.posts j a d c hm
      exact ⟨r, keep h1 h2, h2, h3⟩
    · intro j a d c hm
      obtain ⟨r, h1, h2, h3⟩ := hl.submitted j a d c hm
      exact ⟨r, keep h1 h2, h2, h3⟩
    · intro j c hm
      obtain ⟨r, a, b, h1, h2, h3⟩ := hl.handed j c hm
      exact ⟨r, a, b, keep h1 h2, h2, h3⟩
  nodup := List.nodup_nil
  queued _ h := by cases h
  dead _ := rfl

theorem run_snoc (k : Kind) (net : Sock A) (s : State A) (evs : List Ev) (e : Ev) :
    run k net s (evs ++ [e]) = (run k net s evs).bind fun t => step k net t e := by
  induction evs generalizing s with
  | nil =>
    simp only [List.nil_append, run, Option.bind_some]
    cases step k net s e <;> rfl
  | cons f evs ih =>
    simp only [List.cons_append, run]
    cases step k net s f with
    | none => rfl
    | some t => exact ih t

end Dtn.Clas
