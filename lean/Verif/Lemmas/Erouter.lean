import Verif.Spec.Erouter
import Verif.Lemmas.Epidemic
import Verif.Lemmas.AList
import Mathlib.Data.List.Nodup
import Mathlib.Data.List.Perm.Basic
/-! Lemmas about the external routing program. -/

namespace Dtn.Erouter
open Routing External Spec Spec.ErouterSpec

/-! One peer. -/

/-- The first layer of the peer that is among `clas`. -/
def firstHop (clas : List String) (p : Peer) : Option Hop := (p.claList.find? fun c => decide (c.1 ∈ clas)).map (hop p)

theorem visit_known {clas : List String} {bp : Pack} {p : Peer} {s : Choice} (h : s.core.contains bp.id p.nodeName = true) :
    ∀ cs, visit clas bp p cs s = some s
  | [] => rfl
  | c :: cs => by simp only [visit, h, Bool.not_true, Bool.and_false, Bool.false_eq_true, if_false]; exact visit_known h cs

theorem visit_find {clas : List String} {bp : Pack} {p : Peer} {s : Choice} (h : s.core.contains bp.id p.nodeName = false)
    (cs : List (String × Option Nat)) : visit clas bp p cs s =
      match cs.find? fun c => decide (c.1 ∈ clas) with
      | none => some s
      | some c => bp.destination.node.map fun d =>
        { core := s.core.add bp.id p.nodeName, clas := (if d = p.nodeName then [] else s.clas) ++ [hop p c],
          delete := s.delete || decide (d = p.nodeName) } := by
  induction cs with
  | nil => rfl
  | cons c cs ih =>
    unfold visit
    by_cases hc : c.1 ∈ clas
    · simp only [hc, decide_true, h, Bool.not_false, Bool.and_self, if_true, List.find?_cons_of_pos]
      cases hd : bp.destination.node with
      | none => rfl
      | some d =>
        simp only [Option.map_some]
        by_cases hn : d = p.nodeName
        · simp [hn]
        · simp only [hn, if_false, decide_false, Bool.or_false]
          exact visit_known (by simp [Epidemic.contains_add]) cs
    · simp only [hc, decide_false, Bool.false_and, Bool.false_eq_true, if_false]
      rw [ih]
      simp [hc]

/-- What one peer adds. -/
theorem visit_eq (clas : List String) (bp : Pack) (p : Peer) (s : Choice) : visit clas bp p p.claList s =
    if s.core.contains bp.id p.nodeName then some s
    else match firstHop clas p with
      | none => some s
      | some h => bp.destination.node.map fun d =>
        { core := s.core.add bp.id p.nodeName, clas := (if d = p.nodeName then [] else s.clas) ++ [h],
          delete := s.delete || decide (d = p.nodeName) } := by
  by_cases hc : s.core.contains bp.id p.nodeName = true
  · rw [if_pos hc, visit_known hc]
  · rw [if_neg hc, visit_find (by simpa using hc)]
    unfold firstHop
    cases p.claList.find? fun c => decide (c.1 ∈ clas) <;> rfl

theorem firstHop_to {clas : List String} {p : Peer} {h : Hop} (hh : firstHop clas p = some h) : HopTo clas p h := by
  unfold firstHop at hh
  cases hf : p.claList.find? fun c => decide (c.1 ∈ clas) with
  | none => rw [hf] at hh; cases hh
  | some c =>
    rw [hf] at hh
    cases hh
    exact ⟨rfl, rfl, List.mem_of_find?_eq_some hf, by simpa [hop] using List.find?_some hf⟩

theorem firstHop_some {clas : List String} {p : Peer} : (firstHop clas p).isSome ↔ Offers clas p := by
  unfold firstHop Offers
  simp

/-! All peers. -/

/-- Induction over the peers. -/
theorem visitAll_ind {clas : List String} {bp : Pack} (I : Choice → Prop) {ps : List Peer} {s t : Choice}
    (step : ∀ p ∈ ps, ∀ s h d, I s → s.core.contains bp.id p.nodeName = false → firstHop clas p = some h → bp.destination.node = some d →
      I { core := s.core.add bp.id p.nodeName, clas := (if d = p.nodeName then [] else s.clas) ++ [h],
          delete := s.delete || decide (d = p.nodeName) })
    (h : visitAll clas bp ps s = some t) (i : I s) : I t := by
  induction ps generalizing s with
  | nil => cases h; exact i
  | cons p ps ih =>
    unfold visitAll at h
    rw [visit_eq] at h
    split at h
    · cases h
    · rename_i s' hs
      refine ih (fun q hq => step q (List.mem_cons_of_mem _ hq)) h ?_
      split at hs
      · cases hs; exact i
      · rename_i hc
        split at hs
        · cases hs; exact i
        · rename_i x hx
          cases hd : bp.destination.node with
          | none => rw [hd] at hs; cases hs
          | some d =>
            rw [hd] at hs
            cases hs
            exact step p (by simp) s x d i (by simpa using hc) hx hd

theorem visitAll_hops {clas : List String} {bp : Pack} {ps : List Peer} {s t : Choice} (h : visitAll clas bp ps s = some t)
    (i : ∀ x ∈ s.clas, ∃ p ∈ ps, HopTo clas p x) : ∀ x ∈ t.clas, ∃ p ∈ ps, HopTo clas p x := by
  refine visitAll_ind (fun s => ∀ x ∈ s.clas, ∃ p ∈ ps, HopTo clas p x) ?_ h i
  intro p hp s x d i _ hx _ y hy
  simp only [List.mem_append, List.mem_singleton] at hy
  rcases hy with hy | rfl
  · split at hy
    · cases hy
    · exact i y hy
  · exact ⟨p, hp, firstHop_to hx⟩

/-- The name in a hop. -/
def name (h : Hop) : String := h.nextHop.node.getD ""

theorem hopTo_name {clas : List String} {p : Peer} {h : Hop} (hh : HopTo clas p h) : name h = p.nodeName := by
  unfold name Peer.nodeName; rw [hh.1]

/-- What the history says before and after. -/
theorem visitAll_core {clas : List String} {bp : Pack} {ps : List Peer} {c : Epidemic} {t : Choice}
    (h : visitAll clas bp ps { core := c } = some t) :
    (∀ x ∈ t.clas, c.contains bp.id (name x) = false ∧ t.core.contains bp.id (name x) = true) ∧
    (t.clas.map name).Nodup ∧ (∀ b n, c.contains b n = true → t.core.contains b n = true) ∧
    (∀ b n, b ≠ bp.id → t.core.contains b n = c.contains b n) ∧
    (t.delete = false → ∀ n, t.core.contains bp.id n = true → c.contains bp.id n = true ∨ n ∈ t.clas.map name) := by
  refine visitAll_ind (fun s => (∀ x ∈ s.clas, c.contains bp.id (name x) = false ∧ s.core.contains bp.id (name x) = true) ∧
    (s.clas.map name).Nodup ∧ (∀ b n, c.contains b n = true → s.core.contains b n = true) ∧
    (∀ b n, b ≠ bp.id → s.core.contains b n = c.contains b n) ∧
    (s.delete = false → ∀ n, s.core.contains bp.id n = true → c.contains bp.id n = true ∨ n ∈ s.clas.map name)) ?_ h
    (by refine ⟨by simp, by simp, by simp, by simp, fun _ n h => .inl h⟩)
  intro p hp s x d ⟨i1, i2, i3, i4, i5⟩ hc hx hd
  have hn := hopTo_name (firstHop_to hx)
  have hc0 : c.contains bp.id p.nodeName = false := by
    cases hb : c.contains bp.id p.nodeName with
    | false => rfl
    | true => rw [i3 _ _ hb] at hc; cases hc
  have old : ∀ y ∈ (if d = p.nodeName then [] else s.clas), y ∈ s.clas := by
    intro y hy; split at hy
    · cases hy
    · exact hy
  refine ⟨?_, ?_, ?_, ?_, ?_⟩
  · intro y hy
    simp only [List.mem_append, List.mem_singleton] at hy
    rcases hy with hy | rfl
    · exact ⟨(i1 y (old y hy)).1, by simp [Epidemic.contains_add, (i1 y (old y hy)).2]⟩
    · rw [hn]; exact ⟨hc0, by simp [Epidemic.contains_add]⟩
  · rw [List.map_append]
    refine List.nodup_append.mpr ⟨?_, by simp, ?_⟩
    · split
      · simp
      · exact i2
    · intro a ha b hb
      simp only [List.map_cons, List.map_nil, List.mem_singleton] at hb
      subst hb
      obtain ⟨y, hy, rfl⟩ := List.mem_map.mp ha
      intro he
      have := (i1 y (old y hy)).2
      rw [he, hn, hc] at this
      cases this
  · intro b n hb; simp [Epidemic.contains_add, i3 b n hb]
  · intro b n hb; simp [Epidemic.contains_add, i4 b n hb, Ne.symm hb]
  · intro hdel n hb
    simp only [Bool.or_eq_false_iff, decide_eq_false_iff_not] at hdel
    simp only [hdel.2, if_false, List.map_append, List.mem_append, List.map_cons, List.map_nil, List.mem_singleton, hn]
    rw [Epidemic.contains_add] at hb
    by_cases he : p.nodeName = n
    · exact .inr (.inr he.symm)
    · have hb' : s.core.contains bp.id n = true := by simpa [he] using hb
      rcases i5 hdel.1 n hb' with h | h
      · exact .inl h
      · exact .inr (.inl h)

/-- The program ends exactly if a bundle for no node could be sent to a peer. -/
theorem visitAll_none {clas : List String} {bp : Pack} (ps : List Peer) (s : Choice) : visitAll clas bp ps s = none ↔
    bp.destination.node = none ∧ ∃ p ∈ ps, s.core.contains bp.id p.nodeName = false ∧ Offers clas p := by
  induction ps generalizing s with
  | nil => simp [visitAll]
  | cons p ps ih =>
    unfold visitAll
    rw [visit_eq]
    by_cases hc : s.core.contains bp.id p.nodeName = true
    · simp only [hc, if_true]
      rw [ih]
      simp [hc]
    · simp only [hc, Bool.false_eq_true, if_false]
      simp only [Bool.not_eq_true] at hc
      cases hf : firstHop clas p with
      | none =>
        have : ¬ Offers clas p := by rw [← firstHop_some, hf]; simp
        simp only
        rw [ih]
        simp [this]
      | some h =>
        have : Offers clas p := by rw [← firstHop_some, hf]; rfl
        cases hd : bp.destination.node with
        | none => simp [this, hc]
        | some d =>
          simp only [Option.map_some]
          rw [ih]
          simp [hd]

/-- If no peer is the destination, all peers are named that have not got the bundle. -/
theorem visitAll_relay {clas : List String} {bp : Pack} {d : String} (hd : bp.destination.node = some d) : ∀ (ps : List Peer) (s : Choice),
    (ps.map Peer.nodeName).Nodup →
    (∀ p ∈ ps, s.core.contains bp.id p.nodeName = false → Offers clas p → p.nodeName ≠ d) →
    ∃ t, visitAll clas bp ps s = some t ∧ t.delete = s.delete ∧
      t.clas = s.clas ++ (ps.filter fun p => !s.core.contains bp.id p.nodeName).filterMap (firstHop clas)
  | [], s, _, _ => ⟨s, rfl, rfl, by simp⟩
  | p :: ps, s, hnd, hno => by
    simp only [List.map_cons, List.nodup_cons] at hnd
    unfold visitAll
    rw [visit_eq]
    by_cases hc : s.core.contains bp.id p.nodeName = true
    · simp only [hc, if_true]
      obtain ⟨t, h1, h2, h3⟩ := visitAll_relay hd ps s hnd.2 fun q hq => hno q (List.mem_cons_of_mem _ hq)
      exact ⟨t, h1, h2, by rw [h3]; simp [hc]⟩
    · simp only [hc, Bool.false_eq_true, if_false]
      simp only [Bool.not_eq_true] at hc
      cases hf : firstHop clas p with
      | none =>
        obtain ⟨t, h1, h2, h3⟩ := visitAll_relay hd ps s hnd.2 fun q hq => hno q (List.mem_cons_of_mem _ hq)
        exact ⟨t, h1, h2, by rw [h3]; simp [hc, hf]⟩
      | some h =>
        have hne : ¬ d = p.nodeName := fun e => hno p (by simp) hc (by rw [← firstHop_some, hf]; rfl) e.symm
        have hsame : ∀ q ∈ ps, (s.core.add bp.id p.nodeName).contains bp.id q.nodeName = s.core.contains bp.id q.nodeName := by
          intro q hq
          have : ¬ p.nodeName = q.nodeName := by
            intro h; apply hnd.1; rw [h]; exact List.mem_map_of_mem hq
          simp [Epidemic.contains_add, this]
        simp only [hd, Option.map_some, hne, if_false, decide_false, Bool.or_false]
        obtain ⟨t, h1, h2, h3⟩ := visitAll_relay hd ps { core := s.core.add bp.id p.nodeName, clas := s.clas ++ [h], delete := s.delete } hnd.2 (by
          intro q hq; simp only; rw [hsame q hq]; exact hno q (List.mem_cons_of_mem _ hq))
        refine ⟨t, h1, h2, ?_⟩
        rw [h3]
        have : (ps.filter fun q => !(s.core.add bp.id p.nodeName).contains bp.id q.nodeName) =
            ps.filter fun q => !s.core.contains bp.id q.nodeName := by
          apply List.filter_congr
          intro q hq; rw [hsame q hq]
        simp only [this]
        simp [hc, hf]

/-- If a peer that has not got the bundle is the destination, it is named and deletion is asked for. -/
theorem visitAll_direct {clas : List String} {bp : Pack} {d : String} (hd : bp.destination.node = some d) {ps : List Peer} {s t : Choice}
    (h : visitAll clas bp ps s = some t) (hp : ∃ p ∈ ps, p.nodeName = d ∧ Offers clas p) (hc : s.core.contains bp.id d = false) :
    t.delete = true ∧ d ∈ t.clas.map name := by
  have keep : ∀ (ps : List Peer) (s t : Choice), visitAll clas bp ps s = some t → s.core.contains bp.id d = true → s.delete = true →
      d ∈ s.clas.map name → t.delete = true ∧ d ∈ t.clas.map name := by
    intro ps s t h h1 h2 h3
    have := visitAll_ind (fun s => s.core.contains bp.id d = true ∧ s.delete = true ∧ d ∈ s.clas.map name) ?_ h ⟨h1, h2, h3⟩
    · exact this.2
    · intro p _ s x d' ⟨i1, i2, i3⟩ hc' hx hd'
      rw [hd] at hd'
      cases hd'
      have hne : ¬ d = p.nodeName := by intro e; rw [← e, i1] at hc'; cases hc'
      refine ⟨by simp [Epidemic.contains_add, i1], by simp [i2], ?_⟩
      simp only [hne, if_false, List.map_append, List.mem_append]
      exact .inl i3
  induction ps generalizing s with
  | nil => obtain ⟨p, hp, -⟩ := hp; cases hp
  | cons p ps ih =>
    unfold visitAll at h
    rw [visit_eq] at h
    split at h
    · cases h
    · rename_i s' hs
      by_cases hpd : p.nodeName = d ∧ Offers clas p
      · obtain ⟨hpn, hpo⟩ := hpd
        rw [hpn, hc, if_neg (by simp)] at hs
        obtain ⟨x, hx⟩ := Option.isSome_iff_exists.mp (firstHop_some.mpr hpo)
        rw [hx, hd] at hs
        cases hs
        refine keep ps _ t h (by simp [Epidemic.contains_add]) (by simp) ?_
        have := hopTo_name (firstHop_to hx)
        simp [this, hpn]
      · have hp' : ∃ q ∈ ps, q.nodeName = d ∧ Offers clas q := by
          obtain ⟨q, hq, hq'⟩ := hp
          rcases List.mem_cons.mp hq with rfl | hq
          · exact absurd hq' hpd
          · exact ⟨q, hq, hq'⟩
        refine ih h hp' ?_
        split at hs
        · cases hs; exact hc
        · split at hs
          · cases hs; exact hc
          · rename_i x hx
            rw [hd] at hs
            cases hs
            have hne : ¬ p.nodeName = d := fun e => hpd ⟨e, firstHop_some.mp (by rw [hx]; rfl)⟩
            simp [Epidemic.contains_add, hne, hc]

/-! The program. -/

theorem after_append (r : Option Router) (xs ys : List News) : after r (xs ++ ys) = after (after r xs) ys := by
  simp [after, List.foldl_append]

theorem after_none (xs : List News) : after none xs = none := by
  induction xs with
  | nil => rfl
  | cons x xs ih => exact ih

theorem replies_append (r : Option Router) (xs ys : List News) : replies r (xs ++ ys) = replies r xs ++ replies (after r xs) ys := by
  induction xs generalizing r with
  | nil => rfl
  | cons x xs ih => simp only [List.cons_append, replies, ih]; rfl

theorem replied_iff {st : Strategy} {news : List News} {clas : List String} {bp : Pack} {r : Reply} : Replied st news clas bp r ↔
    ∃ r0 r1, after (start st) news = some r0 ∧ r0.choose clas bp = some (r1, r) := by
  unfold Replied
  rw [replies_append]
  simp only [replies, List.getLast?_concat, Option.some.injEq, Prod.mk.injEq, true_and]
  cases after (start st) news with
  | none => simp
  | some r0 =>
    simp only [Option.bind_some, Router.step]
    cases hc : r0.choose clas bp with
    | none => simp [hc]
    | some x => obtain ⟨r1, r'⟩ := x; simp [hc]

theorem keeps_strategy (r : Router) (f : Epidemic → Epidemic) : (r.keeps f).strategy = r.strategy ∧ (r.keeps f).peers = r.peers := by
  unfold Router.keeps; split <;> simp

theorem choose_same {r r' : Router} {clas : List String} {bp : Pack} {x : Reply} (h : r.choose clas bp = some (r', x)) :
    r'.strategy = r.strategy ∧ r'.peers = r.peers ∧ x.bp = bp := by
  unfold Router.choose at h
  split at h
  · cases h; exact ⟨rfl, rfl, rfl⟩
  · split at h
    · cases h
    · cases h; exact ⟨rfl, rfl, rfl⟩

theorem told_append (n : String) (xs : List News) (x : News) : told n (xs ++ [x]) =
    match x with
    | .peerState ps => AList.get? ps n
    | .encountered e p => if e.node = some n then some p else told n xs
    | .dropped e => if e.node = some n then none else told n xs
    | _ => told n xs := by
  unfold told
  rw [List.foldl_append]
  rfl

/-- What the program knows is what it was told. -/
theorem after_told {st : Strategy} (news : List News) {r : Router} (h : after (start st) news = some r) :
    r.strategy = st ∧ ∀ n, AList.get? r.peers n = told n news := by
  induction news using List.reverseRecOn generalizing r with
  | nil => cases h; exact ⟨rfl, fun _ => rfl⟩
  | append_singleton news x ih =>
    rw [after_append] at h
    cases h0 : after (start st) news with
    | none => rw [h0, after_none] at h; cases h
    | some r0 =>
      rw [h0] at h
      obtain ⟨i1, i2⟩ := ih h0
      simp only [after, List.foldl_cons, List.foldl_nil, Option.bind_some, Option.map_eq_some_iff] at h
      obtain ⟨⟨r1, o⟩, h, rfl⟩ := h
      simp only [told_append]
      cases x with
      | peerState ps => cases h; exact ⟨i1, fun _ => rfl⟩
      | encountered e p =>
        simp only [Router.step] at h
        split at h
        · cases h
        · rename_i n hn
          cases h
          refine ⟨i1, fun m => ?_⟩
          simp only [hn, Option.some.injEq, AList.get?_insert, i2]
          by_cases hm : n = m
          · simp [hm]
          · simp [hm, Ne.symm hm]
      | dropped e =>
        simp only [Router.step] at h
        split at h
        · cases h
        · rename_i n hn
          cases h
          refine ⟨i1, fun m => ?_⟩
          simp only [hn, Option.some.injEq, AList.get?_erase, i2]
          by_cases hm : n = m
          · simp [hm]
          · simp [hm, Ne.symm hm]
      | failed b n => cases h; exact ⟨(keeps_strategy _ _).1.trans i1, fun m => by rw [(keeps_strategy _ _).2]; exact i2 m⟩
      | timeout bp => cases h; exact ⟨(keeps_strategy _ _).1.trans i1, fun m => by rw [(keeps_strategy _ _).2]; exact i2 m⟩
      | incoming b =>
        simp only [Router.step] at h
        split at h
        · cases h; exact ⟨(keeps_strategy _ _).1.trans i1, fun m => by rw [(keeps_strategy _ _).2]; exact i2 m⟩
        · cases h; exact ⟨i1, i2⟩
      | incomingWithout b n => cases h; exact ⟨(keeps_strategy _ _).1.trans i1, fun m => by rw [(keeps_strategy _ _).2]; exact i2 m⟩
      | succeeded b n => cases h; exact ⟨i1, i2⟩
      | other => cases h; exact ⟨i1, i2⟩
      | request clas bp =>
        simp only [Router.step, Option.map_eq_some_iff] at h
        obtain ⟨⟨r2, y⟩, h, he⟩ := h
        cases he
        obtain ⟨k1, k2, -⟩ := choose_same h
        exact ⟨k1.trans i1, fun m => by rw [k2]; exact i2 m⟩

/-- Peers are kept under their names. -/
theorem after_named {st : Strategy} (news : List News) (well : WellTold news) {r : Router} (h : after (start st) news = some r) :
    AList.WF r.peers ∧ ∀ k p, (k, p) ∈ r.peers → p.nodeName = k := by
  induction news using List.reverseRecOn generalizing r with
  | nil => cases h; exact ⟨List.nodup_nil, by simp⟩
  | append_singleton news x ih =>
    rw [after_append] at h
    cases h0 : after (start st) news with
    | none => rw [h0, after_none] at h; cases h
    | some r0 =>
      rw [h0] at h
      obtain ⟨i1, i2⟩ := ih ⟨fun ps hp => well.1 ps (List.mem_append_left _ hp), fun e p hp => well.2 e p (List.mem_append_left _ hp)⟩ h0
      simp only [after, List.foldl_cons, List.foldl_nil, Option.bind_some, Option.map_eq_some_iff] at h
      obtain ⟨⟨r1, o⟩, h, rfl⟩ := h
      have same : r1.peers = r0.peers → AList.WF r1.peers ∧ ∀ k p, (k, p) ∈ r1.peers → p.nodeName = k := fun e => by rw [e]; exact ⟨i1, i2⟩
      cases x with
      | peerState ps => cases h; exact well.1 ps (by simp)
      | encountered e p =>
        simp only [Router.step] at h
        split at h
        · cases h
        · rename_i n hn
          cases h
          refine ⟨i1.insert _ _, ?_⟩
          intro k q hq
          rcases List.mem_cons.mp hq with hq | hq
          · cases hq
            have := well.2 e p (by simp)
            rw [this, hn]
            rfl
          · exact i2 k q (List.mem_of_mem_filter hq)
      | dropped e =>
        simp only [Router.step] at h
        split at h
        · cases h
        · cases h
          exact ⟨i1.erase _, fun k q hq => i2 k q (List.mem_of_mem_filter hq)⟩
      | failed b n => cases h; exact same (keeps_strategy _ _).2
      | timeout bp => cases h; exact same (keeps_strategy _ _).2
      | incoming b =>
        simp only [Router.step] at h
        split at h
        · cases h; exact same (keeps_strategy _ _).2
        · cases h; exact ⟨i1, i2⟩
      | incomingWithout b n => cases h; exact same (keeps_strategy _ _).2
      | succeeded b n => cases h; exact ⟨i1, i2⟩
      | other => cases h; exact ⟨i1, i2⟩
      | request clas bp =>
        simp only [Router.step, Option.map_eq_some_iff] at h
        obtain ⟨⟨r2, y⟩, h, he⟩ := h
        cases he
        exact same (choose_same h).2.1

theorem mem_values {r : Router} {news : List News} {st : Strategy} (h : after (start st) news = some r) {p : Peer}
    (hp : p ∈ AList.values r.peers) (well : AList.WF r.peers) : ∃ n, told n news = some p := by
  obtain ⟨⟨k, q⟩, hm, rfl⟩ := List.mem_map.mp hp
  exact ⟨k, by rw [← (after_told news h).2, well.get?_of_mem hm]⟩

theorem values_of_told {r : Router} {news : List News} {st : Strategy} (h : after (start st) news = some r) {n : String} {p : Peer}
    (ht : told n news = some p) : p ∈ AList.values r.peers := by
  rw [← (after_told news h).2] at ht
  exact List.mem_map.mpr ⟨(n, p), AList.mem_of_get? ht, rfl⟩

theorem values_names {ps : Peers} (w : AList.WF ps) (h : ∀ k p, (k, p) ∈ ps → p.nodeName = k) :
    ((AList.values ps).map Peer.nodeName).Nodup := by
  have : (AList.values ps).map Peer.nodeName = AList.keys ps := by
    unfold AList.values AList.keys
    rw [List.map_map]
    exact List.map_congr_left fun x hx => h x.1 x.2 hx
  rw [this]; exact w

theorem contains_timeout (c : Epidemic) (bid b n : String) :
    (sendingTimeout c bid).contains b n = (!decide (bid = b) && c.contains b n) := by
  unfold sendingTimeout Epidemic.contains
  cases hg : AList.get? c.history bid with
  | none =>
    by_cases h : bid = b
    · subst h; simp [hg]
    · simp [h]
  | some es =>
    simp only [AList.get?_insert]
    by_cases h : bid = b
    · subst h; simp
    · simp [h, Ne.symm h]

/-- One packet and the history of the epidemic strategy. -/
theorem step_core {r r' : Router} {x : News} {o : Option Reply} (hs : r.strategy = .epidemic) (h : r.step x = some (r', o)) (bid n : String) :
    match x with
    | .request _ bp => ∃ a, o = some a ∧ (r.core.contains bid n = true → r'.core.contains bid n = true) ∧
        (bp.id ≠ bid → r'.core.contains bid n = r.core.contains bid n) ∧
        (bp.id = bid → (n ∈ names a → r.core.contains bid n = false ∧ r'.core.contains bid n = true) ∧
          (a.delete = false → r'.core.contains bid n = true → r.core.contains bid n = true ∨ n ∈ names a))
    | .failed b m => r'.core.contains bid n = (!decide (b = bid ∧ m = n) && r.core.contains bid n)
    | .timeout bp => r'.core.contains bid n = (!decide (bp.id = bid) && r.core.contains bid n)
    | .incoming b => r'.core.contains bid n =
        (decide (b.id = bid ∧ (Routing.previousNode b).bind EID.node = some n ∧ n ≠ "") || r.core.contains bid n)
    | .incomingWithout b m => r'.core.contains bid n = (decide (b = bid ∧ m = n ∧ n ≠ "") || r.core.contains bid n)
    | _ => r'.core = r.core := by
  cases x with
  | peerState ps => cases h; rfl
  | encountered e p => simp only [Router.step] at h; split at h <;> cases h; rfl
  | dropped e => simp only [Router.step] at h; split at h <;> cases h; rfl
  | failed b m => cases h; simp only [Router.keeps, hs, if_true, Epidemic.contains_sendingFailed]
  | timeout bp => cases h; simp only [Router.keeps, hs, if_true, contains_timeout]
  | incoming b =>
    simp only [Router.step] at h
    split at h
    · rename_i m hm
      cases h
      simp only [Router.keeps, hs, if_true, Epidemic.contains_incomingBundle, hm, Option.some.injEq]
      by_cases e : m = n
      · subst e; by_cases h : b.id = bid ∧ m ≠ "" <;> simp [h]
      · simp [e]
    · rename_i hm
      cases h
      simp [hm]
  | incomingWithout b m =>
    cases h
    simp only [Router.keeps, hs, if_true, Epidemic.contains_incomingBundle]
    by_cases e : m = n
    · subst e; by_cases h : b = bid ∧ m ≠ "" <;> simp [h]
    · simp [e]
  | succeeded b m => cases h; rfl
  | other => cases h; rfl
  | request clas bp =>
    simp only [Router.step, Option.map_eq_some_iff] at h
    obtain ⟨⟨r2, y⟩, hch, he⟩ := h
    simp only [Prod.mk.injEq] at he
    obtain ⟨rfl, rfl⟩ := he
    unfold Router.choose at hch
    rw [hs] at hch
    simp only at hch
    split at hch
    · cases hch
    · rename_i t ht
      cases hch
      obtain ⟨k1, -, k3, k4, k5⟩ := visitAll_core ht
      refine ⟨_, rfl, k3 bid n, fun hb => k4 bid n (Ne.symm hb), ?_⟩
      rintro rfl
      refine ⟨?_, fun hd hc => k5 hd n hc⟩
      intro hn
      obtain ⟨x, hx, rfl⟩ := List.mem_map.mp hn
      exact k1 x hx

theorem got_append (bid n : String) (h : List (News × Option Reply)) (x : News × Option Reply) : got bid n (h ++ [x]) =
    match x with
    | (.request _ bp, some r) => if bp.id = bid ∧ n ∈ names r then true else got bid n h
    | (.failed b m, _) => if b = bid ∧ m = n then false else got bid n h
    | (.timeout bp, _) => if bp.id = bid then false else got bid n h
    | (.incoming b, _) => if b.id = bid ∧ (Routing.previousNode b).bind EID.node = some n ∧ n ≠ "" then true else got bid n h
    | (.incomingWithout b m, _) => if b = bid ∧ m = n ∧ n ≠ "" then true else got bid n h
    | _ => got bid n h := by
  unfold got
  rw [List.foldl_append]
  rfl

/-- As long as no deletion was asked for, the history of the program is what the packets and replies say. -/
theorem core_got {news : List News} {bid : String}
    (hno : ∀ clas bp a, (News.request clas bp, some a) ∈ replies (start .epidemic) news → bp.id = bid → a.delete = false)
    {r : Router} (h : after (start .epidemic) news = some r) (n : String) :
    r.core.contains bid n = got bid n (replies (start .epidemic) news) := by
  induction news using List.reverseRecOn generalizing r with
  | nil => cases h; rfl
  | append_singleton news x ih =>
    rw [after_append] at h
    rw [replies_append] at hno ⊢
    cases h0 : after (start .epidemic) news with
    | none => rw [h0, after_none] at h; cases h
    | some r0 =>
      rw [h0] at h hno
      have ih := ih (fun clas bp a hm => hno clas bp a (List.mem_append_left _ hm)) h0
      simp only [after, List.foldl_cons, List.foldl_nil, Option.bind_some, Option.map_eq_some_iff] at h
      obtain ⟨⟨r1, o⟩, h, rfl⟩ := h
      have hr : replies (some r0) [x] = [(x, o)] := by simp [replies, h]
      rw [hr] at hno ⊢
      rw [got_append]
      have key := step_core (after_told news h0).1 h bid n
      cases x with
      | peerState ps => simp only at key ⊢; rw [key, ih]
      | encountered e p => simp only at key ⊢; rw [key, ih]
      | dropped e => simp only at key ⊢; rw [key, ih]
      | failed b m =>
        simp only at key ⊢; rw [key, ih]
        by_cases hc : b = bid ∧ m = n <;> simp [hc]
      | timeout bp =>
        simp only at key ⊢; rw [key, ih]
        by_cases hc : bp.id = bid <;> simp [hc]
      | incoming b =>
        simp only at key ⊢; rw [key, ih]
        by_cases hc : b.id = bid ∧ (Routing.previousNode b).bind EID.node = some n ∧ n ≠ ""
        · simp [hc]
        · rw [if_neg hc]; simp [hc]
      | incomingWithout b m =>
        simp only at key ⊢; rw [key, ih]
        by_cases hc : b = bid ∧ m = n ∧ n ≠ ""
        · simp [hc]
        · rw [if_neg hc]; simp [hc]
      | succeeded b m => simp only at key ⊢; rw [key, ih]
      | other => simp only at key ⊢; rw [key, ih]
      | request clas bp =>
        simp only at key
        obtain ⟨a, rfl, k1, k2, k3⟩ := key
        simp only
        by_cases hb : bp.id = bid
        · obtain ⟨k4, k5⟩ := k3 hb
          have hd := hno clas bp a (by simp) hb
          by_cases hn : n ∈ names a
          · simp [hb, hn, (k4 hn).2]
          · simp only [hb, hn, and_false, if_false, ← ih]
            rw [Bool.eq_iff_iff]
            exact ⟨fun hc => (k5 hd hc).resolve_right hn, k1⟩
        · simp [hb, k2 hb, ih]

/-- What the history says is not forgotten without a failure or a timeout. -/
theorem core_stays {mid : List News} {r r' : Router} {bid n : String} (hs : r.strategy = .epidemic) (h : after (some r) mid = some r')
    (hc : r.core.contains bid n = true) (hf : News.failed bid n ∉ mid) (ht : ∀ bp, News.timeout bp ∈ mid → bp.id ≠ bid) :
    r'.core.contains bid n = true := by
  induction mid generalizing r with
  | nil => cases h; exact hc
  | cons x mid ih =>
    change after ((some r).bind fun r => (r.step x).map Prod.fst) mid = _ at h
    simp only [Option.bind_some] at h
    cases hx : r.step x with
    | none => rw [hx] at h; rw [Option.map_none, after_none] at h; cases h
    | some y =>
      obtain ⟨r1, o⟩ := y
      rw [hx] at h
      have hs1 : r1.strategy = .epidemic := by
        cases x with
        | peerState ps => cases hx; exact hs
        | encountered e p => simp only [Router.step] at hx; split at hx <;> cases hx; exact hs
        | dropped e => simp only [Router.step] at hx; split at hx <;> cases hx; exact hs
        | failed b m => cases hx; exact (keeps_strategy _ _).1.trans hs
        | timeout bp => cases hx; exact (keeps_strategy _ _).1.trans hs
        | incoming b =>
          simp only [Router.step] at hx
          split at hx
          · cases hx; exact (keeps_strategy _ _).1.trans hs
          · cases hx; exact hs
        | incomingWithout b m => cases hx; exact (keeps_strategy _ _).1.trans hs
        | succeeded b m => cases hx; exact hs
        | other => cases hx; exact hs
        | request clas bp =>
          simp only [Router.step, Option.map_eq_some_iff] at hx
          obtain ⟨⟨r2, y⟩, hx, he⟩ := hx
          cases he
          exact (choose_same hx).1.trans hs
      refine ih hs1 h ?_ (fun hm => hf (List.mem_cons_of_mem _ hm)) fun bp hm => ht bp (List.mem_cons_of_mem _ hm)
      have key := step_core hs hx bid n
      cases x with
      | peerState ps => simp only at key; rw [key, hc]
      | encountered e p => simp only at key; rw [key, hc]
      | dropped e => simp only at key; rw [key, hc]
      | failed b m =>
        simp only at key; rw [key, hc]
        have : ¬ (b = bid ∧ m = n) := by rintro ⟨rfl, rfl⟩; exact hf (by simp)
        simp [this]
      | timeout bp =>
        simp only at key; rw [key, hc]
        simp [ht bp (by simp)]
      | incoming b => simp only at key; rw [key, hc]; simp
      | incomingWithout b m => simp only at key; rw [key, hc]; simp
      | succeeded b m => simp only at key; rw [key, hc]
      | other => simp only at key; rw [key, hc]
      | request clas bp =>
        simp only at key
        obtain ⟨a, -, k1, -⟩ := key
        exact k1 hc

/-! What the node makes of a reply. -/

/-- The sender for a hop, `unpack`. -/
def senderOf (running : List Cla) (h : Hop) : Option Sender :=
  (running.find? fun c => h.agent = c.name).map fun c =>
    { tx := c, dest := h.remote.print ++ ":" ++ toString (h.port.getD c.port), claName := c.name, nextHop := h.nextHop }

theorem firstHop_sender {running : List Cla} (acc : ∀ c ∈ running, c.accepting = true) (p : Peer) :
    (firstHop (running.map Cla.name) p).bind (senderOf running) = p.firstCla running := by
  unfold firstHop Peer.firstCla
  induction p.claList with
  | nil => rfl
  | cons x xs ih =>
    obtain ⟨nm, port⟩ := x
    unfold Peer.firstClaIn
    have hf : running.find? (fun c => decide (c.name = nm) && c.accepting) = running.find? fun c => decide (c.name = nm) := by
      clear ih
      induction running with
      | nil => rfl
      | cons c cs ihc =>
        simp only [List.find?_cons, acc c (by simp), Bool.and_true]
        rw [ihc fun c hc => acc c (List.mem_cons_of_mem _ hc)]
    rw [hf]
    by_cases hm : nm ∈ running.map Cla.name
    · rw [List.find?_cons_of_pos (by simpa using hm)]
      simp only [Option.map_some, Option.bind_some, senderOf, hop]
      have he : (running.find? fun c => decide (nm = c.name)) = running.find? fun c => decide (c.name = nm) := by
        congr 1; funext c; simp [eq_comm]
      rw [he]
      cases hc : running.find? fun c => decide (c.name = nm) with
      | none =>
        exfalso
        obtain ⟨c, hc1, hc2⟩ := List.mem_map.mp hm
        have := List.find?_eq_none.mp hc c hc1
        simp [hc2] at this
      | some c => rfl
    · rw [List.find?_cons_of_neg (by simpa using hm), ih]
      have : running.find? (fun c => decide (c.name = nm)) = none := by
        apply List.find?_eq_none.mpr
        intro c hc hn
        exact hm (List.mem_map.mpr ⟨c, hc, by simpa using hn⟩)
      rw [this]

theorem filterMap_sender {running : List Cla} (acc : ∀ c ∈ running, c.accepting = true) (ps : List Peer) :
    (ps.filterMap (firstHop (running.map Cla.name))).filterMap (senderOf running) = ps.filterMap fun p => p.firstCla running := by
  rw [List.filterMap_filterMap]
  exact List.filterMap_congr fun p _ => firstHop_sender acc p

/-! The built-in router. -/

theorem offers_usable {running : List Cla} (acc : ∀ c ∈ running, c.accepting = true) (p : Peer) :
    Offers (running.map Cla.name) p ↔ Usable running p := by
  unfold Offers Usable
  constructor
  · rintro ⟨c, hc, hm⟩
    obtain ⟨k, hk, e⟩ := List.mem_map.mp hm
    exact ⟨c, hc, k, hk, e, acc k hk⟩
  · rintro ⟨c, hc, k, hk, e, -⟩
    exact ⟨c, hc, List.mem_map.mpr ⟨k, hk, e⟩⟩

/-- Asked the same with the same history, both answer the same and have the same history afterwards. -/
theorem ask_alike {xs : List News} (well : WellTold xs) {r0 : Router} (h0 : after (start .epidemic) xs = some r0) {c : Epidemic}
    (hc : ∀ b n, r0.core.contains b n = c.contains b n) {ps : List Peer} {r : List Cla} {bp : Pack} (nodup : ps.Nodup)
    (hps : ∀ p, p ∈ ps ↔ ∃ n, told n xs = some p) (acc : ∀ k ∈ r, k.accepting = true) {d : String}
    (hd : bp.destination.node = some d) (hno : ∀ p ∈ ps, p.nodeName ≠ d) :
    ∃ r1 reply c1 a, r0.choose (r.map Cla.name) bp = some (r1, reply) ∧ c.senderForBundle ps r bp = some (c1, a) ∧
      (∀ b n, r1.core.contains b n = c1.contains b n) ∧ reply.delete = false ∧ a.delete = false ∧
      (reply.clas.filterMap (senderOf r)).Perm a.clas := by
  obtain ⟨w, named⟩ := after_named xs well h0
  have hs := (after_told xs h0).1
  have hvn := values_names w named
  have hperm : ps.Perm (AList.values r0.peers) := by
    refine (List.perm_ext_iff_of_nodup nodup hvn.of_map).mpr fun p => ?_
    rw [hps]
    exact ⟨fun ⟨n, hn⟩ => values_of_told h0 hn, fun h => mem_values h0 h w⟩
  have hnd : (ps.map Peer.nodeName).Nodup := (hperm.map _).nodup_iff.mpr hvn
  obtain ⟨t, t1, t2, t3⟩ := visitAll_relay (clas := r.map Cla.name) hd (AList.values r0.peers) { core := r0.core } hvn
    fun p hp _ _ => hno p (hperm.mem_iff.mpr hp)
  obtain ⟨c1, e1, e2⟩ := Epidemic.loop_relay bp r ps c [] d hd hnd fun p hp _ _ => hno p hp
  obtain ⟨v1, v2, v3, v4, v5⟩ := visitAll_core t1
  refine ⟨{ r0 with core := t.core }, ⟨bp, t.clas, t.delete⟩, c1, _, by simp only [Router.choose, hs, t1], e1, ?_, t2, rfl, ?_⟩
  · intro b n
    by_cases hb : b = bp.id
    · subst hb
      rw [Bool.eq_iff_iff, e2]
      constructor
      · intro h
        rcases v5 t2 n h with h | h
        · exact .inl (by rw [← hc]; exact h)
        · obtain ⟨x, hx, rfl⟩ := List.mem_map.mp h
          rw [t3] at hx
          rw [List.nil_append] at hx
          obtain ⟨p, hp, hf⟩ := List.mem_filterMap.mp hx
          refine .inr ⟨p, hperm.mem_iff.mpr (List.mem_of_mem_filter hp), (hopTo_name (firstHop_to hf)).symm, ?_⟩
          rw [Peer.firstCla_isSome_iff, ← offers_usable acc, ← firstHop_some, hf]; rfl
      · rintro (h | ⟨p, hp, rfl, hf⟩)
        · exact v3 _ _ (by rw [hc]; exact h)
        · by_cases hcon : r0.core.contains bp.id p.nodeName = true
          · exact v3 _ _ hcon
          · rw [Peer.firstCla_isSome_iff, ← offers_usable acc, ← firstHop_some] at hf
            obtain ⟨x, hx⟩ := Option.isSome_iff_exists.mp hf
            have hm : x ∈ t.clas := by
              rw [t3]
              simp only [List.nil_append, List.mem_filterMap, List.mem_filter]
              exact ⟨p, ⟨hperm.mem_iff.mp hp, by simpa using hcon⟩, hx⟩
            have := (v1 x hm).2
            rwa [hopTo_name (firstHop_to hx)] at this
    · have h4 := (Epidemic.loop_spec bp r ps c [] c1 _ e1).2.2.2 b n hb
      rw [v4 b n hb, h4, hc]
  · simp only [t3, List.nil_append, filterMap_sender acc]
    simp only [hc]
    exact ((hperm.symm.filter _).filterMap _)

/-- Told and asked the same, both have the same history. -/
theorem alike_core {xs : List News} {cs : List Cmd} (alike : Alike xs cs) (well : WellTold xs) {r0 : Router}
    (h0 : after (start .epidemic) xs = some r0) :
    ∃ c, (Epidemic.Task.run {} cs).core = some c ∧ ∀ b n, r0.core.contains b n = c.contains b n := by
  have sub : ∀ {xs : List News} {x : News}, WellTold (xs ++ [x]) → WellTold xs := fun h =>
    ⟨fun ps hp => h.1 ps (List.mem_append_left _ hp), fun e p hp => h.2 e p (List.mem_append_left _ hp)⟩
  have back : ∀ {xs : List News} {x : News} {r0 : Router}, after (start .epidemic) (xs ++ [x]) = some r0 →
      ∃ r o, after (start .epidemic) xs = some r ∧ r.step x = some (r0, o) := by
    intro xs x r0 h
    rw [after_append] at h
    cases h1 : after (start .epidemic) xs with
    | none => rw [h1, after_none] at h; cases h
    | some r =>
      rw [h1] at h
      change (some r).bind (fun r => (r.step x).map Prod.fst) = _ at h
      rw [Option.bind_some, Option.map_eq_some_iff] at h
      obtain ⟨⟨y, o⟩, h2, rfl⟩ := h
      exact ⟨r, o, rfl, h2⟩
  induction alike generalizing r0 with
  | start => cases h0; exact ⟨_, rfl, fun _ _ => rfl⟩
  | @peers xs cs x _ hx ih =>
    obtain ⟨r, o, h1, h2⟩ := back h0
    obtain ⟨c, c1, c2⟩ := ih (sub well) h1
    refine ⟨c, c1, fun b n => ?_⟩
    rw [← c2]
    have k := step_core (after_told _ h1).1 h2 b n
    cases x <;> first | exact hx.elim | exact congrArg (Epidemic.contains · b n) k
  | @note xs cs x nt _ hx ih =>
    obtain ⟨r, o, h1, h2⟩ := back h0
    obtain ⟨c, c1, c2⟩ := ih (sub well) h1
    refine ⟨c.notify nt, ?_, fun b n => ?_⟩
    · rw [Epidemic.Task.run_append]
      change (Epidemic.Task.step _ _).core = _
      simp only [Epidemic.Task.step, c1]
    have k := step_core (after_told _ h1).1 h2 b n
    cases hx with
    | failed b' n' => simp only at k; rw [k, c2]; exact (Epidemic.contains_sendingFailed ..).symm
    | succeeded b' n' => simp only at k; rw [k, c2]; rfl
    | incoming b' =>
      simp only at k
      rw [k, c2]
      unfold Epidemic.notify
      cases hp : Routing.previousNode b' with
      | none => simp [hp]
      | some e =>
        cases he : e.node with
        | none => simp [hp, he]
        | some m =>
          simp only [hp, he, Option.bind_some, Option.some.injEq, Epidemic.contains_incomingBundle]
          congr 2
          exact propext ⟨fun ⟨a, b, c⟩ => ⟨a, b, b ▸ c⟩, fun ⟨a, b, c⟩ => ⟨a, b, b ▸ c⟩⟩
    | incomingWithout b' n' =>
      simp only at k
      rw [k, c2]
      simp only [Epidemic.notify, Epidemic.contains_incomingBundle]
      congr 2
      exact propext ⟨fun ⟨a, b, c⟩ => ⟨a, b, b ▸ c⟩, fun ⟨a, b, c⟩ => ⟨a, b, b ▸ c⟩⟩
  | @ask xs cs ps r bp _ nodup hps acc hd ih =>
    obtain ⟨ra, o, h1, h2⟩ := back h0
    obtain ⟨c, c1, c2⟩ := ih (sub well) h1
    obtain ⟨d, hd, hno⟩ := hd
    obtain ⟨r1, reply, c', a, k1, k2, k3, -⟩ := ask_alike (sub well) h1 c2 nodup hps acc hd hno
    have : r0 = r1 := by simp only [Router.step, k1] at h2; cases h2; rfl
    subst this
    refine ⟨c', ?_, k3⟩
    rw [Epidemic.Task.run_append]
    change (Epidemic.Task.step _ _).core = _
    simp only [Epidemic.Task.step, c1, k2]

/-! What the node tells. -/

theorem table_insert {ps : Peers} (t : Table ps) {n : String} {p : Peer} (h : p.eid.node = some n) : Table (AList.insert ps n p) := by
  refine ⟨t.1.insert n p, fun k q hq => ?_⟩
  have := (t.1.insert n p).get?_of_mem hq
  rw [AList.get?_insert] at this
  by_cases hk : k = n
  · rw [if_pos hk] at this; cases this; rw [hk]; exact h
  · rw [if_neg hk] at this; exact t.2 k q (AList.mem_of_get? this)

theorem table_erase {ps : Peers} (t : Table ps) (n : String) : Table (AList.erase ps n) := by
  refine ⟨t.1.erase n, fun k q hq => ?_⟩
  have := (t.1.erase n).get?_of_mem hq
  rw [AList.get?_erase] at this
  split at this
  · cases this
  · exact t.2 k q (AList.mem_of_get? this)

theorem table_add {ps : Peers} (t : Table ps) (p : Peer) : Table (ps.step (.add p)) := by
  change Table (match ps.add p with
    | some r => r.1
    | none => ps)
  unfold Peers.add
  cases h : p.eid.node with
  | none => exact t
  | some n => exact table_insert t h

theorem wf_filter {ps : Peers} (w : AList.WF ps) (f : String × Peer → Bool) : AList.WF (ps.filter f) :=
  List.Nodup.sublist (List.Sublist.map _ List.filter_sublist) w

theorem get?_filter {ps : Peers} (w : AList.WF ps) (f : String × Peer → Bool) (n : String) :
    AList.get? (ps.filter f) n = (AList.get? ps n).filter fun p => f (n, p) := by
  cases h : AList.get? (ps.filter f) n with
  | some q =>
    have := AList.mem_of_get? h
    rw [List.mem_filter] at this
    rw [w.get?_of_mem this.1, Option.filter_some, if_pos this.2]
  | none =>
    cases h' : AList.get? ps n with
    | none => rfl
    | some p =>
      by_cases hf : f (n, p) = true
      · have : (n, p) ∈ ps.filter f := List.mem_filter.mpr ⟨AList.mem_of_get? h', hf⟩
        rw [(wf_filter w f).get?_of_mem this] at h
        cases h
      · rw [Option.filter_some, if_neg hf]

theorem table_tell {ps : Peers} (t : Table ps) (c : Change) : Table (Erouter.tell ps c).1 := by
  cases c with
  | beacon p =>
    have : Table (match ps.add p with
      | some r => r.1
      | none => ps) := table_add t p
    simp only [Erouter.tell]
    cases h : ps.add p with
    | none => exact t
    | some x => rw [h] at this; exact this
  | check cfg now =>
    exact ⟨wf_filter t.1 _, fun k p h => t.2 k p (List.mem_of_mem_filter h)⟩
  | fail n =>
    change Table (ps.reportFail n)
    unfold Peers.reportFail Peers.failCount
    cases h : AList.get? ps n with
    | none => exact t
    | some p =>
      have k : Table (AList.insert ps n p.reportFail) := table_insert t (t.2 n p (AList.mem_of_get? h))
      simp only
      split
      · exact table_erase k _
      · exact k
  | session p =>
    simp only [Erouter.tell]
    split
    · exact t
    · exact table_add t p
  | httpAdd p => exact table_add t p
  | httpDel n => exact table_erase t n

theorem tellAll_append (ps : Peers) (cs : List Change) (c : Change) : tellAll ps (cs ++ [c]) =
    ((tell (tellAll ps cs).1 c).1, (tellAll ps cs).2 ++ (tell (tellAll ps cs).1 c).2) := by
  unfold tellAll
  rw [List.foldl_append]
  rfl

theorem tellAll_table {ps : Peers} (t : Table ps) (cs : List Change) : Table (tellAll ps cs).1 := by
  induction cs using List.reverseRecOn with
  | nil => exact t
  | append_singleton cs c ih => rw [tellAll_append]; exact table_tell ih c

/-- The packets for one change. -/
theorem tell_news {ps : Peers} (c : Change) : ∀ x ∈ (tell ps c).2,
    (∃ e, x = .dropped e) ∨ ∃ e p, x = .encountered e p ∧ p.nodeName = e.node.getD "" := by
  intro x hx
  cases c with
  | beacon p =>
    simp only [tell] at hx
    cases h : ps.add p with
    | none => rw [h] at hx; simp at hx
    | some y =>
      rw [h] at hx
      simp only [Option.mem_toList, Option.map_eq_some_iff] at hx
      obtain ⟨q, hq, rfl⟩ := hx
      exact .inr ⟨_, q, rfl, by simpa using List.find?_some hq⟩
  | check cfg now =>
    obtain ⟨e, -, rfl⟩ := List.mem_map.mp hx
    exact .inl ⟨e, rfl⟩
  | _ => cases hx

theorem tellAll_well {ps : Peers} (t : Table ps) (cs : List Change) : WellTold (tellAll ps cs).2 := by
  induction cs using List.reverseRecOn with
  | nil =>
    refine ⟨fun qs h => ?_, fun e p h => ?_⟩
    · simp only [tellAll, List.foldl_nil, List.mem_singleton] at h
      cases h
      exact ⟨t.1, fun k p hk => by unfold Peer.nodeName; rw [t.2 k p hk]; rfl⟩
    · simp [tellAll] at h
  | append_singleton cs c ih =>
    rw [tellAll_append]
    refine ⟨fun qs h => ?_, fun e p h => ?_⟩ <;> rcases List.mem_append.mp h with h | h
    · exact ih.1 qs h
    · rcases tell_news c _ h with ⟨e, h⟩ | ⟨e, p, h, -⟩ <;> cases h
    · exact ih.2 e p h
    · rcases tell_news c _ h with ⟨e', h⟩ | ⟨e', p', h, k⟩ <;> cases h
      exact k

/-- What one packet changes of what is told about a neighbour. -/
def hear (n : String) (s : Option Peer) : News → Option Peer
  | .peerState ps => AList.get? ps n
  | .encountered e p => if e.node = some n then some p else s
  | .dropped e => if e.node = some n then none else s
  | _ => s

theorem told_hear (n : String) (xs : List News) : told n xs = xs.foldl (hear n) none := by
  unfold told
  congr 1

theorem told_more (n : String) (xs ys : List News) : told n (xs ++ ys) = ys.foldl (hear n) (told n xs) := by
  rw [told_hear, told_hear, List.foldl_append]

theorem told_dropped (n : String) (es : List EID) (s : Option Peer) :
    (es.map News.dropped).foldl (hear n) s = if ∃ e ∈ es, e.node = some n then none else s := by
  induction es generalizing s with
  | nil => simp
  | cons e es ih =>
    simp only [List.map_cons, List.foldl_cons, hear, ih, List.mem_cons, exists_eq_or_imp]
    by_cases h : e.node = some n <;> simp [h]

theorem agree_refl (o : Option Peer) : Agree o o := by
  cases o
  · trivial
  · exact ⟨rfl, rfl, rfl⟩

/-- After an announced change the packets and the table still agree. -/
theorem tell_agree {ps : Peers} (t : Table ps) {news : List News} (ag : ∀ n, Agree (told n news) (AList.get? ps n)) {c : Change}
    (an : Announced ps c) (n : String) : Agree (told n (news ++ (tell ps c).2)) (AList.get? (tell ps c).1 n) := by
  cases c with
  | beacon p =>
    simp only [tell, Peers.add]
    cases h : p.eid.node with
    | none => simp only [List.append_nil]; exact ag n
    | some m =>
      have hg : Peers.getForNode (AList.insert ps m p) p.eid = some p := by
        unfold Peers.getForNode AList.insert AList.values
        simp [Peer.nodeName]
      simp only [hg, Option.map_some, Option.toList_some, told_append, h, Option.some.injEq, AList.get?_insert]
      by_cases hn : n = m
      · rw [if_pos hn, if_pos hn.symm]; exact agree_refl _
      · rw [if_neg hn, if_neg fun e => hn e.symm]; exact ag n
  | check cfg now =>
    simp only [tell, Peers.process, told_more, told_dropped, get?_filter t.1]
    cases hg : AList.get? ps n with
    | none =>
      have := ag n
      rw [hg] at this
      cases ht : told n news with
      | some q => rw [ht] at this; exact this.elim
      | none => simp [Agree]
    | some p =>
      have hm := AList.mem_of_get? hg
      by_cases hv : p.stillValid cfg now = true
      · have hno : ¬ ∃ e ∈ (ps.filter fun e => !e.2.stillValid cfg now).map fun e => e.2.eid, e.node = some n := by
          rintro ⟨e, he, hn⟩
          obtain ⟨⟨k, q⟩, hq, rfl⟩ := List.mem_map.mp he
          rw [List.mem_filter] at hq
          have hk := t.2 k q hq.1
          rw [hk] at hn
          cases hn
          have := t.1.get?_of_mem hq.1
          rw [hg] at this
          cases this
          simp [hv] at hq
        rw [if_neg hno]
        have := ag n
        rw [hg] at this
        simpa [Option.filter, hv] using this
      · have hst : p.conType ≠ .static := by
          intro h
          unfold Peer.stillValid at hv
          rw [if_pos h] at hv
          exact hv rfl
        rw [if_pos ⟨p.eid, List.mem_map.mpr ⟨(n, p), List.mem_filter.mpr ⟨hm, by simp [hv]⟩, rfl⟩, t.2 n p hm⟩]
        simp [Option.filter, hv, hst, Agree]
  | fail m =>
    simp only [tell, List.append_nil]
    unfold Announced at an
    simp only [tell, Peers.known] at an
    unfold Peers.reportFail Peers.failCount at an ⊢
    cases hg : AList.get? ps m with
    | none => exact ag n
    | some p =>
      simp only [hg] at an
      simp only
      by_cases hf : (p.reportFail.failedTooMuch && decide (p.reportFail.conType = .dynamic)) = true
      · exfalso
        have hname : p.reportFail.nodeName = m := by
          unfold Peer.nodeName
          change p.eid.node.getD "" = m
          rw [t.2 m p (AList.mem_of_get? hg)]; rfl
        have := an m
        rw [if_pos hf] at this
        simp only [Peers.failRemove, AList.contains, hname, AList.get?_erase, hg] at this
        simp at this
      · rw [if_neg hf]
        simp only [Peers.failRemove, AList.get?_insert]
        by_cases hn : n = m
        · subst hn
          rw [if_pos rfl]
          have := ag n
          rw [hg] at this
          cases ht : told n news with
          | none => rw [ht] at this; exact this.elim
          | some q => rw [ht] at this; exact this
        · rw [if_neg hn]; exact ag n
  | session p => exact an.elim
  | httpAdd p => exact an.elim
  | httpDel n => exact an.elim

theorem announced_append {cs : List Change} {c : Change} : ∀ {ps : Peers} (_ : AllAnnounced ps (cs ++ [c])) (news : List News),
    AllAnnounced ps cs ∧ Announced (cs.foldl (fun (x : Peers × List News) c => ((tell x.1 c).1, x.2 ++ (tell x.1 c).2)) (ps, news)).1 c := by
  induction cs with
  | nil => intro ps h news; exact ⟨trivial, h.1⟩
  | cons d cs ih =>
    intro ps h news
    obtain ⟨h1, h2⟩ := ih h.2 (news ++ (tell ps d).2)
    exact ⟨⟨h.1, h1⟩, h2⟩

theorem tellAll_agree {ps : Peers} (t : Table ps) {cs : List Change} (an : AllAnnounced ps cs) (n : String) :
    Agree (told n (tellAll ps cs).2) (AList.get? (tellAll ps cs).1 n) := by
  induction cs using List.reverseRecOn generalizing n with
  | nil => exact agree_refl _
  | append_singleton cs c ih =>
    obtain ⟨h1, h2⟩ := announced_append an [.peerState ps]
    rw [tellAll_append]
    exact tell_agree (tellAll_table t cs) (fun n => ih h1 n) h2 n

end Dtn.Erouter
