import Verif.Lemmas.ConnectNRun
/-! Lemmas about the program that connects N nodes: what arrives. -/

namespace Dtn.ConnectN
open ModuleClient (EclaPacket)
open Spec.ConnectNSpec

/-- The bundle in a packet, with the number of the node it is from. -/
def tag (x : Ext) : EclaPacket → Option (Nat × Bundle)
  | .data src _ _ bytes => (x.parse bytes).map fun b => (label src, b)
  | _ => none

def untag (x : Ext) (p : EclaPacket) : Option Bundle := (tag x p).map fun l => l.2

theorem bundles_tag (x : Ext) (D : List EclaPacket) : (D.filterMap (tag x)).map (fun l => l.2) = bundlesIn x D := by
  induction D with
  | nil => rfl
  | cons p D ih =>
    simp only [bundlesIn, List.flatMap_cons] at ih ⊢
    rw [← ih, List.filterMap_cons]
    cases p with
    | data src dst bid bytes =>
      simp only [tag, read]
      cases x.parse bytes <;> simp [Ecla.bundleIn]
    | _ => simp [tag, read, Ecla.bundleIn]

theorem part_tag {x : Ext} {N j : Nat} {D : List EclaPacket} (h : ∀ p ∈ D, isReg p = true ∨ ∃ i, i < N ∧ Mine x i p ∧ Due N i j p) (i : Nat) :
    part (D.filterMap (tag x)) i = (D.filter (goes false i j)).filterMap (untag x) := by
  induction D with
  | nil => rfl
  | cons p D ih =>
    have ih := ih fun q hq => h q (by simp [hq])
    rw [List.filterMap_cons, List.filter_cons]
    have hp := h p (by simp)
    cases p with
    | data src dst bid bytes =>
      rcases hp with hp | ⟨k, -, hm, hd⟩
      · cases hp
      · simp only [Mine] at hm
        subst hm
        have hg : goes false i j (.data (toString k) dst bid bytes) = decide (k = i) := by
          simp only [goes, decide_eq_decide]
          exact ⟨fun h => toString_inj h.1, fun h => ⟨by rw [h], hd⟩⟩
        rw [hg]
        by_cases hk : k = i
        · subst hk
          simp only [tag, decide_true, if_true, List.filterMap_cons, untag]
          cases x.parse bytes with
          | none => simpa using ih
          | some b =>
            simp only [Option.map_some, part, label_toString, List.filter_cons, decide_true, if_true, List.map_cons] at ih ⊢
            rw [ih]
        · simp only [tag, hk, decide_false, Bool.false_eq_true, if_false]
          cases x.parse bytes with
          | none => simpa using ih
          | some b =>
            simp only [Option.map_some, part, label_toString, List.filter_cons, hk, decide_false, Bool.false_eq_true, if_false] at ih ⊢
            exact ih
    | _ => simpa [tag, goes] using ih

theorem passed_bundles {x : Ext} {i j : Nat} {P : List EclaPacket} {W : List Ecla.Out} (hx : ∀ dest b, .data dest b ∈ W → x.parse (x.wire b) = some b)
    (hm : ∀ p ∈ P, Mine x i p) (h : P.filterMap shape = W.filterMap (shapeOut x)) : (P.filter (goes false i j)).filterMap (untag x) = bundlesFor j W := by
  let g : Option (String × String × Bytes) → Option Bundle := fun o => o.bind fun t => if target t.1 = some j then x.parse t.2.2 else none
  have h1 : (P.filter (goes false i j)).filterMap (untag x) = (P.filterMap shape).filterMap g := by
    clear h
    induction P with
    | nil => rfl
    | cons p P ih =>
      have ih := ih fun q hq => hm q (by simp [hq])
      have hp := hm p (by simp)
      rw [List.filter_cons, List.filterMap_cons]
      cases p with
      | data src dst bid bytes =>
        simp only [Mine] at hp
        subst hp
        by_cases ht : target dst = some j
        · simp only [goes, ht, and_self, decide_true, if_true, shape, List.filterMap_cons, untag, tag, g, Option.bind_some]
          cases x.parse bytes <;> simpa using ih
        · simp only [goes, ht, and_false, decide_false, Bool.false_eq_true, if_false, shape, List.filterMap_cons, g, Option.bind_some]
          exact ih
      | beacon eid addr block => simpa [goes, shape, g] using ih
      | _ => simpa [goes, shape] using ih
  have h2 : bundlesFor j W = (W.filterMap (shapeOut x)).filterMap g := by
    clear h
    induction W with
    | nil => rfl
    | cons o W ih =>
      have ih := ih fun dest b hb => hx dest b (List.mem_cons_of_mem _ hb)
      unfold bundlesFor at ih ⊢
      rw [List.filterMap_cons, ih, List.filterMap_cons]
      cases o with
      | data dest b =>
        simp only [shapeOut, List.filterMap_cons, g, Option.bind_some, hx dest b (by simp)]
      | _ => simp [shapeOut, g]
  rw [h1, h2, h]

theorem part_sublist {L M : List (Nat × Bundle)} (h : L.Sublist M) (i : Nat) : (part L i).Sublist (part M i) := (h.filter _).map _

theorem part_prefix {L M : List (Nat × Bundle)} (h : L <+: M) (i : Nat) : part L i <+: part M i := by
  obtain ⟨t, rfl⟩ := h
  unfold part
  rw [List.filter_append, List.map_append]
  exact List.prefix_append _ _

theorem bundlesFor_prefix {V W : List Ecla.Out} (h : V <+: W) (j : Nat) : bundlesFor j V <+: bundlesFor j W := by
  obtain ⟨t, rfl⟩ := h
  unfold bundlesFor
  rw [List.filterMap_append]
  exact List.prefix_append _ _

theorem written_see {s : Ecla.State} {c : Nat} {a p w} (h : s.see c = some (a, p, w)) : Spec.Ecla.written s c = w := by
  unfold Ecla.State.see at h
  unfold Spec.Ecla.written
  simp only [Option.map_eq_some_iff, Prod.mk.injEq] at h
  obtain ⟨k, hk, -, -, rfl⟩ := h
  rw [hk]; rfl

theorem linkAddr_see {n : Net} {j : Nat} {s : Site} {c : Nat} {a p w} (hj : n.sites[j]? = some s) (hl : s.link = some c) (h : s.node.see c = some (a, p, w)) :
    linkAddr n j = some a := by
  unfold Ecla.State.see at h
  simp only [Option.map_eq_some_iff, Prod.mk.injEq] at h
  obtain ⟨k, hk, rfl, -, -⟩ := h
  simp [linkAddr, hj, hl, hk]

theorem receivedAt_see {n : Net} {j : Nat} {s : Site} {c : Nat} {a p w} (hj : n.sites[j]? = some s) (hl : s.link = some c) (h : s.node.see c = some (a, p, w)) :
    receivedAt n j = s.node.got a := by
  simp only [receivedAt, hj, linkAddr_see hj hl h, Option.map_some, Option.getD_some, Ecla.State.got, Option.some.injEq]

theorem receivedAt_none {n : Net} {j : Nat} (h : ∀ s, n.sites[j]? = some s → s.link = none) : receivedAt n j = [] := by
  cases hj : n.sites[j]? with
  | none => simp [receivedAt, hj]
  | some s => simp [receivedAt, hj, linkAddr, h s hj]

/-- What a client has passed on has been written by its node. -/
theorem NetInv.passed {x : Ext} {b : Bool} {n : Net} (I : NetInv x b n) {i : Nat} (hx : ∀ dest b, .data dest b ∈ outgoing n i → x.parse (x.wire b) = some b) {s : Site}
    (hi : n.sites[i]? = some s) (j : Nat) : (s.client.passed.filter (goes false i j)).filterMap (untag x) <+: bundlesFor j (outgoing n i) ∧
      (s.down = (outgoing n i).length → (s.client.passed.filter (goes false i j)).filterMap (untag x) = bundlesFor j (outgoing n i)) := by
  have S := I.site i s hi
  cases hl : s.link with
  | none =>
    have := (S.link hl).2.2.1
    rw [this]
    simp [outgoing, hi, hl, bundlesFor]
  | some c =>
    obtain ⟨m, p, w, h1, h2, h3, -⟩ := S.node c hl
    have ho : outgoing n i = w := by simp [outgoing, hi, hl, written_see h1]
    rw [ho] at hx
    rw [passed_bundles (fun dest b hb => hx dest b ((List.take_sublist _ _).subset hb)) S.mine h3, ho]
    refine ⟨bundlesFor_prefix (List.take_prefix _ _) j, fun h => ?_⟩
    rw [h, List.take_length]

/-- The bundles of the registered client are those of the packets after its registration. -/
theorem afterReg_sublist (H : List EclaPacket) : (afterReg H).Sublist H := by
  induction H with
  | nil => exact List.Sublist.refl _
  | cons a H ih =>
    simp only [afterReg]
    split
    · exact List.sublist_cons_self _ _
    · exact ih.cons _

theorem NetInv.received {x : Ext} {n : Net} (I : NetInv x false n) {j : Nat} {s : Site}
    (hj : n.sites[j]? = some s) {c : Nat} (hl : s.link = some c) : ∃ L : List (Nat × Bundle), L.map (fun l => l.2) = receivedAt n j ∧
      (∀ l ∈ L, l.1 < n.sites.length) ∧ L <+: (afterReg (s.put.take s.up)).filterMap (tag x) ∧
      ∀ i, part ((afterReg (s.put.take s.up)).filterMap (tag x)) i = ((afterReg (s.put.take s.up)).filter (goes false i j)).filterMap (untag x) := by
  have S := I.site j s hj
  obtain ⟨m, p, w, h1, -, -, h4, -⟩ := S.node c hl
  have hD : ∀ q ∈ afterReg (s.put.take s.up), isReg q = true ∨ ∃ i, i < n.sites.length ∧ Mine x i q ∧ Due n.sites.length i j q := by
    intro q hq
    refine I.held j s hj q ?_
    have := (put_sublist s).subset ((List.take_sublist _ _).subset ((afterReg_sublist _).subset hq))
    exact List.mem_append_left _ this
  rw [← bundles_tag] at h4
  refine ⟨((afterReg (s.put.take s.up)).filterMap (tag x)).take (s.node.got (.number m)).length, ?_, ?_, List.take_prefix _ _, fun i => part_tag hD i⟩
  · rw [receivedAt_see hj hl h1, List.map_take]
    exact (List.prefix_iff_eq_take.mp h4).symm
  · intro l hl'
    have := (List.take_sublist _ _).subset hl'
    simp only [List.mem_filterMap] at this
    obtain ⟨q, hq, ht⟩ := this
    cases q with
    | data src dst bid bytes =>
      simp only [tag, Option.map_eq_some_iff] at ht
      obtain ⟨b, -, rfl⟩ := ht
      rcases hD _ hq with h | ⟨i, hi, hm, -⟩
      · cases h
      · simp only [Mine] at hm
        subst hm
        dsimp only
        rw [label_toString]; exact hi
    | _ => cases ht

/-- The packets of node `i` for node `j` that a live client was given are a prefix of those that the client of node `i` passed on. -/
theorem NetInv.flows {x : Ext} {n : Net} (I : NetInv x false n) {i j : Nat} (hx : ∀ dest b, .data dest b ∈ outgoing n i → x.parse (x.wire b) = some b) {si sj : Site}
    (hi : n.sites[i]? = some si) (hj : n.sites[j]? = some sj) (hg : ¬ sj.gone) :
    (sj.held.filter (goes false i j)).filterMap (untag x) <+: bundlesFor j (outgoing n i) ∧
      (si.down = (outgoing n i).length → n.rx = [] → (sj.held.filter (goes false i j)).filterMap (untag x) = bundlesFor j (outgoing n i)) := by
  obtain ⟨h1, h2⟩ := I.passed hx hi j
  have h3 := (I.flow i j si sj hi hj).resolve_left hg
  refine ⟨?_, ?_⟩
  · refine List.IsPrefix.trans ?_ h1
    rw [h3, List.filterMap_append]
    exact List.prefix_append _ _
  · intro h4 h5
    rw [← h2 h4, h3, h5]
    simp

theorem part_out {n : Net} {L : List (Nat × Bundle)} (h : ∀ l ∈ L, l.1 < n.sites.length) {i : Nat} (hi : n.sites[i]? = none) : part L i = [] := by
  unfold part
  rw [List.map_eq_nil_iff, List.filter_eq_nil_iff]
  intro l hl he
  have := h l hl
  rw [List.getElem?_eq_none_iff] at hi
  simp at he
  omega

theorem NetInv.in_order {x : Ext} {n : Net} (I : NetInv x false n) (hx : ∀ i dest b, .data dest b ∈ outgoing n i → x.parse (x.wire b) = some b) (j : Nat) :
    ∃ L : List (Nat × Bundle), L.map (fun l => l.2) = receivedAt n j ∧ (∀ l ∈ L, l.1 < n.sites.length) ∧
      ∀ i, (part L i).Sublist (bundlesFor j (outgoing n i)) := by
  by_cases hn : ∀ s, n.sites[j]? = some s → s.link = none
  · exact ⟨[], by rw [receivedAt_none hn]; rfl, by simp, fun i => by simp [part]⟩
  · simp only [Classical.not_forall] at hn
    obtain ⟨s, hj, hl⟩ := hn
    obtain ⟨c, hl⟩ := Option.ne_none_iff_exists'.mp hl
    obtain ⟨L, h1, h2, h3, h4⟩ := I.received hj hl
    refine ⟨L, h1, h2, fun i => ?_⟩
    cases hi : n.sites[i]? with
    | none => rw [part_out h2 hi]; exact List.nil_sublist _
    | some si =>
      have hs := part_sublist h3.sublist i
      rw [h4 i] at hs
      by_cases hg : s.gone
      · have : s.put = [] := by simp [Site.put, (I.site j s hj).fresh hg.2]
        rw [this] at hs
        simp only [List.take_nil, afterReg, List.filter_nil, List.filterMap_nil, List.sublist_nil] at hs
        rw [hs]; exact List.nil_sublist _
      · refine hs.trans (List.Sublist.trans ?_ (I.flows (hx i) hi hj hg).1.sublist)
        refine ((List.Sublist.trans ?_ (List.sublist_append_left _ _)).filter _).filterMap _
        exact (afterReg_sublist _).trans ((List.take_sublist _ _).trans (put_sublist s))

/-- What a step does to the commands of a client. -/
theorem site_step {x : Ext} {b : Bool} {n m : Net} {e : Ev} (I : NetInv x b n) (h : n.step x e = some m) {j : Nat} {s : Site} (hj : n.sites[j]? = some s) :
    ∃ s', m.sites[j]? = some s' ∧
      ((drawn s'.client = drawn s.client ∧ e ≠ .client j .begin) ∨
       (e = .client j .begin ∧ drawn s'.client = drawn s.client ++ [.register "ConnectN" true none]) ∨
       (e = .pump j ∧ ∃ p, drawn s'.client = drawn s.client ++ [p])) ∧
      (s'.client.taken = s.client.taken ∨ ∃ ok c p, e = .client j (.write ok) ∧ s'.client.taken = s.client.taken ++ [(c, p, ok)]) := by
  have S := I.site j s hj
  have stay : ∀ {i : Nat} {t t' : Site}, n.sites[i]? = some t → j ≠ i → (∀ l, e ≠ .client j l) → ∃ s', (n.sites.set i t')[j]? = some s' ∧
      ((drawn s'.client = drawn s.client ∧ e ≠ .client j .begin) ∨
       (e = .client j .begin ∧ drawn s'.client = drawn s.client ++ [.register "ConnectN" true none]) ∨
       (e = .pump j ∧ ∃ p, drawn s'.client = drawn s.client ++ [p])) ∧
      (s'.client.taken = s.client.taken ∨ ∃ ok c p, e = .client j (.write ok) ∧ s'.client.taken = s.client.taken ++ [(c, p, ok)]) := by
    intro i t t' hi hji he
    exact ⟨s, by rw [get_set hi, if_neg hji, hj], .inl ⟨rfl, he _⟩, .inl rfl⟩
  have same : ∀ {t' : Site}, drawn t'.client = drawn s.client → t'.client.taken = s.client.taken → (∀ l, e ≠ .client j l) → ∃ s', (n.sites.set j t')[j]? = some s' ∧
      ((drawn s'.client = drawn s.client ∧ e ≠ .client j .begin) ∨
       (e = .client j .begin ∧ drawn s'.client = drawn s.client ++ [.register "ConnectN" true none]) ∨
       (e = .pump j ∧ ∃ p, drawn s'.client = drawn s.client ++ [p])) ∧
      (s'.client.taken = s.client.taken ∨ ∃ ok c p, e = .client j (.write ok) ∧ s'.client.taken = s.client.taken ++ [(c, p, ok)]) := by
    intro t' h1 h2 he
    exact ⟨t', by rw [get_set hj, if_pos rfl], .inl ⟨h1, he _⟩, .inl h2⟩
  cases e with
  | node i e =>
    simp only [Net.step] at h
    split at h
    · cases h
    · rename_i t hi
      have key : ∀ node, ∃ s', (n.sites.set i { t with node })[j]? = some s' ∧
          ((drawn s'.client = drawn s.client ∧ Ev.node i e ≠ .client j .begin) ∨
           (Ev.node i e = .client j .begin ∧ drawn s'.client = drawn s.client ++ [.register "ConnectN" true none]) ∨
           (Ev.node i e = .pump j ∧ ∃ p, drawn s'.client = drawn s.client ++ [p])) ∧
          (s'.client.taken = s.client.taken ∨ ∃ ok c p, Ev.node i e = .client j (.write ok) ∧ s'.client.taken = s.client.taken ++ [(c, p, ok)]) := by
        intro node
        by_cases hji : j = i
        · subst hji
          rw [hj] at hi; cases hi
          exact same rfl rfl (by simp)
        · exact stay hi hji (by simp)
      split at h
      · split at h
        · cases h
        · simp only [Option.map_eq_some_iff] at h
          obtain ⟨u, -, rfl⟩ := h
          exact key u
      · simp only [Option.map_eq_some_iff] at h
        obtain ⟨u, -, rfl⟩ := h
        exact key u
  | connect i ok =>
    simp only [Net.step] at h
    split at h
    · cases h
    · rename_i t hi
      split at h
      · rename_i hc
        split at h
        · rename_i u hu
          cases h
          by_cases hji : j = i
          · subst hji
            rw [hj] at hi; cases hi
            obtain ⟨c1, -, -, c4, -⟩ := serve_step S.toClientInv hc.2 hc.1 hu
            exact same c1 c4 (by simp)
          · exact stay hi hji (by simp)
        · rename_i u hu
          simp only [Option.map_eq_some_iff] at h
          obtain ⟨v, -, rfl⟩ := h
          by_cases hji : j = i
          · subst hji
            rw [hj] at hi; cases hi
            obtain ⟨c1, -, -, c4, -⟩ := serve_step S.toClientInv hc.2 hc.1 hu
            exact same c1 c4 (by simp)
          · exact stay hi hji (by simp)
        · cases h
      · cases h
  | client i e =>
    simp only [Net.step] at h
    split at h
    · cases h
    · rename_i t hi
      split at h
      · rename_i ha
        simp only [Option.map_eq_some_iff] at h
        obtain ⟨u, hu, rfl⟩ := h
        by_cases hji : j = i
        · subst hji
          rw [hj] at hi; cases hi
          refine ⟨{ s with client := u }, by rw [get_set hj, if_pos rfl], ?_⟩
          cases e with
          | command _ => cases ha
          | serve _ => cases ha
          | message _ => cases ha
          | begin =>
            simp only [ModuleClient.step] at hu
            split at hu
            · have hreg : (kind j).registration = some (.register "ConnectN" true none) := rfl
              rw [hreg] at hu
              simp only [if_neg S.held] at hu
              split at hu
              · cases hu
                refine ⟨.inr (.inl ⟨rfl, ?_⟩), .inl rfl⟩
                simp only [drawn, ModuleClient.State.start, sends_append, List.append_assoc]
                rfl
              · cases hu
            · cases hu
          | write ok =>
            simp only [ModuleClient.step] at hu
            split at hu
            · rename_i c p q hh hq
              cases hu
              exact ⟨.inl ⟨by simp [drawn, hq], by simp⟩, .inr ⟨ok, c, p, rfl, rfl⟩⟩
            · rename_i hq
              exact absurd rfl (S.open' .close (by rw [hq]; simp))
            · cases hu
          | lost =>
            simp only [ModuleClient.step] at hu
            split at hu
            · cases hu; exact ⟨.inl ⟨rfl, by simp⟩, .inl rfl⟩
            · cases hu
          | finish =>
            simp only [ModuleClient.step] at hu
            split at hu
            · split at hu
              · cases hu
              · cases hu; exact ⟨.inl ⟨rfl, by simp⟩, .inl rfl⟩
            · cases hu
        · exact stay hi hji (by simp [Ne.symm hji])
      · cases h
  | down i block =>
    simp only [Net.step] at h
    split at h
    · cases h
    · rename_i t hi
      split at h
      · cases h
      · simp only [Option.bind_eq_some_iff] at h
        obtain ⟨u, hu, h⟩ := h
        have hm : m.sites = n.sites.set i { t with client := u, down := t.down + 1 } := by
          split at h
          · cases h; rfl
          · split at h
            · cases h; rfl
            · cases h
        rw [hm]
        by_cases hji : j = i
        · subst hji
          rw [hj] at hi; cases hi
          obtain ⟨-, -, c2, -, -, c5, -⟩ := message_step S.toClientInv hu
          exact same c2 c5 (by simp)
        · exact stay hi hji (by simp)
  | up i =>
    simp only [Net.step] at h
    split at h
    · cases h
    · rename_i t hi
      split at h
      · simp only [Option.map_eq_some_iff] at h
        obtain ⟨u, -, rfl⟩ := h
        by_cases hji : j = i
        · subst hji
          rw [hj] at hi; cases hi
          exact same rfl rfl (by simp)
        · exact stay hi hji (by simp)
      · cases h
  | pump i =>
    simp only [Net.step] at h
    split at h
    · cases h
    · rename_i t hi
      split at h
      · cases h
      · rename_i p inbox hp
        split at h
        · cases h
          by_cases hji : j = i
          · subst hji
            rw [hj] at hi; cases hi
            exact same rfl rfl (by simp)
          · exact stay hi hji (by simp)
        · simp only [Option.map_eq_some_iff] at h
          obtain ⟨u, hu, rfl⟩ := h
          by_cases hji : j = i
          · subst hji
            rw [hj] at hi; cases hi
            obtain ⟨-, -, c3, -, -, c6⟩ := command_step S.toClientInv hp hu
            refine ⟨_, by rw [get_set hj, if_pos rfl], .inr (.inr ⟨rfl, p, ?_⟩), .inl c6⟩
            simp only [Site.held, hp] at c3
            dsimp only
            refine List.append_cancel_right (bs := inbox) ?_
            rw [c3]; simp
          · exact stay hi hji (by simp)
  | route =>
    simp only [Net.step, Net.route] at h
    split at h
    · cases h
    · split at h
      · cases h; exact ⟨s, hj, .inl ⟨rfl, by simp⟩, .inl rfl⟩
      · rename_i id _
        split at h
        · cases h; exact ⟨s, hj, .inl ⟨rfl, by simp⟩, .inl rfl⟩
        · rename_i t ht
          split at h
          · cases h
            by_cases hji : j = id
            · subst hji
              rw [hj] at ht; cases ht
              exact same rfl rfl (by simp)
            · exact stay ht hji (by simp)
          · cases h
    · cases h
      simp only [spread, List.getElem?_mapIdx, hj, Option.map_some]
      refine ⟨_, rfl, ?_⟩
      split
      · exact ⟨.inl ⟨rfl, by simp⟩, .inl rfl⟩
      · split <;> exact ⟨.inl ⟨rfl, by simp⟩, .inl rfl⟩
    · cases h; exact ⟨s, hj, .inl ⟨rfl, by simp⟩, .inl rfl⟩

theorem step_length {x : Ext} {n m : Net} {e : Ev} (h : n.step x e = some m) : m.sites.length = n.sites.length := by
  cases e with
  | route =>
    simp only [Net.step, Net.route] at h
    repeat' split at h
    all_goals first
      | cases h; done
      | (cases h; simp [spread])
  | down i block =>
    simp only [Net.step] at h
    split at h
    · cases h
    · split at h
      · cases h
      · simp only [Option.bind_eq_some_iff] at h
        obtain ⟨u, -, h⟩ := h
        repeat' split at h
        all_goals first
          | cases h; done
          | (cases h; simp)
  | _ =>
    simp only [Net.step] at h
    repeat' split at h
    all_goals first
      | cases h; done
      | (cases h; simp)
      | (simp only [Option.map_eq_some_iff] at h; obtain ⟨u, -, rfl⟩ := h; simp)

theorem run_length {x : Ext} {n m : Net} {evs : List Ev} (h : n.run x evs = some m) : m.sites.length = n.sites.length := by
  induction evs generalizing n with
  | nil => cases h; rfl
  | cons e evs ih =>
    simp only [Net.run, Option.bind_eq_some_iff] at h
    obtain ⟨n', h1, h2⟩ := h
    rw [ih h2, step_length h1]

theorem run_inv {x : Ext} {n m : Net} {evs : List Ev} (I : NetInv x false n) (h : n.run x evs = some m) : NetInv x false m := by
  induction evs generalizing n with
  | nil => cases h; exact I
  | cons e evs ih =>
    simp only [Net.run, Option.bind_eq_some_iff] at h
    obtain ⟨n', h1, h2⟩ := h
    exact ih (I.step (by simp) h1) h2

/-- A client whose first command is its registration and whose packets could all be written. -/
def Clean (begun : Bool) (s : Site) : Prop :=
  (∀ t ∈ s.client.taken, t.2.2 = true) ∧
    if begun then ∃ rest, drawn s.client = .register "ConnectN" true none :: rest else drawn s.client = []

theorem run_clean {x : Ext} {n m : Net} {evs : List Ev} {j : Nat} {s : Site} (I : NetInv x false n) (h : n.run x evs = some m) (hj : n.sites[j]? = some s)
    (begun : Bool) (hc : Clean begun s) (h1 : ∀ ok, .client j (.write ok) ∈ evs → ok = true)
    (h2 : ∀ pre post, evs = pre ++ .pump j :: post → begun = true ∨ .client j .begin ∈ pre) :
    ∃ begun s', m.sites[j]? = some s' ∧ Clean begun s' := by
  induction evs generalizing n s begun with
  | nil => cases h; exact ⟨begun, s, hj, hc⟩
  | cons e evs ih =>
    simp only [Net.run, Option.bind_eq_some_iff] at h
    obtain ⟨n', g1, g2⟩ := h
    obtain ⟨s', k1, k2, k3⟩ := site_step I g1 hj
    have hok : ∀ t ∈ s'.client.taken, t.2.2 = true := by
      rcases k3 with k3 | ⟨ok, c, p, rfl, k3⟩
      · rw [k3]; exact hc.1
      · rw [k3]
        intro t ht
        rcases List.mem_append.mp ht with ht | ht
        · exact hc.1 t ht
        · simp only [List.mem_singleton] at ht
          subst ht
          exact h1 ok (by simp)
    have htail : ∀ ok, .client j (.write ok) ∈ evs → ok = true := fun ok hok => h1 ok (List.mem_cons_of_mem _ hok)
    rcases k2 with ⟨k2, hne⟩ | ⟨rfl, k2⟩ | ⟨rfl, p, k2⟩
    · refine ih (I.step (by simp) g1) g2 k1 begun ⟨hok, by rw [k2]; exact hc.2⟩ htail ?_
      intro pre post he
      rcases h2 (e :: pre) post (by rw [he]; rfl) with g | g
      · exact .inl g
      · rcases List.mem_cons.mp g with g | g
        · exact absurd g.symm hne
        · exact .inr g
    · refine ih (I.step (by simp) g1) g2 k1 true ⟨hok, ?_⟩ htail (fun _ _ _ => .inl rfl)
      have := hc.2
      rw [k2]
      cases hb : begun with
      | true =>
        rw [hb, if_pos rfl] at this
        obtain ⟨rest, hr⟩ := this
        rw [hr]; exact ⟨_, rfl⟩
      | false =>
        rw [hb, if_neg (by simp)] at this
        rw [this]; exact ⟨[], rfl⟩
    · have hb : begun = true := (h2 [] evs rfl).resolve_right (by simp)
      subst hb
      refine ih (I.step (by simp) g1) g2 k1 true ⟨hok, ?_⟩ htail (fun _ _ _ => .inl rfl)
      obtain ⟨rest, hr⟩ := hc.2
      rw [k2, hr]; exact ⟨_, rfl⟩

theorem put_clean {s : Site} {begun : Bool} (h : Clean begun s) : s.put = s.client.taken.map fun t => t.2.1 := by
  unfold Site.put
  rw [List.filter_eq_self.mpr h.1]

theorem afterReg_clean {s : Site} {begun : Bool} (h : Clean begun s) (k i j : Nat) :
    (afterReg (s.put.take k)).filter (goes false i j) = (s.put.take k).filter (goes false i j) := by
  rw [put_clean h]
  cases begun with
  | false =>
    have := h.2
    simp only [Bool.false_eq_true, if_false, drawn, List.append_eq_nil_iff] at this
    simp [this.1, afterReg]
  | true =>
    obtain ⟨rest, hr⟩ := h.2
    cases ht : s.client.taken with
    | nil => simp [afterReg]
    | cons t ts =>
      rw [drawn, ht] at hr
      simp only [List.map_cons, List.cons_append, List.cons.injEq] at hr
      cases k with
      | zero => simp [afterReg]
      | succ k =>
        rw [List.map_cons, hr.1, List.take_succ_cons]
        simp [afterReg, isReg, goes]

theorem put_prefix {s : Site} {begun : Bool} (h : Clean begun s) : s.put <+: s.held := by
  rw [put_clean h]
  unfold Site.held drawn
  rw [List.append_assoc]
  exact List.prefix_append _ _

theorem filter_prefix {α : Type} {l m : List α} (h : l <+: m) (f : α → Bool) : l.filter f <+: m.filter f := by
  obtain ⟨t, rfl⟩ := h
  rw [List.filter_append]
  exact List.prefix_append _ _

theorem filterMap_prefix {α β : Type} {l m : List α} (h : l <+: m) (f : α → Option β) : l.filterMap f <+: m.filterMap f := by
  obtain ⟨t, rfl⟩ := h
  rw [List.filterMap_append]
  exact List.prefix_append _ _

theorem NetInv.no_gaps {x : Ext} {n : Net} (I : NetInv x false n) (hx : ∀ i dest b, .data dest b ∈ outgoing n i → x.parse (x.wire b) = some b) {j : Nat} {s : Site} {begun : Bool}
    (hj : n.sites[j]? = some s) (hc : Clean begun s) :
    ∃ L : List (Nat × Bundle), L.map (fun l => l.2) = receivedAt n j ∧ (∀ l ∈ L, l.1 < n.sites.length) ∧
      ∀ i, part L i <+: bundlesFor j (outgoing n i) := by
  cases hl : s.link with
  | none => exact ⟨[], by rw [receivedAt_none fun t ht => by rw [hj] at ht; cases ht; exact hl]; rfl, by simp, fun i => by simp [part]⟩
  | some c =>
    obtain ⟨L, h1, h2, h3, h4⟩ := I.received hj hl
    refine ⟨L, h1, h2, fun i => ?_⟩
    cases hi : n.sites[i]? with
    | none => rw [part_out h2 hi]; exact List.nil_prefix
    | some si =>
      have hs := part_prefix h3 i
      rw [h4 i, afterReg_clean hc] at hs
      by_cases hg : s.gone
      · have : s.put = [] := by simp [Site.put, (I.site j s hj).fresh hg.2]
        rw [this] at hs
        simp only [List.take_nil, List.filter_nil, List.filterMap_nil, List.prefix_nil] at hs
        rw [hs]; exact List.nil_prefix
      · refine hs.trans (List.IsPrefix.trans ?_ (I.flows (hx i) hi hj hg).1)
        exact filterMap_prefix (filter_prefix ((List.take_prefix _ _).trans (put_prefix hc)) _) _

/-- Node `j` has handled everything and the client is registered with it. -/
theorem NetInv.at_rest {x : Ext} {n : Net} (I : NetInv x false n) (hx : ∀ i dest b, .data dest b ∈ outgoing n i → x.parse (x.wire b) = some b) {j : Nat} {s : Site} {begun : Bool}
    (hj : n.sites[j]? = some s) (hc : Clean begun s) {c : Nat} {a : Ecla.Addr} {w : List Ecla.Out} {k : Ecla.Module} (hl : s.link = some c)
    (hsee : s.node.see c = some (a, .serving, w)) (hk : AList.get? s.node.modules a = some k) (ha : k.active = true)
    (hrx : n.rx = []) (hin : s.inbox = []) (hq : s.client.queue = []) (hup : s.up = s.put.length) :
    ∃ L : List (Nat × Bundle), L.map (fun l => l.2) = receivedAt n j ∧ (∀ l ∈ L, l.1 < n.sites.length) ∧
      ∀ i si, n.sites[i]? = some si → si.down = (outgoing n i).length → part L i = bundlesFor j (outgoing n i) := by
  obtain ⟨L, h1, h2, h3, h4⟩ := I.received hj hl
  obtain ⟨m, p, w', g1, -, -, -, -, g6⟩ := (I.site j s hj).node c hl
  rw [hsee] at g1
  simp only [Option.some.injEq, Prod.mk.injEq] at g1
  obtain ⟨rfl, rfl, rfl⟩ := g1
  obtain ⟨k', k1, k2⟩ := g6 rfl
  rw [hk] at k1
  cases k1
  rcases k2 with ⟨-, hex, k2⟩ | ⟨k2, -⟩
  · rw [receivedAt_see hj hl hsee, k2, ← bundles_tag] at h1
    have hL : L = (afterReg (s.put.take s.up)).filterMap (tag x) := by
      obtain ⟨t, ht⟩ := h3
      have := congrArg List.length h1
      rw [List.length_map, List.length_map, ← ht, List.length_append] at this
      have : t = [] := List.eq_nil_of_length_eq_zero (by omega)
      rw [← ht, this, List.append_nil]
    refine ⟨L, by rw [h1, receivedAt_see hj hl hsee, k2, bundles_tag], h2, ?_⟩
    intro i si hi hd
    have hg : ¬ s.gone := by
      intro hg
      obtain ⟨p, hp, -⟩ := hex
      have : s.put = [] := by simp [Site.put, (I.site j s hj).fresh hg.2]
      simp [this] at hp
    rw [hL, h4 i, afterReg_clean hc, hup, List.take_length, ← (I.flows (hx i) hi hj hg).2 hd hrx]
    congr 2
    rw [put_clean hc]
    simp [Site.held, drawn, hin, hq]
  · rw [ha] at k2; cases k2

end Dtn.ConnectN
