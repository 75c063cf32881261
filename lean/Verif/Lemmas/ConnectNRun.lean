import Verif.Lemmas.ConnectNFlow
/-! Lemmas about the program that connects N nodes: runs. -/

namespace Dtn.ConnectN
open ModuleClient (EclaPacket)
open Spec.ConnectNSpec

theorem parseUsize_only {i k : Nat} (h : parseUsize (toString i).toList = some k) : k = i := by
  obtain ⟨ds, h1, -, h3, h4, -⟩ := (parseUsize_iff _ _).mp h
  rcases h1 with h1 | h1
  · rw [h4, ← h1]; exact label_toString i
  · exfalso
    rw [toString_toList] at h1
    have := Routing.StaticRouting.toDigits_digit i '+' (by rw [h1]; simp)
    revert this; decide

theorem get_set {α : Type} {l : List α} {i : Nat} {a s : α} (hi : l[i]? = some s) (j : Nat) :
    (l.set i a)[j]? = if j = i then some a else l[j]? := by
  by_cases h : j = i
  · subst h
    rw [if_pos rfl, List.getElem?_set_self (List.getElem?_eq_some_iff.mp hi).1]
  · rw [if_neg h, List.getElem?_set_ne (Ne.symm h)]

/-- A packet for client `j` from node `i` is rightly there. -/
def Due (N i j : Nat) : EclaPacket → Prop
  | .data _ dst _ _ => target dst = some j
  | .beacon .. => N ≤ 2 ^ 64 → i ≠ j
  | _ => False

/-- What always holds. With `b`, also no beacon was left out. -/
structure NetInv (x : Ext) (b : Bool) (n : Net) : Prop where
  site : ∀ i s, n.sites[i]? = some s → SiteInv x i s
  rx : ∀ p ∈ n.rx, ∃ i, i < n.sites.length ∧ Mine x i p
  held : ∀ (j : Nat) s, n.sites[j]? = some s → ∀ p ∈ s.held, isReg p = true ∨ ∃ i, i < n.sites.length ∧ Mine x i p ∧ Due n.sites.length i j p
  flow : ∀ (i j : Nat) si sj, n.sites[i]? = some si → n.sites[j]? = some sj →
    sj.gone ∨ si.client.passed.filter (goes b i j) = sj.held.filter (goes b i j) ++ n.rx.filter (goes b i j)

theorem goes_reg (b : Bool) (i j : Nat) : goes b i j (.register "ConnectN" true none) = false := rfl

/-- One site changes, but not what its client has passed on, nor what is there for it, except for registrations. -/
theorem NetInv.one {x : Ext} {b : Bool} {n : Net} {i : Nat} {s s' : Site} (I : NetInv x b n) (hi : n.sites[i]? = some s)
    (h1 : SiteInv x i s') (h2 : s'.client.passed = s.client.passed)
    (h3 : ∀ F : EclaPacket → Bool, F (.register "ConnectN" true none) = false → s'.held.filter F = s.held.filter F)
    (h4 : s.gone → s'.gone) : NetInv x b { n with sites := n.sites.set i s' } := by
  have hmem : ∀ p ∈ s'.held, isReg p = false → p ∈ s.held := by
    intro p hp hr
    have := h3 (fun q => !isReg q) rfl
    have hp' : p ∈ s'.held.filter (fun q => !isReg q) := List.mem_filter.mpr ⟨hp, by simp [hr]⟩
    rw [this] at hp'
    exact (List.mem_filter.mp hp').1
  refine ⟨?_, ?_, ?_, ?_⟩
  · intro j t hj
    simp only [get_set hi] at hj
    split at hj
    · cases hj; subst_vars; exact h1
    · exact I.site j t hj
  · simpa using I.rx
  · intro j t hj p hp
    simp only [get_set hi] at hj
    simp only [List.length_set]
    split at hj
    · rename_i hji
      cases hj; subst hji
      by_cases hr : isReg p = true
      · exact .inl hr
      · exact I.held j s hi p (hmem p hp (by simpa using hr))
    · exact I.held j t hj p hp
  · intro k j sk sj hk hj
    simp only [get_set hi] at hk hj
    have hk' : ∃ sk', n.sites[k]? = some sk' ∧ sk.client.passed = sk'.client.passed := by
      split at hk
      · rename_i hki; cases hk; subst hki; exact ⟨s, hi, h2⟩
      · exact ⟨sk, hk, rfl⟩
    obtain ⟨sk', g1, g2⟩ := hk'
    rw [g2]
    split at hj
    · rename_i hji
      cases hj; subst hji
      rcases I.flow k j sk' s g1 hi with g | g
      · exact .inl (h4 g)
      · exact .inr (by rw [h3 _ (goes_reg b k j)]; exact g)
    · exact I.flow k j sk' sj g1 hj

theorem put_same {s : Site} {u : ModuleClient.State EclaPacket} (h : u.taken = s.client.taken) : Site.put { s with client := u } = s.put := by
  unfold Site.put; rw [h]

/-- The client does something by itself. -/
theorem NetInv.client {x : Ext} {b : Bool} {n m : Net} {i : Nat} {e : ModuleClient.Ev EclaPacket} (I : NetInv x b n)
    (h : n.step x (.client i e) = some m) : NetInv x b m := by
  simp only [Net.step] at h
  split at h
  · cases h
  · rename_i s hi
    split at h
    · rename_i ha
      simp only [Option.map_eq_some_iff] at h
      obtain ⟨u, hu, rfl⟩ := h
      have S := I.site i s hi
      obtain ⟨c1, c2, c3, c4, c5⟩ := client_step S.toClientInv ha hu
      have hput : s.put <+: Site.put { s with client := u } := by
        rcases c5 with ⟨ok, rfl⟩ | c5
        · simp only [ModuleClient.step] at hu
          split at hu
          · cases hu
            simp only [Site.put, List.filter_append, List.map_append]
            exact List.prefix_append _ _
          · cases hu; exact List.prefix_refl _
          · cases hu
        · rw [put_same c5]; exact List.prefix_refl _
      refine I.one hi ⟨c1, by dsimp only; rw [c2]; exact S.mine, S.ws, S.uniq, S.known, Nat.le_trans S.up hput.length_le, ?_⟩ c2 ?_ c4
      · intro c hc
        dsimp only at hc ⊢
        rw [c2]
        obtain ⟨r, hr⟩ := hput
        rw [← hr, List.take_append_of_le_length S.up]
        exact S.node c hc
      · intro F hF
        simp only [Site.held, List.filter_append, c3 F hF]
    · cases h

/-- Something happens at a node. -/
theorem NetInv.atNode {x : Ext} {b : Bool} {n m : Net} {i : Nat} {e : Ecla.Ev} (I : NetInv x b n)
    (h : n.step x (.node i e) = some m) : NetInv x b m := by
  have key : ∀ s node, n.sites[i]? = some s → Ecla.step s.node e = some node → (∀ c p, e = .packet c p → s.link ≠ some c) →
      NetInv x b { n with sites := n.sites.set i { s with node } } := by
    intro s node hi hs he
    have S := I.site i s hi
    refine I.one hi ⟨⟨S.held, S.open', S.fresh, S.over, S.regs, S.reg, S.conn, S.link, S.inbox⟩, S.mine, ?_, Ecla.Uniq.step S.uniq hs, Ecla.Known.step S.known S.uniq hs, S.up, ?_⟩ rfl (fun _ _ => rfl) id
    · dsimp only; rw [Ecla.connectors_step hs]; exact S.ws
    · intro c hc
      exact (S.node c hc).step S.uniq (fun p hp => he c p hp hc) hs
  simp only [Net.step] at h
  split at h
  · cases h
  · rename_i s hi
    split at h
    · rename_i c p
      split at h
      · cases h
      · rename_i hl
        simp only [Option.map_eq_some_iff] at h
        obtain ⟨u, hu, rfl⟩ := h
        exact key s u hi hu fun c' p' e => by cases e; exact hl
    · rename_i hne
      simp only [Option.map_eq_some_iff] at h
      obtain ⟨u, hu, rfl⟩ := h
      exact key s u hi hu fun c' p' e => absurd e (hne c' p')

/-- A client connects, or fails to. -/
theorem NetInv.connect {x : Ext} {b : Bool} {n m : Net} {i : Nat} {ok : Bool} (I : NetInv x b n)
    (h : n.step x (.connect i ok) = some m) : NetInv x b m := by
  simp only [Net.step] at h
  split at h
  · cases h
  · rename_i s hi
    have S := I.site i s hi
    split at h
    · rename_i hc
      obtain ⟨hr, hl⟩ := hc
      have hg : ¬ s.gone := fun g => g.1 hr
      split at h
      · rename_i u hu
        cases h
        obtain ⟨c1, c2, c3, c4, c5, -⟩ := serve_step S.toClientInv hl hr hu
        refine I.one hi ⟨c5 rfl, by dsimp only; rw [c3]; exact S.mine, S.ws, S.uniq, S.known, ?_, ?_⟩ c3 ?_ (fun g => absurd g hg)
        · rw [put_same c4]; exact S.up
        · intro c hc; dsimp only at hc; rw [hl] at hc; cases hc
        · intro F _; simp only [Site.held, c1]
      · rename_i u hu
        simp only [Option.map_eq_some_iff] at h
        obtain ⟨t, ht, rfl⟩ := h
        obtain ⟨c1, c2, c3, c4, -, c5⟩ := serve_step S.toClientInv hl hr hu
        obtain ⟨d1, d2, d3, d4, d5⟩ := S.link hl
        have hput : s.put = [] := by simp [Site.put, S.fresh d2]
        refine I.one hi ⟨c5 rfl _ _, by dsimp only; rw [c3]; exact S.mine, ?_, Ecla.Uniq.step S.uniq ht, Ecla.Known.step S.known S.uniq ht, ?_, ?_⟩ c3 ?_ (fun g => absurd g hg)
        · dsimp only; rw [Ecla.connectors_step ht]; exact S.ws
        · dsimp only
          simp only [Site.put, c4]
          exact S.up
        · intro c hc
          simp only [Option.some.injEq] at hc
          subst hc
          dsimp only
          have e1 : u.passed = [] := c3.trans d3
          have hfresh : t.got (.number s.node.nextId) = s.node.got (.number s.node.nextId) := by cases ht; rfl
          have hnone : s.node.got (.number s.node.nextId) = [] := by
            unfold Ecla.State.got
            rw [List.map_eq_nil_iff, List.filter_eq_nil_iff]
            intro r hr hm
            exact Nat.lt_irrefl _ (S.known r hr _ (by simpa using hm))
          refine ⟨s.node.nextId, .accepted, [], ?_, by rw [d4]; simp, by rw [e1, d4]; rfl, ?_, ?_, by simp⟩
          · cases ht
            simp [Ecla.State.see]
          · rw [hfresh, hnone]; exact List.nil_prefix
          · intro _; rw [hfresh, hnone]
        · intro F _; simp only [Site.held, c1]
      · cases h
    · cases h

theorem put_sublist (s : Site) : s.put.Sublist (drawn s.client) := by
  unfold Site.put drawn
  exact (List.filter_sublist.map _).trans (List.sublist_append_left _ _)

/-- There is only one registration. -/
theorem ClientInv.one {s : Site} (I : ClientInv s) {H : List EclaPacket} {q : EclaPacket} (h : (H ++ [q]).Sublist (drawn s.client)) :
    isReg q = true → ∀ p ∈ H, isReg p = false := by
  intro hq p hp
  cases hr : isReg p with
  | false => rfl
  | true =>
    exfalso
    have h1 : (H ++ [q]).countP isReg ≤ (drawn s.client).countP isReg := h.countP_le
    have h2 : 0 < H.countP isReg := List.countP_pos_iff.mpr ⟨p, hp, hr⟩
    rw [List.countP_append, I.regs] at h1
    simp only [List.countP_cons, List.countP_nil, hq, if_true] at h1
    split at h1 <;> omega

/-- The node handles a packet of its client. -/
theorem NetInv.up {x : Ext} {b : Bool} {n m : Net} {i : Nat} (I : NetInv x b n) (h : n.step x (.up i) = some m) : NetInv x b m := by
  simp only [Net.step] at h
  split at h
  · cases h
  · rename_i s hi
    have S := I.site i s hi
    split at h
    · rename_i c p hl hp
      simp only [Option.map_eq_some_iff] at h
      obtain ⟨u, hu, rfl⟩ := h
      have hlt : s.up < s.put.length := (List.getElem?_eq_some_iff.mp hp).1
      have ht : s.put.take (s.up + 1) = s.put.take s.up ++ [p] := by rw [List.take_add_one, hp]; rfl
      refine I.one hi ⟨⟨S.held, S.open', S.fresh, S.over, S.regs, S.reg, S.conn, (fun h => by rw [hl] at h; cases h), S.inbox⟩, S.mine, ?_, Ecla.Uniq.step S.uniq hu, Ecla.Known.step S.known S.uniq hu, hlt, ?_⟩ rfl (fun _ _ => rfl) id
      · dsimp only; rw [Ecla.connectors_step hu]; exact S.ws
      · intro c' hc
        dsimp only at hc ⊢
        rw [hl] at hc
        cases hc
        change NodeInv x u c s.down s.client.passed (s.put.take (s.up + 1))
        rw [ht]
        refine (S.node c hl).packet S.ws (S.toClientInv.one ?_) hu
        rw [← ht]
        exact (List.take_sublist _ _).trans (put_sublist s)
    · cases h

/-- The next packet for a client is given to it. -/
theorem NetInv.pump {x : Ext} {b : Bool} {n m : Net} {i : Nat} (I : NetInv x b n) (h : n.step x (.pump i) = some m) : NetInv x b m := by
  simp only [Net.step] at h
  split at h
  · cases h
  · rename_i s hi
    have S := I.site i s hi
    split at h
    · cases h
    · rename_i p inbox hp
      split at h
      · rename_i hg
        cases h
        -- what is there for a client that is gone does not count
        have hg : s.gone := hg
        have hin : ∀ q ∈ inbox, q ∈ s.inbox := fun q hq => by rw [hp]; exact List.mem_cons_of_mem _ hq
        have S' : SiteInv x i { s with inbox } :=
          ⟨⟨S.held, S.open', S.fresh, S.over, S.regs, S.reg, S.conn, S.link, fun q hq => S.inbox q (hin q hq)⟩, S.mine, S.ws, S.uniq, S.known, S.up, S.node⟩
        refine ⟨?_, ?_, ?_, ?_⟩
        · intro j t hj
          simp only [get_set hi] at hj
          split at hj
          · cases hj; subst_vars; exact S'
          · exact I.site j t hj
        · simpa using I.rx
        · intro j t hj q hq
          simp only [get_set hi] at hj
          simp only [List.length_set]
          split at hj
          · rename_i hji
            cases hj; subst hji
            refine I.held j s hi q ?_
            simp only [Site.held, List.mem_append] at hq ⊢
            exact hq.imp id (hin q)
          · exact I.held j t hj q hq
        · intro k j sk sj hk hj
          simp only [get_set hi] at hk hj
          have hk' : ∃ sk', n.sites[k]? = some sk' ∧ sk.client.passed = sk'.client.passed := by
            split at hk
            · rename_i hki; cases hk; subst hki; exact ⟨s, hi, rfl⟩
            · exact ⟨sk, hk, rfl⟩
          obtain ⟨sk', g1, g2⟩ := hk'
          rw [g2]
          split at hj
          · cases hj; exact .inl hg
          · exact I.flow k j sk' sj g1 hj
      · simp only [Option.map_eq_some_iff] at h
        obtain ⟨u, hu, rfl⟩ := h
        obtain ⟨c1, c2, c3, c4, c5, c6⟩ := command_step S.toClientInv hp hu
        have hput : Site.put { s with client := u, inbox } = s.put := by unfold Site.put; rw [c6]
        refine I.one hi ⟨c1, by dsimp only; rw [c2]; exact S.mine, S.ws, S.uniq, S.known, by rw [hput]; exact S.up, ?_⟩ c2 (fun _ _ => by rw [c3]) ?_
        · intro c hc
          dsimp only at hc ⊢
          rw [c2, hput]
          exact S.node c hc
        · rintro ⟨g1, g2⟩; exact ⟨by dsimp only; rw [c4]; exact g1, by dsimp only; rw [c5]; exact g2⟩

/-- The client reads the next packet of its node. -/
theorem NetInv.down {x : Ext} {b : Bool} {n m : Net} {i : Nat} {block : Bytes} (I : NetInv x b n) (h : n.step x (.down i block) = some m) : NetInv x b m := by
  simp only [Net.step] at h
  split at h
  · cases h
  · rename_i s hi
    have S := I.site i s hi
    split at h
    · cases h
    · rename_i o ho
      simp only [Option.bind_eq_some_iff] at h ho
      obtain ⟨c, hl, k, hk, ho⟩ := ho
      obtain ⟨u, hu, h⟩ := h
      obtain ⟨-, c1, c2, c3, c4, c5, c6⟩ := message_step S.toClientInv hu
      have hR : u.passed.drop s.client.passed.length = relayed i (written x i block o) := by rw [c6, List.drop_left]
      have hm : m = { rx := n.rx ++ relayed i (written x i block o), sites := n.sites.set i { s with client := u, down := s.down + 1 } } := by
        rw [hR] at h
        split at h
        · rename_i he; cases h; rw [he]; simp
        · split at h
          · cases h; rfl
          · cases h
      have hM := relayed_mine x i block o
      have hS := relayed_shape x i block o
      subst hm
      have hput : Site.put { s with client := u, down := s.down + 1 } = s.put := by unfold Site.put; rw [c5]
      have hheld : Site.held { s with client := u, down := s.down + 1 } = s.held := by unfold Site.held; rw [c2]
      have S' : SiteInv x i { s with client := u, down := s.down + 1 } := by
        refine ⟨c1 _, ?_, S.ws, S.uniq, S.known, by rw [hput]; exact S.up, ?_⟩
        · intro p hp
          dsimp only at hp
          rw [c6, List.mem_append] at hp
          exact hp.elim (S.mine p) (hM p)
        · intro c' hc
          dsimp only at hc ⊢
          rw [hput]
          obtain ⟨m, p, w, h1, h2, h3, h4⟩ := S.node c' hc
          rw [hl] at hc
          cases hc
          have := (Ecla.see_some hk).symm.trans h1
          simp only [Option.some.injEq, Prod.mk.injEq] at this
          obtain ⟨-, -, rfl⟩ := this
          refine ⟨m, p, k.written, h1, (List.getElem?_eq_some_iff.mp ho).1, ?_, h4⟩
          rw [c6, List.take_add_one, ho, List.filterMap_append, List.filterMap_append, h3, hS]
          cases hso : shapeOut x o <;> simp [hso]
      refine ⟨?_, ?_, ?_, ?_⟩
      · intro j t hj
        simp only [get_set hi] at hj
        split at hj
        · cases hj; subst_vars; exact S'
        · exact I.site j t hj
      · intro p hp
        simp only [List.mem_append] at hp
        rw [List.length_set]
        rcases hp with hp | hp
        · exact I.rx p hp
        · exact ⟨i, (List.getElem?_eq_some_iff.mp hi).1, hM p hp⟩
      · intro j t hj p hp
        simp only [get_set hi] at hj
        simp only [List.length_set]
        split at hj
        · rename_i hji
          cases hj; subst hji
          rw [hheld] at hp
          exact I.held j s hi p hp
        · exact I.held j t hj p hp
      · intro a j sa sj ha hj
        simp only [get_set hi] at ha hj
        have hj' : ∃ t, n.sites[j]? = some t ∧ (t.gone → sj.gone) ∧ sj.held = t.held := by
          split at hj
          · rename_i hji; cases hj; subst hji
            exact ⟨s, hi, fun g => ⟨by dsimp only; rw [c3]; exact g.1, by dsimp only; rw [c4]; exact g.2⟩, hheld⟩
          · exact ⟨sj, hj, id, rfl⟩
        obtain ⟨t, g1, g2, g3⟩ := hj'
        rw [g3, List.filter_append, ← List.append_assoc]
        split at ha
        · rename_i hai
          cases ha; subst hai
          refine (I.flow a j s t hi g1).imp g2 fun g => ?_
          rw [← g]
          dsimp only
          rw [c6, List.filter_append]
        · rename_i hai
          refine (I.flow a j sa t ha g1).imp g2 fun g => ?_
          rw [← g]
          have : (relayed i (written x i block o)).filter (goes b a j) = [] := by
            rw [List.filter_eq_nil_iff]
            intro p hp hg
            exact hai ((hM p hp).goes hg)
          rw [this, List.append_nil]

theorem SiteInv.more {x : Ext} {i : Nat} {s : Site} {p : EclaPacket} (S : SiteInv x i s) (hp : isReg p = false) :
    SiteInv x i { s with inbox := s.inbox ++ [p] } := by
  refine ⟨⟨S.held, S.open', S.fresh, S.over, S.regs, S.reg, S.conn, S.link, ?_⟩, S.mine, S.ws, S.uniq, S.known, S.up, S.node⟩
  intro q hq
  simp only [List.mem_append, List.mem_singleton] at hq
  rcases hq with hq | rfl
  · exact S.inbox q hq
  · exact hp

/-- Each client may get the next packet. -/
theorem NetInv.deliver {x : Ext} {b : Bool} {n : Net} {p : EclaPacket} {rx : List EclaPacket} {sites : List Site} (I : NetInv x b n)
    (hrx : n.rx = p :: rx) (hreg : isReg p = false) (hlen : sites.length = n.sites.length)
    (h : ∀ (j : Nat) s, n.sites[j]? = some s →
      (sites[j]? = some { s with inbox := s.inbox ++ [p] } ∧ ∀ i, i < n.sites.length → Mine x i p → Due n.sites.length i j p) ∨
      (sites[j]? = some s ∧ ∀ i, goes b i j p = false)) : NetInv x b { rx, sites } := by
  have back : ∀ (j : Nat) t, sites[j]? = some t → ∃ s, n.sites[j]? = some s := by
    intro j t hj
    exact ⟨_, List.getElem?_eq_getElem (by rw [← hlen]; exact (List.getElem?_eq_some_iff.mp hj).1)⟩
  refine ⟨?_, ?_, ?_, ?_⟩
  · intro j t hj
    obtain ⟨s, hs⟩ := back j t hj
    rcases h j s hs with ⟨g, -⟩ | ⟨g, -⟩ <;> simp only [g, Option.some.injEq] at hj <;> subst hj
    · exact (I.site j _ hs).more hreg
    · exact I.site j _ hs
  · intro q hq
    dsimp only
    rw [hlen]
    exact I.rx q (by rw [hrx]; exact List.mem_cons_of_mem _ hq)
  · intro j t hj q hq
    dsimp only at hj ⊢
    rw [hlen]
    obtain ⟨s, hs⟩ := back j t hj
    rcases h j s hs with ⟨g, g'⟩ | ⟨g, -⟩ <;> simp only [g, Option.some.injEq] at hj <;> subst hj
    · simp only [Site.held, ← List.append_assoc, List.mem_append, List.mem_singleton] at hq
      rcases hq with hq | rfl
      · exact I.held j _ hs q (by simpa only [Site.held, List.mem_append] using hq)
      · obtain ⟨i, hi, hm⟩ := I.rx q (by rw [hrx]; simp)
        exact .inr ⟨i, hi, hm, g' i hi hm⟩
    · exact I.held j _ hs q hq
  · intro i j si sj hi hj
    dsimp only at hi hj ⊢
    obtain ⟨ti, hti⟩ := back i si hi
    obtain ⟨tj, htj⟩ := back j sj hj
    have h1 : si.client = ti.client := by
      rcases h i ti hti with ⟨g, -⟩ | ⟨g, -⟩ <;> rw [g] at hi <;> cases hi <;> rfl
    have f := I.flow i j ti tj hti htj
    rw [hrx] at f
    rw [h1]
    rcases h j tj htj with ⟨g, -⟩ | ⟨g, g'⟩ <;> rw [g] at hj <;> cases hj
    · refine f.imp id fun f => ?_
      rw [f]
      simp only [Site.held, List.filter_append, List.append_assoc, List.filter_cons, List.filter_nil]
      split <;> simp
    · refine f.imp id fun f => ?_
      rw [f, List.filter_cons, if_neg (by simp [g' i])]

/-- The next packet of any client is looked at. -/
theorem NetInv.route {x : Ext} {b : Bool} {n m : Net} (I : NetInv x b n) (hb : b = true → Roomy n) (h : n.step x .route = some m) : NetInv x b m := by
  simp only [Net.step, Net.route] at h
  split at h
  · cases h
  · rename_i src dst bid bytes rx hrx
    split at h
    · rename_i ht
      cases h
      exact I.deliver hrx rfl rfl fun j s hs => .inr ⟨hs, fun i => by simp [goes, ht]⟩
    · rename_i id ht
      split at h
      · rename_i hid
        cases h
        refine I.deliver hrx rfl rfl fun j s hs => .inr ⟨hs, fun i => ?_⟩
        have : id ≠ j := fun e => by rw [e, hs] at hid; cases hid
        simp [goes, ht, this]
      · rename_i s hs
        split at h
        · cases h
          refine I.deliver hrx rfl (by simp) fun j t hj => ?_
          rw [get_set hs]
          by_cases hji : j = id
          · subst hji
            rw [hs] at hj
            cases hj
            exact .inl ⟨by simp, fun i _ _ => ht⟩
          · exact .inr ⟨by simp [hji, hj], fun i => by simp [goes, ht, Ne.symm hji]⟩
        · cases h
  · rename_i eid addr block rx hrx
    cases h
    refine I.deliver hrx rfl (by simp [spread]) fun j s hj => ?_
    simp only [spread, List.getElem?_mapIdx, hj, Option.map_some]
    split
    · rename_i hp
      refine .inr ⟨rfl, fun i => ?_⟩
      simp only [goes, Bool.and_eq_false_iff, decide_eq_false_iff_not]
      right
      rintro ⟨rfl, hij⟩
      exact hij (parseUsize_only hp).symm
    · rename_i hp
      split
      · refine .inl ⟨rfl, fun i hi hm hN => ?_⟩
        rintro rfl
        rw [hm.2] at hp
        exact hp (parseUsize_toString (by omega))
      · rename_i hfull
        refine .inr ⟨rfl, fun i => ?_⟩
        cases hb' : b with
        | false => rfl
        | true => exact absurd (hb hb' s (List.mem_of_getElem? hj)) hfull
  · rename_i p rx hnd hnb hrx
    cases h
    refine I.deliver hrx ?_ rfl fun j s hj => .inr ⟨hj, fun i => ?_⟩
    · obtain ⟨i, -, hm⟩ := I.rx p (by rw [hrx]; simp)
      cases p <;> first | rfl | cases hm
    · cases p with
      | data => exact (hnd _ _ _ _ rfl).elim
      | beacon => exact (hnb _ _ _ rfl).elim
      | _ => rfl

theorem NetInv.step {x : Ext} {b : Bool} {n m : Net} {e : Ev} (I : NetInv x b n) (hb : b = true → e = .route → Roomy n) (h : n.step x e = some m) :
    NetInv x b m := by
  cases e with
  | node i e => exact I.atNode h
  | connect i ok => exact I.connect h
  | client i e => exact I.client h
  | down i block => exact I.down h
  | up i => exact I.up h
  | pump i => exact I.pump h
  | route => exact I.route (fun h => hb h rfl) h

theorem NetInv.start (x : Ext) (b : Bool) {nodes : List Ecla.State} (h : ∀ s ∈ nodes, ∃ clas tcp evs, Spec.Ecla.After clas tcp evs s ∧ .websocket ∈ s.connectors) :
    NetInv x b (start nodes) := by
  have get : ∀ (i : Nat) s, (ConnectN.start nodes).sites[i]? = some s → ∃ node ∈ nodes, s = { node } := by
    intro i s hs
    simp only [ConnectN.start, List.getElem?_map, Option.map_eq_some_iff] at hs
    obtain ⟨node, hn, rfl⟩ := hs
    exact ⟨node, List.mem_of_getElem? hn, rfl⟩
  refine ⟨?_, by simp [ConnectN.start], ?_, ?_⟩
  · intro i s hs
    obtain ⟨node, hn, rfl⟩ := get i s hs
    obtain ⟨clas, tcp, evs, ha, hw⟩ := h node hn
    refine ⟨⟨by simp, by simp, by simp, by simp, by simp [drawn], by simp [drawn], by simp, by simp, by simp⟩, by simp, hw, Ecla.uniq_after ha, Ecla.known_after ha, by simp, by simp⟩
  · intro j s hs p hp
    obtain ⟨node, hn, rfl⟩ := get j s hs
    simp [Site.held, drawn] at hp
  · intro i j si sj hi hj
    obtain ⟨node, hn, rfl⟩ := get i si hi
    obtain ⟨node', hn', rfl⟩ := get j sj hj
    right
    simp [Site.held, drawn, ConnectN.start]

end Dtn.ConnectN
