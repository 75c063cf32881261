import Verif.Lemmas.Network
import Verif.Lemmas.Queues
import Verif.Spec.Relay
/-! A node that is left alone hands on the bundles it takes on. -/

namespace Dtn.Proc
open Routing (Answer)
open Spec

attribute [local irreducible] RG

variable {n m : Node}

/-! ### Time does not run backwards on a node that is left alone -/

theorem clock_steps : Steps (fun n m => n.clock ≤ m.clock) where
  aside _ _ _ _ h _ _ := Nat.le_of_eq h.symm
  deliver n e b room := by unfold Node.deliver; split <;> exact Nat.le_refl _
  pop n e := by unfold Node.popAgent; split <;> (try split) <;> exact Nat.le_refl _

theorem quiet_clock {c : Call} (i : Good n) {s : Sys} (hr : Reaches .quiet ⟨n, [c.prog]⟩ s) : n.clock ≤ s.node.clock :=
  (Only.reaches (G := fun n m => n.clock ≤ m.clock) clock_steps.refl (fun _ _ _ => Nat.le_trans) (fun _ _ h => h) i (by simpa using rg_call Good.acts c)
    (by simpa using clock_steps.call c) hr).1

/-! ### Transfers that were started are made -/

/-- The transfer has been made since `n0`, or a task that will make it is there. -/
def Due (n0 : Node) (bid : String) (t : Transfer) (s : Sys) : Prop :=
  n0.events <+: s.node.events ∧ (.sending t ∈ newEvents n0 s.node ∨ transferTask bid t ∈ s.pool ∨
    ∃ mk x ss k, spawnTransfers bid mk ss k ∈ s.pool ∧ x ∈ ss ∧ mk x = t)

variable {n0 : Node} {bid : String} {t : Transfer}

theorem Due.step {s u : Sys} (h : Due n0 bid t s) (mono : s.node.events <+: u.node.events)
    (st : Step .quiet s u) : Due n0 bid t u := by
  refine ⟨h.1.trans mono, ?_⟩
  obtain ⟨h0, h⟩ := h
  rcases h with h | h
  · exact .inl (newEvents_right h0 mono h)
  cases st with
  | task l r p n n' ps ts =>
    have keep : ∀ q, q ∈ l ++ p :: r → q ≠ p → q ∈ l ++ ps ++ r := by
      intro q hq hne
      simp only [List.mem_append, List.mem_cons] at hq ⊢
      rcases hq with h | rfl | h
      · exact .inl (.inl h)
      · exact absurd rfl hne
      · exact .inr h
    rcases h with h | ⟨mk, x, ss, k, h, hx, rfl⟩
    · by_cases hp : transferTask bid t = p
      · subst hp
        left
        refine newEvents_left h0 mono ?_
        unfold transferTask Prog.set at ts
        cases ts
        rw [newEvents_eq (es := [_]) rfl]; simp
      · exact .inr (.inl (keep _ h hp))
    · by_cases hp : spawnTransfers bid mk ss k = p
      · subst hp
        cases ss with
        | nil => cases hx
        | cons y ys =>
          unfold spawnTransfers at ts
          cases ts
          right
          rcases List.mem_cons.mp hx with rfl | hx
          · left; simp
          · right; exact ⟨mk, x, ys, k, by simp, hx, rfl⟩
      · exact .inr (.inr ⟨mk, x, ss, k, keep _ h hp, hx, rfl⟩)
  | call n pool c hc => exact hc.elim
  | change n n' pool _ => exact .inr h

theorem Due.run {s u : Sys} (i : Good s.node)
    (hrg : ∀ p ∈ s.pool, RG Good Base p (fun _ _ => True) s.node) (h : Due n0 bid t s) (hr : Reaches .quiet s u) : Due n0 bid t u := by
  induction hr with
  | refl => exact h
  | @step v w hv hs ih =>
    obtain ⟨-, g1, p1⟩ := quiet_good i hrg hv
    obtain ⟨b2, -, -⟩ := quiet_good g1 p1 (Reaches.step (.refl _) hs)
    exact ih.step b2.past hs

/-- When all tasks have ended, the transfers have been made. -/
theorem Due.ended {pool : List Prog} (i : Good n)
    (hrg : ∀ p ∈ pool, RG Good Base p (fun _ _ => True) n) (h : Due n0 bid t ⟨n, pool⟩) (hr : Reaches .quiet ⟨n, pool⟩ ⟨m, []⟩) :
    .sending t ∈ newEvents n0 m := by
  rcases (h.run i hrg hr).2 with h | h | ⟨_, _, _, _, h, -⟩
  · exact h
  · cases h
  · cases h

/-! ### Forwarding -/

/-- What stops a bundle from being sent at this time. -/
def Stopped (bp : Pack) (b : Bundle) (m : Node) : Prop :=
  lifetimeExceeded m.dtnNow b.primary = true ∨
  ∃ b2, setPrevious m.cfg.hostEid (raiseHop b).1 = some b2 ∧
    tooOld (raiseAge m.clock (some bp.receivedTime) b2).1 (raiseAge m.clock (some bp.receivedTime) b2).2 = true

/-- A bundle that is forwarded is handed to every neighbour the router names, unless it is stopped. -/
theorem forward_sends {bp : Pack} {b : Bundle} (i : Good n) (hb : n.store.getBundle bp.id = some b)
    (hr : Reaches .quiet ⟨n, [forward bp .done]⟩ ⟨m, []⟩) (hops : (raiseHop b).2 = false)
    (prev : setPrevious n.cfg.hostEid (raiseHop b).1 ≠ none) :
    ∃ n', n.clock ≤ n'.clock ∧ n'.clock ≤ m.clock ∧ n'.cfg = n.cfg ∧ (Stopped bp b n' ∨
    ∃ a, .asked (fwdPack bp) a ∈ newEvents n m ∧ ∀ x, a = some x → ∀ s ∈ x.clas, ∃ t, .sending t ∈ newEvents n m ∧ t.to = s ∧
      t.stored = b ∧ Copied n.cfg.hostEid t ∧ t.receivedAt = some bp.receivedTime ∧ n.clock ≤ t.agedAt ∧ t.agedAt ≤ n'.clock) := by
  have hknown := known_of_stored i.inv (bid := bp.id) (by rw [hb]; simp)
  have h : Alone (fun pool n' => n.clock ≤ n'.clock ∧ n'.cfg = n.cfg ∧ (Stopped bp b n' ∨
      ∃ a, n.events <+: n'.events ∧ .asked (fwdPack bp) a ∈ newEvents n n' ∧ ∀ x, a = some x → ∀ s ∈ x.clas, ∃ t, t.to = s ∧
        t.stored = b ∧ Copied n.cfg.hostEid t ∧ t.receivedAt = some bp.receivedTime ∧ n.clock ≤ t.agedAt ∧ t.agedAt ≤ n'.clock ∧
        Due n bp.id t ⟨n', pool⟩)) (forward bp .done) n := by
    refine alone_forward hknown fun m a hl he hs => ?_
    have hb' : m.store.getBundle bp.id = some b := by rw [hs, MemStore.getBundle_update]; exact hb
    have hm' : m.store.getMetadata bp.id = some (fwdPack bp) := by
      rw [hs, MemStore.getMetadata_update]; simp [hknown]
    cases a with
    | none => exact .stop ⟨hl.clock, hl.cfg, .inr ⟨none, hl.past, he, by simp⟩⟩
    | some a =>
      unfold answered
      dsimp only
      have empty : a.clas = [] → ∀ x, some a = some x → ∀ s ∈ x.clas, False := by
        rintro h x hx s hs
        cases hx; rw [h] at hs; cases hs
      split
      · rename_i hc
        have hc' : a.clas = [] := by simpa using hc
        split
        · refine .act fun t ht => ?_
          have hl' : Later (fun e => e = .removed bp.id (.router (fwdPack bp) a)) m
              ((m.at t).remove (fwdPack bp).id (.router (fwdPack bp) a)) :=
            (Later.time m ht).trans (.remove _ _ _ rfl)
          exact .stop ⟨Nat.le_trans hl.clock hl'.clock, hl'.cfg.trans hl.cfg, .inr ⟨some a, hl.past.trans hl'.past,
            newEvents_right hl.past hl'.past he, fun x hx s hs => (empty hc' x hx s hs).elim⟩⟩
        · exact .stop ⟨hl.clock, hl.cfg, .inr ⟨some a, hl.past, he, fun x hx s hs => (empty hc' x hx s hs).elim⟩⟩
      · rename_i hc
        have hid : b.id = bp.id := i.inv.bundleId _ _ hb
        unfold prepare
        refine alone_read fun t ht => ?_
        rw [show (m.at t).store.getBundle (fwdPack bp).id = some b from hb']
        dsimp only
        refine alone_read fun t2 ht2 => ?_
        split
        · rename_i hle
          exact .stop ⟨Nat.le_trans hl.clock (Nat.le_trans ht ht2), hl.cfg, .inl (.inl hle)⟩
        · rename_i hle
          rw [hops]
          simp only [Bool.false_eq_true, if_false]
          refine alone_read fun t3 ht3 => ?_
          have hcfg : (((m.at t).at t2).at t3).cfg = n.cfg := hl.cfg
          rw [hcfg]
          cases hb2 : setPrevious n.cfg.hostEid (raiseHop b).1 with
          | none => exact absurd hb2 prev
          | some b2 =>
            dsimp only
            refine alone_read fun t4 ht4 => ?_
            have hrec : ((((m.at t).at t2).at t3).at t4).store.getMetadata b.id = some (fwdPack bp) := by
              rw [hid]; exact hm'
            rw [hrec]
            simp only [Option.map_some]
            have hr' : (fwdPack bp).receivedTime = bp.receivedTime := rfl
            rw [hr']
            have hclock : n.clock ≤ ((((m.at t).at t2).at t3).at t4).clock :=
              Nat.le_trans hl.clock (Nat.le_trans ht (Nat.le_trans ht2 (Nat.le_trans ht3 ht4)))
            split
            · rename_i ho
              exact .stop ⟨hclock, hl.cfg, .inl (.inr ⟨b2, by rw [show ((((m.at t).at t2).at t3).at t4).cfg = n.cfg from hl.cfg]; exact hb2, ho⟩)⟩
            · rename_i ho
              unfold sendAll
              refine .act fun t5 ht5 => ?_
              dsimp only
              obtain ⟨s, ss, hss⟩ : ∃ s ss, a.clas = s :: ss := by
                cases h : a.clas with
                | nil => simp [h] at hc
                | cons s ss => exact ⟨s, ss, rfl⟩
              generalize hm1 : (((((m.at t).at t2).at t3).at t4).at t5).newGroup (fwdPack bp) b a = m1
              have hev : m1.events = m.events := by rw [← hm1]; rfl
              have hcl : m1.clock = t5 := by rw [← hm1]; rfl
              have hpast : n.events <+: m1.events := by rw [hev]; exact hl.past
              rw [hss]
              refine .spawn ⟨by rw [hcl]; exact Nat.le_trans hclock ht5, by rw [← hm1]; exact hl.cfg, .inr ⟨some a, hpast, ?_, ?_⟩⟩
              · unfold newEvents at he ⊢; rw [hev]; exact he
              · rintro x hx s' hs'
                cases hx
                refine ⟨⟨(((((m.at t).at t2).at t3).at t4).at t5).groups.length, b, _, s', _, _, _⟩, rfl, rfl, ⟨eq_false_of_ne_true hle, hops, b2, hb2, rfl, eq_false_of_ne_true ho⟩, rfl, hclock,
                  by rw [hcl]; exact ht5, hpast, ?_⟩
                rw [hss] at hs'
                right
                rcases List.mem_cons.mp hs' with rfl | hs'
                · left; simp
                · right
                  exact ⟨_, s', ss, _, by simp; left; rfl, hs', rfl⟩
  have hrg : RG Good Base (forward bp .done) (fun _ _ => True) n :=
    rg_forward Good.acts (fun _ _ _ => trivial) fun _ => rg_end (.inr ⟨_, rfl⟩)
  obtain ⟨n', pool, ⟨h1, h2, hQ⟩, hr1, hr2⟩ := h.ended hr
  obtain ⟨b1, g1, p1⟩ := quiet_good i (by simpa using hrg) hr1
  have hclk := Only.reaches (G := fun n m => n.clock ≤ m.clock) clock_steps.refl (fun _ _ _ => Nat.le_trans) (fun _ _ h => h) i
    (by simpa using hrg) (by simpa using clock_steps.forward (k := .done) fun _ => trivial) hr1
  have hclk2 := Only.reaches (G := fun n m => n.clock ≤ m.clock) clock_steps.refl (fun _ _ _ => Nat.le_trans) (fun _ _ h => h) g1
    p1 hclk.2 hr2
  refine ⟨n', h1, hclk2.1, h2, ?_⟩
  rcases hQ with h | ⟨a, hp, ha, hx⟩
  · exact .inl h
  · obtain ⟨b2, -, -⟩ := quiet_good g1 p1 hr2
    refine .inr ⟨a, newEvents_right hp b2.past ha, ?_⟩
    intro x hx' s hs
    obtain ⟨t, k1, k2, k3, k4, k5, k6, k7⟩ := hx x hx' s hs
    exact ⟨t, k7.ended g1 p1 hr2, k1, k2, k3, k4, k5, k6⟩

/-! ### Bundles that are in time -/

theorem inTime_alive {b : Bundle} {m n' : Node} (h : InTime n m b) (hle : n'.clock ≤ m.clock) :
    lifetimeExceeded n'.dtnNow b.primary = false := by
  obtain ⟨h1, h2, -⟩ := h
  unfold lifetimeExceeded
  split
  · rfl
  · rename_i hc
    rw [decide_eq_false_iff_not, Nat.mod_eq_of_lt (by unfold u64; exact h2)]
    have := h1 hc
    have := dtnNow_mono hle
    omega

theorem inTime_young {b b2 : Bundle} {m : Node} (h : InTime n m b) (hp : b2.primary = b.primary)
    (ha : bundleAge b2 = bundleAge b) {now r : Nat} (hr : n.clock ≤ r) (hr' : r ≤ now) (hn : now ≤ m.clock) :
    tooOld (raiseAge now (some r) b2).1 (raiseAge now (some r) b2).2 = false := by
  obtain ⟨-, h2, h3⟩ := h
  have hprim := raiseAge_primary now (some r) b2
  unfold tooOld
  rw [hprim, hp]
  rcases raiseAge_cases now (some r) b2 with ⟨t, age, c, k1, k2, k3, -, k5⟩ | ⟨k, -⟩
  · rw [k5]
    cases k1
    have hage : bundleAge b2 = some age := by
      unfold bundleAge; unfold first at k2; rw [k2]; simp [k3]
    have := h3 age (ha ▸ hage)
    have hu : b.primary.lifetime < u64 := by unfold u64; omega
    have hmod : (age + (now + u64 - r) % u64) % u64 = age + (now - r) := by
      have : now + u64 - r = (now - r) + u64 := by omega
      rw [this, Nat.add_mod_right, Nat.mod_eq_of_lt (by omega : now - r < u64), Nat.mod_eq_of_lt (by omega)]
    rw [hmod]
    simp only [ge_iff_le, decide_eq_false_iff_not]
    omega
  · rw [k]

theorem readable_set {b : Bundle} (h : ReadablePrevious b) (host : EID) : setPrevious host (raiseHop b).1 ≠ none := by
  have hf : first PREVIOUS_NODE_BLOCK (raiseHop b).1.canonicals = first PREVIOUS_NODE_BLOCK b.canonicals :=
    raiseHop_first hop_ne_prev.symm b
  unfold first at hf
  unfold setPrevious firstBlock
  rw [hf]
  cases hc : b.canonicals.find? fun c => decide (c.btype = PREVIOUS_NODE_BLOCK) with
  | none => simp
  | some c =>
    have hk := h ⟨c, List.mem_of_find?_eq_some hc, by simpa using List.find?_some hc⟩
    unfold previousNode at hk
    rw [hc] at hk
    simp only [Option.bind_some] at hk
    cases hd : c.data <;> simp [hd] at hk ⊢

theorem room_hops {b : Bundle} {k : Nat} (h : RoomFor (k + 1) b) : (raiseHop b).2 = false := by
  cases hc : hopCount b with
  | none =>
    rcases raiseHop_cases b with ⟨l, k, c, hf, hd, hr⟩ | ⟨hr, -⟩
    · unfold first at hf; unfold hopCount at hc; rw [hf] at hc; simp [hd] at hc
    · rw [hr]
  | some lk =>
    obtain ⟨l, c⟩ := lk
    obtain ⟨h1, h2⟩ := h.2 l c hc
    rw [raiseHop_exceeded hc, decide_eq_false_iff_not, Nat.mod_eq_of_lt (by omega)]
    omega

/-- One hop. -/
theorem takesOn_sends {c : Call} {b : Bundle} {k : Nat} (i : Good n) (ht : TakesOn n b c)
    (hrem : b.primary.destination.nodeId ≠ n.cfg.hostEid.nodeId) (hloc : b.primary.destination ∉ n.agents.eids)
    (hr : Reaches .quiet ⟨n, [c.prog]⟩ ⟨m, []⟩) (hin : InTime n m b) (room : RoomFor (k + 1) b) (prev : ReadablePrevious b)
    (one : AtMostOne BUNDLE_AGE_BLOCK b) :
    ∃ bp a, bp.id = b.id ∧ .asked bp a ∈ newEvents n m ∧ ∀ x, a = some x → ∀ s ∈ x.clas, ∃ t, .sending t ∈ newEvents n m ∧
      t.to = s ∧ t.stored = b ∧ Copied n.cfg.hostEid t ∧
      ∀ age, bundleAge b = some age → ∃ stay, stay ≤ m.clock - n.clock ∧ bundleAge t.out = some (age + stay) := by
  obtain ⟨n', hl, hb, -, -, -, -, hfw⟩ := takesOn_run i ht (fun h => absurd h hloc) hr
  obtain ⟨bp, hid, hr', i', -, hrt, hrt', hst⟩ := hfw hrem
  have hcfg : n'.cfg = n.cfg := hl.cfg
  obtain ⟨n2, h1, h2, h3, h4⟩ := forward_sends i' (bp := bp) (b := b) (by rw [hid]; exact hst hloc) hr' (room_hops room)
    (readable_set prev _)
  rcases h4 with h4 | ⟨a, ha, hx⟩
  · exfalso
    rcases h4 with h4 | ⟨b2, k1, k2⟩
    · rw [inTime_alive hin h2] at h4; cases h4
    · have hp : b2.primary = b.primary := (setPrevious_primary k1).trans (raiseHop_primary b)
      have hage : bundleAge b2 = bundleAge b := by
        apply bundleAge_congr
        rw [setPrevious_first k1 age_ne_prev (by rw [raiseHop_howMany]; exact one), raiseHop_first hop_ne_age.symm]
      rw [inTime_young hin hp hage hrt (Nat.le_trans hrt' h1) h2] at k2
      cases k2
  · refine ⟨fwdPack bp, a, hid, newEvents_left hl.past hb.past ha, ?_⟩
    intro x hx' s hs
    obtain ⟨t, k1, k2, k3, k4, k5, k6, k7⟩ := hx x hx' s hs
    refine ⟨t, newEvents_left hl.past hb.past k1, k2, k3, hcfg ▸ k4, ?_⟩
    intro age hage
    have hle : bp.receivedTime ≤ t.agedAt := Nat.le_trans hrt' k6
    have hb3 := hin.2.2 age hage
    have hlt : b.primary.lifetime < u64 := by have := hin.2.1; unfold u64; omega
    refine ⟨t.agedAt - bp.receivedTime, by omega, ?_⟩
    exact k4.age (by rw [k3]; exact one) (by rw [k3]; exact hage) k5 hle (by omega)

theorem passed_count {host : EID} {b' b : Bundle} (h : PassedOn host b' b) {ty : Nat} (hne : ty ≠ PREVIOUS_NODE_BLOCK) :
    b'.canonicals.countP (fun c => decide (c.btype = ty)) = b.canonicals.countP fun c => decide (c.btype = ty) := by
  have key : ∀ {A : List Nat} {xs ys : List Block}, SameBut A xs ys →
      xs.countP (fun c => decide (c.btype = ty)) = ys.countP fun c => decide (c.btype = ty) := by
    intro A xs ys hs
    have := congrArg (List.countP fun t => decide (t = ty)) (SameBut.types hs)
    rw [List.countP_map, List.countP_map] at this
    exact this
  rcases h.2 with ⟨-, h⟩ | ⟨-, blk, rest, hp, hs, ht, -⟩
  · exact key h
  · rw [hp.countP_eq, List.countP_cons_of_neg (by rw [ht]; simpa using hne.symm), key hs]

/-- What is needed of a bundle for `k` more hops. -/
structure Ready (k : Nat) (b : Bundle) : Prop where
  room : RoomFor k b
  prev : ReadablePrevious b
  age : AtMostOne BUNDLE_AGE_BLOCK b

theorem Ready.copied {k : Nat} {host : EID} {t : Transfer} (h : Ready (k + 1) t.stored) (c : Copied host t) :
    Ready k t.out ∧ ∀ limit count, hopCount t.stored = some (limit, count) → hopCount t.out = some (limit, count + 1) := by
  have hp := c.passedOn
  have up := Net.copied_hopUp c
  have hops : ∀ limit count, hopCount t.stored = some (limit, count) → hopCount t.out = some (limit, count + 1) := by
    intro l x hc
    obtain ⟨h1, h2⟩ := h.room.2 l x hc
    obtain ⟨x', h3, -, h5⟩ := up l x h.room.1 hc
    rw [h3, h5 (by omega)]
  refine ⟨⟨⟨?_, ?_⟩, ?_, ?_⟩, hops⟩
  · have := h.room.1
    unfold AtMostOne at this ⊢
    rw [passed_count hp hop_ne_prev]; exact this
  · intro l x hx
    cases hc : hopCount t.stored with
    | none =>
      rw [c.hopCount h.room.1, hc] at hx; cases hx
    | some lk =>
      obtain ⟨l', x'⟩ := lk
      have := hops l' x' hc
      rw [hx] at this
      cases this
      have := h.room.2 l x' hc
      omega
  · intro _
    rw [c.previousNode]; simp
  · have := h.age
    unfold AtMostOne at this ⊢
    rw [passed_count hp age_ne_prev]; exact this

end Dtn.Proc
