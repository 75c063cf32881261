import Verif.Lemmas.ProcDispatch
/-! Forwarding, when nothing else happens on the node. -/

namespace Dtn.Proc
open Routing (Notification Answer)
open Spec (newEvents)

variable {Q : List Prog → Node → Prop} {n : Node}

/-- The pack `forward` works with. -/
def fwdPack (bp : Pack) : Pack := (bp.add .forwardPending).del .dispatchPending

theorem fwdPack_has (bp : Pack) : (fwdPack bp).has .forwardPending = true := by
  simp [fwdPack, Pack.has_add, Pack.has_del]

@[simp] theorem fwdPack_id (bp : Pack) : (fwdPack bp).id = bp.id := rfl

/-- What `forward` does once the router has answered. -/
def answered (bp : Pack) (k : Bool → Prog) : Option Answer → Prog
  | none => k false
  | some a =>
    if a.clas.isEmpty then
      if a.delete then .act (fun n => n.remove bp.id (.router bp a)) fun n => k (n.store.remove bp.id).2
      else k true
    else prepare bp a k

theorem alone_forward {bp : Pack} {k : Bool → Prog} (hknown : n.store.getMetadata bp.id ≠ none)
    (h : ∀ m a, Later (fun e => e = .asked (fwdPack bp) a) n m → .asked (fwdPack bp) a ∈ newEvents n m →
      m.store = (n.store.updateMetadata (fwdPack bp)).1 → Alone Q (answered (fwdPack bp) k a) m) :
    Alone Q (forward bp k) n := by
  unfold forward
  have hany : (fwdPack bp).hasAny = true := hasAny_of (fwdPack_has bp)
  refine alone_sync hany fun t ht => ?_
  have hok : ((n.at t).store.sync (fwdPack bp)).2 = true := sync_ok hany hknown
  have hp : (bp.add .forwardPending).del .dispatchPending = fwdPack bp := rfl
  rw [hp, hok]
  simp only [Bool.not_true, Bool.false_eq_true, if_false]
  refine .route fun t2 a ht2 => ?_
  have := h ((Node.at { n.at t with store := (n.store.updateMetadata (fwdPack bp)).1 } t2).log (.asked (fwdPack bp) a)) a
    (((((Later.time n ht).trans (.update _ _)).trans (.time _ ht2)).trans (Later.log _ _ rfl)))
    (by rw [newEvents_eq (es := [_]) rfl]; simp) rfl
  unfold answered at this
  exact this

/-- The router is asked about every bundle that is forwarded. -/
theorem forward_asks {bp : Pack} {m : Node} (i : Good n) (hknown : n.store.getMetadata bp.id ≠ none)
    (hr : Reaches .quiet ⟨n, [forward bp .done]⟩ ⟨m, []⟩) : ∃ a, .asked (fwdPack bp) a ∈ newEvents n m := by
  have h : Alone (fun _ m => n.events <+: m.events ∧ ∃ a, .asked (fwdPack bp) a ∈ newEvents n m) (forward bp .done) n :=
    alone_forward hknown fun m a hl he _ => .stop ⟨hl.past, a, he⟩
  obtain ⟨n', pool, ⟨hp, a, ha⟩, -, -, b2, -, -⟩ := h.run i
    (rg_forward Good.acts (fun _ _ _ => trivial) fun _ => rg_end (.inr ⟨_, rfl⟩)) hr
  exact ⟨a, newEvents_right hp b2.past ha⟩

/-! ### Bundles that are not sent -/

theorem lifetimeExceeded_of {now : Nat} {p : Primary} (h : Spec.LifetimeOver now p) : lifetimeExceeded now p = true := by
  unfold lifetimeExceeded
  rw [if_neg h.1, decide_eq_true_eq]
  exact Nat.le_trans (Nat.mod_le _ _) h.2

theorem LifetimeOver.mono {now now' : Nat} {p : Primary} (h : Spec.LifetimeOver now p) (hn : now ≤ now') :
    Spec.LifetimeOver now' p := ⟨h.1, Nat.le_trans h.2 hn⟩

theorem dtnNow_mono {n m : Node} (h : n.clock ≤ m.clock) : n.dtnNow ≤ m.dtnNow := Nat.sub_le_sub_right h _

theorem raiseHop_of {b : Bundle} {l k : Nat} (h : Spec.hopCount b = some (l, k)) (hlt : l < (k + 1) % 256) :
    (raiseHop b).2 = true := by
  unfold Spec.hopCount at h
  unfold raiseHop firstBlock
  cases hf : b.canonicals.find? fun c => c.btype = HOP_COUNT_BLOCK with
  | none => rw [hf] at h; simp at h
  | some c =>
    rw [hf] at h
    cases hd : c.data with
    | hopCount l' k' =>
      simp only [Option.bind_some, hd, Option.some.injEq, Prod.mk.injEq] at h
      obtain ⟨rfl, rfl⟩ := h
      simp only [hd]
      exact decide_eq_true hlt
    | _ => rw [Option.bind_some] at h; simp [hd] at h

/-- A bundle that must not be sent any more. -/
def Hopeless (n : Node) (b : Bundle) : Prop :=
  Spec.LifetimeOver n.dtnNow b.primary ∨ ∃ l k, Spec.hopCount b = some (l, k) ∧ l < (k + 1) % 256

theorem alone_prepare {bp : Pack} {a : Answer} {b : Bundle} {k : Bool → Prog} (hinv : n.store.Inv)
    (hb : n.store.getBundle bp.id = some b) (hover : Hopeless n b)
    (hk : ∀ ok m, Later (fun e => IsReport e ∨ ∃ c, e = .removed bp.id c) n m → m.store.getBundle bp.id = none →
      Alone Q (k ok) m) :
    Alone Q (prepare bp a k) n := by
  unfold prepare
  have hid : b.id = bp.id := hinv.bundleId _ _ hb
  refine alone_read fun t ht => ?_
  have hb' : (n.at t).store.getBundle bp.id = some b := hb
  rw [hb']
  dsimp only
  refine alone_read fun t2 ht2 => ?_
  have hl2 : ∀ {E}, Later E n ((n.at t).at t2) := fun {E} => (Later.time n ht).trans (.time _ ht2)
  have hdel : ∀ (b1 : Bundle) reason cause t3, t2 ≤ t3 → b1.primary = b.primary →
      Alone Q (delete (Pack.ofBundle (((n.at t).at t2).at t3).clock b1) reason cause fun _ => k false)
        (((n.at t).at t2).at t3) := by
    intro b1 reason cause t3 ht3 hp
    have hid1 : (Pack.ofBundle (((n.at t).at t2).at t3).clock b1).id = bp.id := by
      rw [Pack.id_ofBundle, ← hid]; exact congrArg Primary.bid hp
    refine alone_delete hinv (by simp) fun ok m hm hg => hk _ m ?_ (hid1 ▸ hg)
    refine (hl2.trans (Later.time _ ht3)).trans (hm.mono ?_)
    rintro e (h | h)
    · exact .inl h
    · exact .inr ⟨_, hid1 ▸ h⟩
  split
  · exact alone_read fun t3 ht3 => hdel b _ _ t3 ht3 rfl
  · rename_i hle
    have hh : (raiseHop b).2 = true := by
      rcases hover with h | ⟨l, k', h, hlt⟩
      · exact absurd (lifetimeExceeded_of (LifetimeOver.mono h (dtnNow_mono (hl2 (E := fun _ => True)).clock))) hle
      · exact raiseHop_of h hlt
    rw [hh]
    simp only [if_true]
    exact alone_read fun t3 ht3 => hdel _ _ _ t3 ht3 (raiseHop_primary b)

/-- What happens to a bundle that must not be sent any more. -/
theorem forward_hopeless {bp : Pack} {b : Bundle} {m : Node} (i : Good n) (hb : n.store.getBundle bp.id = some b)
    (hover : Hopeless n b) (hr : Reaches .quiet ⟨n, [forward bp .done]⟩ ⟨m, []⟩) :
    (∀ t, .sending t ∉ newEvents n m) ∧
    (m.store.getBundle bp.id = none ∨
      ∃ bp' a, .asked bp' a ∈ newEvents n m ∧ bp'.id = bp.id ∧ ∀ x, a = some x → x.clas = []) := by
  let E : Event → Prop := fun e => (∃ a, e = .asked (fwdPack bp) a) ∨ IsReport e ∨ ∃ c, e = .removed bp.id c
  have hE : ∀ t, ¬ E (.sending t) := by
    rintro t (⟨_, h⟩ | ⟨_, h⟩ | ⟨_, h⟩) <;> cases h
  have h : Alone (fun pool m => (∃ ok, pool = [.done ok]) ∧ Later E n m ∧ (m.store.getBundle bp.id = none ∨
      ∃ bp' a, .asked bp' a ∈ newEvents n m ∧ bp'.id = bp.id ∧ ∀ x, a = some x → x.clas = [])) (forward bp .done) n := by
    refine alone_forward (known_of_stored i.inv (by rw [hb]; simp)) fun m a hl he hs => ?_
    have hl' : Later E n m := hl.mono fun e h => .inl ⟨_, h⟩
    cases a with
    | none => exact .stop ⟨⟨_, rfl⟩, hl', .inr ⟨_, _, he, rfl, by simp⟩⟩
    | some a =>
      unfold answered
      dsimp only
      split
      · rename_i hc
        have hc' : ∀ x, some a = some x → x.clas = [] := by
          rintro x hx; cases hx; simpa using hc
        split
        · refine .act fun t ht => .stop ⟨⟨_, rfl⟩, (hl'.trans (.time _ ht)).trans (.remove _ _ _ ?_), .inl ?_⟩
          · exact .inr (.inr ⟨_, rfl⟩)
          · exact getBundle_remove_self (n := m.at t) (hl'.inv i.inv) _ _
        · exact .stop ⟨⟨_, rfl⟩, hl', .inr ⟨_, _, he, rfl, hc'⟩⟩
      · refine alone_prepare (hl'.inv i.inv) (b := b) ?_ ?_ ?_
        · rw [hs, MemStore.getBundle_update]; exact hb
        · rcases hover with h | h
          · exact .inl (LifetimeOver.mono h (dtnNow_mono hl'.clock))
          · exact .inr h
        · intro ok m' hm' hg
          exact .stop ⟨⟨_, rfl⟩, hl'.trans (hm'.mono fun e h => .inr h), .inl hg⟩
  obtain ⟨n', pool, ⟨⟨ok, rfl⟩, hl, hres⟩, hr', -, -, -, -⟩ := h.run i
    (rg_forward Good.acts (fun _ _ _ => trivial) fun _ => rg_end (.inr ⟨_, rfl⟩)) hr
  obtain ⟨t, ht, -⟩ := quiet_ended (.inr ⟨_, rfl⟩) hr'
  simp only at ht
  subst ht
  exact ⟨fun t ht => hE t (hl.all _ ht), hres⟩

/-! ### Transfers that fail -/

theorem mem_forwarding_iff {s : MemStore} (inv : s.Inv) (bid : String) :
    bid ∈ s.forwarding ↔ ∃ p, s.getMetadata bid = some p ∧ p.has .forwardPending = true := by
  unfold MemStore.forwarding MemStore.filter
  simp only [List.mem_map, List.mem_filter, List.all_cons, List.all_nil, Bool.and_true]
  constructor
  · rintro ⟨p, ⟨hp, hf⟩, rfl⟩
    exact ⟨p, (MemStore.mem_packs_iff inv p).mp hp, hf⟩
  · rintro ⟨p, hp, hf⟩
    have hid := inv.metaId _ _ hp
    exact ⟨p, ⟨(MemStore.mem_packs_iff inv p).mpr (hid ▸ hp), hf⟩, hid⟩

/-- A transfer has succeeded since `n0`. -/
def Success (n0 m : Node) : Prop := ∃ t, .outcome t true ∈ newEvents n0 m

/-- The bundle is stored and waits to be forwarded. -/
def Waiting (bid : String) (b : Bundle) (m : Node) : Prop :=
  m.store.getBundle bid = some b ∧ ∃ p, m.store.getMetadata bid = some p ∧ p.has .forwardPending = true

/-- While transfers are running: one has succeeded, or the bundle waits and the flag is not set. -/
def Trying (n0 : Node) (bid : String) (b : Bundle) (g : Nat) (m : Node) : Prop :=
  n0.events <+: m.events ∧ (Success n0 m ∨ (Waiting bid b m ∧ ∀ x : Group, m.groups[g]? = some x → x.sent = false))

theorem Success.mono {n0 m m' : Node} (h : Success n0 m) (h0 : n0.events <+: m.events) (hb : Base m m') : Success n0 m' := by
  obtain ⟨t, ht⟩ := h; exact ⟨t, newEvents_right h0 hb.past ht⟩

variable {n0 : Node} {bid : String} {b : Bundle} {g : Nat}

theorem Trying.of_success {m m' : Node} (h : Success n0 m) (h0 : n0.events <+: m.events) (hb : Base m m') :
    Trying n0 bid b g m' := ⟨h0.trans hb.past, .inl (h.mono h0 hb)⟩

/-- An action that touches neither the store nor the flags. -/
theorem Trying.step {m m' : Node} (h : Trying n0 bid b g m) (hb : Base m m') (hs : m'.store = m.store)
    (hg : ∀ x : Group, m'.groups[g]? = some x → ∃ y : Group, m.groups[g]? = some y ∧ x.sent = y.sent) :
    Trying n0 bid b g m' := by
  refine ⟨h.1.trans hb.past, ?_⟩
  rcases h.2 with h' | ⟨h1, h2⟩
  · exact .inl (h'.mono h.1 hb)
  · refine .inr ⟨by unfold Waiting; rw [hs]; exact h1, ?_⟩
    intro x hx
    obtain ⟨y, hy, he⟩ := hg x hx
    rw [he]; exact h2 y hy

/-- The invariant while transfers are running. -/
def Run (n0 : Node) (bid : String) (b : Bundle) (g : Nat) (m : Node) : Prop := Good m ∧ Trying n0 bid b g m

/-- After a success, tasks may do what they like. -/
theorem RG.afterSuccess {p : Prog} : ∀ {Q : Option Bool → Node → Prop} {n : Node}, RG Good Base p Q n →
    n0.events <+: n.events → Success n0 n → RG (Run n0 bid b g) Base p Q n := by
  induction p with
  | done ok => intro Q n h _ _ m gm i; exact h m gm i.1
  | panic => intro Q n h _ _ m gm i; exact h m gm i.1
  | act f k ih =>
    intro Q n h h0 hs m gm i
    obtain ⟨⟨h1, h2⟩, h3⟩ := h m gm i.1
    have hb := gm.trans h1
    exact ⟨⟨h1, h2, .of_success hs h0 hb⟩, ih m h3 (h0.trans hb.past) (hs.mono h0 hb)⟩
  | route bp k ih =>
    intro Q n h h0 hs m gm i a
    obtain ⟨⟨h1, h2⟩, h3⟩ := h m gm i.1 a
    have hb := gm.trans h1
    exact ⟨⟨h1, h2, .of_success hs h0 hb⟩, ih a h3 (h0.trans hb.past) (hs.mono h0 hb)⟩
  | choose k ih => intro Q n h h0 hs c; exact ih c (h c) h0 hs
  | fresh k ih => intro Q n h h0 hs c; exact ih c (h c) h0 hs
  | spawn t k iht ihk => intro Q n h h0 hs; exact ⟨iht h.1 h0 hs, ihk h.2 h0 hs⟩
  | wait c k ih =>
    intro Q n h h0 hs m gm i hc
    exact ih (h m gm i.1 hc) (h0.trans gm.past) (hs.mono h0 gm)

theorem rg_read_inv {I : Node → Prop} {Q : Option Bool → Node → Prop} {k : Node → Prog} {n m : Node}
    (h : RG I Base (.read k) Q n) (hb : Base n m) (i : I m) : RG I Base (k m) Q m := (h m hb i).2

theorem rg_spawn_inv {I : Node → Prop} {Q : Option Bool → Node → Prop} {t k : Prog} {n : Node}
    (h : RG I Base (.spawn t k) Q n) : RG I Base t (fun _ _ => True) n ∧ RG I Base k Q n := h

attribute [local irreducible] RG

theorem groups_endTask (n : Node) (g g' : Nat) (x : Group) (h : (n.endTask g').groups[g]? = some x) :
    ∃ y : Group, n.groups[g]? = some y ∧ x.sent = y.sent := by
  obtain ⟨y, hy, hx⟩ := (getElem?_modify_iff _ _ _ _ _).mp h
  refine ⟨y, hy, ?_⟩
  rw [hx]; split <;> rfl

theorem run_transferTask {t : Transfer} (hp : Prepared n.cfg.hostEid t) (hgr : InGroup n t) :
    RG (Run n0 bid b g) Base (transferTask bid t) (fun _ _ => True) n := by
  unfold transferTask
  have A := Good.acts
  apply rg_act
  · intro m gm i
    have hb : Base m (m.log (.sending t)) := Base.log _ _
    exact ⟨hb, A.sending _ _ i.1 (by rw [gm.cfg]; exact hp) (hgr.mono gm), i.2.step hb rfl fun x hx => ⟨x, hx, rfl⟩⟩
  intro m1 g1 i1 g1'
  have hsend := mem_log m1 (.sending t)
  apply rg_choose
  intro ok
  apply rg_act
  · intro m gm i
    have hb : Base m (m.log (.outcome t ok)) := Base.log _ _
    exact ⟨hb, A.outcome _ _ _ i.1 (gm.events _ hsend) ((hgr.mono g1').mono gm),
      i.2.step hb rfl fun x hx => ⟨x, hx, rfl⟩⟩
  intro m2 g2 i2 g2'
  have hout := mem_log m2 (.outcome t ok)
  cases ok with
  | false =>
    simp only [Bool.not_false, if_true]
    apply rg_act
    · intro m gm i; exact ⟨Base.stats _ _, A.stats _ _ i.1, i.2.step (Base.stats _ _) rfl fun x hx => ⟨x, hx, rfl⟩⟩
    intro m3 g3 i3 g3'
    split
    · apply rg_act
      · intro m gm i
        exact ⟨Base.endTask _ _, A.endTask _ _ i.1, i.2.step (Base.endTask _ _) rfl fun x hx => groups_endTask _ _ _ x hx⟩
      intro m4 g4 i4 g4'
      exact rg_panic fun _ _ _ => trivial
    · rename_i node _
      apply rg_act
      · intro m gm i; exact ⟨Base.log _ _, A.note _ _ i.1, i.2.step (Base.log _ _) rfl fun x hx => ⟨x, hx, rfl⟩⟩
      intro m4 g4 i4 g4'
      apply rg_act
      · intro m gm i; exact ⟨Base.peers _ _, A.peers _ _ i.1, i.2.step (Base.peers _ _) rfl fun x hx => ⟨x, hx, rfl⟩⟩
      intro m5 g5 i5 g5'
      apply rg_act
      · intro m gm i; exact ⟨Base.peers _ _, A.peers _ _ i.1, i.2.step (Base.peers _ _) rfl fun x hx => ⟨x, hx, rfl⟩⟩
      intro m6 g6 i6 g6'
      apply rg_act
      · intro m gm i
        exact ⟨Base.endTask _ _, A.endTask _ _ i.1, i.2.step (Base.endTask _ _) rfl fun x hx => groups_endTask _ _ _ x hx⟩
      intro m7 g7 i7 g7'
      exact rg_done fun _ _ _ => trivial
  | true =>
    simp only [Bool.not_true, Bool.false_eq_true, if_false]
    apply RG.afterSuccess
    · apply rg_set
      · intro m gm i; exact ⟨Base.stats _ _, A.stats _ _ i⟩
      apply rg_set
      · intro m gm i; exact ⟨Base.setSent _ _, A.setSent _ _ i (gm.events _ hout)⟩
      split
      · apply rg_set
        · intro m gm i; exact ⟨Base.endTask _ _, A.endTask _ _ i⟩
        exact rg_panic fun _ _ _ => trivial
      · apply rg_set
        · intro m gm i; exact ⟨Base.log _ _, A.note _ _ i⟩
        apply rg_set
        · intro m gm i; exact ⟨Base.endTask _ _, A.endTask _ _ i⟩
        exact rg_done fun _ _ _ => trivial
    · exact i2.2.1.trans (List.prefix_append _ _)
    · refine ⟨t, newEvents_left i2.2.1 (List.prefix_append _ _) ?_⟩
      rw [newEvents_eq (es := [_]) rfl]; simp

theorem run_afterTransfers {bp : Pack} {out stored : Bundle} {a : Answer}
    (hout : out.id = bp.id) (hid : stored.id = bp.id) (hask : Event.asked bp (some a) ∈ n.events)
    (hgr : ∃ x : Group, n.groups[g]? = some x ∧ x.stored = stored ∧ x.answer = a) :
    RG (Run n0 bid b g) Base (.wait (fun n => n.allEnded g) (afterTransfers bp out a g .done)) (fun _ _ => True) n := by
  apply rg_wait
  intro m gm i hc
  have good : RG Good Base (afterTransfers bp out a g .done) (fun _ _ => True) m := by
    obtain ⟨x, hx, h1, h2⟩ := hgr
    obtain ⟨y, hy, -, k2, k3, -⟩ := gm.groups _ _ hx
    exact rg_afterTransfers Good.acts hout hid (gm.events _ hask) ⟨y, hy, k2.trans h1, k3.trans h2⟩
      fun ok => rg_end (.inr ⟨_, rfl⟩)
  unfold afterTransfers at good ⊢
  apply rg_read
  intro m1 g1 i1
  have := rg_read_inv good g1 i1.1
  rcases i1.2.2 with hs | ⟨-, hs⟩
  · exact RG.afterSuccess this i1.2.1 hs
  · have hf : m1.isSent g = false := by
      unfold Node.isSent
      split
      · rename_i x hx; exact hs x hx
      · rfl
    rw [hf]
    exact rg_done fun _ _ _ => trivial

theorem run_spawnTransfers {mk : Sender → Transfer} {k : Prog} (ss : List Sender)
    (ht : ∀ s ∈ ss, Prepared n.cfg.hostEid (mk s) ∧ InGroup n (mk s))
    (hk : RG (Run n0 bid b g) Base k (fun _ _ => True) n) :
    RG (Run n0 bid b g) Base (spawnTransfers bid mk ss k) (fun _ _ => True) n := by
  induction ss with
  | nil => exact hk
  | cons s ss ih =>
    refine rg_spawn ?_ (ih fun x hx => ht x (by simp [hx]))
    exact run_transferTask (ht s (by simp)).1 (ht s (by simp)).2

/-- The preparation of a bundle, all cases. -/
theorem alone_prepare_all {bp : Pack} {a : Answer} {b : Bundle} {k : Bool → Prog} (hinv : n.store.Inv)
    (hb : n.store.getBundle bp.id = some b)
    (hdel : ∀ ok m c, ((∃ b now, c = .lifetime b now) ∨ (∃ b, c = .hops b) ∨ ∃ b age, c = .age b age) →
      Later (IsReportOr bp.id c) n m → m.store.getBundle bp.id = none → Alone Q (k ok) m)
    (hpanic : ∀ m, Later (fun _ => False) n m → m.store = n.store → Alone Q .panic m)
    (hsend : ∀ m out c ag r, Later (fun _ => False) n m → m.store = n.store → m.groups = n.groups →
      out.id = bp.id → (∀ g s, Prepared n.cfg.hostEid ⟨g, b, out, s, c, ag, r⟩) →
      Alone Q (sendAll bp b out a c ag r k) m) :
    Alone Q (prepare bp a k) n := by
  unfold prepare
  have hid : b.id = bp.id := hinv.bundleId _ _ hb
  refine alone_read fun t ht => ?_
  have hb' : (n.at t).store.getBundle bp.id = some b := hb
  rw [hb']
  dsimp only
  refine alone_read fun t2 ht2 => ?_
  have hl2 : ∀ {E}, Later E n ((n.at t).at t2) := fun {E} => (Later.time n ht).trans (.time _ ht2)
  have hdel' : ∀ (b1 : Bundle) reason c t3, t2 ≤ t3 → b1.primary = b.primary →
      ((∃ b now, c = .lifetime b now) ∨ (∃ b, c = .hops b) ∨ ∃ b age, c = .age b age) →
      Alone Q (delete (Pack.ofBundle (n.at t3).clock b1) reason c fun _ => k false) (n.at t3) := by
    intro b1 reason c t3 ht3 hp hc
    have hid1 : (Pack.ofBundle (n.at t3).clock b1).id = bp.id := by
      rw [Pack.id_ofBundle, ← hid]; exact congrArg Primary.bid hp
    refine alone_delete hinv (by simp) fun ok m hm hg => hdel _ m c hc ?_ (hid1 ▸ hg)
    rw [hid1] at hm
    exact (Later.time n (Nat.le_trans ht (Nat.le_trans ht2 ht3))).trans hm
  split
  · exact alone_read fun t3 ht3 => hdel' b _ _ t3 ht3 rfl (.inl ⟨_, _, rfl⟩)
  · rename_i hle
    split
    · exact alone_read fun t3 ht3 => hdel' _ _ _ t3 ht3 (raiseHop_primary b) (.inr (.inl ⟨_, rfl⟩))
    · rename_i hh
      refine alone_read fun t3 ht3 => ?_
      have hl3 : ∀ {E}, Later E n (((n.at t).at t2).at t3) := fun {E} => hl2.trans (.time _ ht3)
      split
      · exact hpanic _ hl3 rfl
      · rename_i b2 hb2
        refine alone_read fun t4 ht4 => ?_
        have hp2 : b2.primary = b.primary := (setPrevious_primary hb2).trans (raiseHop_primary b)
        split
        · refine alone_read fun t5 ht5 => hdel' _ _ _ t5 (Nat.le_trans ht3 (Nat.le_trans ht4 ht5)) ?_ (.inr (.inr ⟨_, _, rfl⟩))
          exact (raiseAge_primary _ _ _).trans hp2
        · rename_i ho
          refine hsend _ _ _ _ _ (hl3.trans (.time _ ht4)) rfl rfl ?_ ?_
          · rw [← hid]; exact congrArg Primary.bid ((raiseAge_primary _ _ _).trans hp2)
          · intro g s
            refine ⟨⟨eq_false_of_ne_true hle, by simpa using hh, b2, hb2, rfl, by simpa using ho⟩, ?_⟩
            have hm := hinv.hasMeta bp.id b hb
            obtain ⟨p, hp⟩ := hm
            show Option.map Pack.receivedTime (n.store.getMetadata b.id) ≠ none
            rw [hid, hp]; simp

theorem quiet_run {n m : Node} {pool : List Prog} (i : Run n0 bid b g n)
    (hp : ∀ p ∈ pool, RG (Run n0 bid b g) Base p (fun _ _ => True) n) (hr : Reaches .quiet ⟨n, pool⟩ ⟨m, []⟩) :
    Run n0 bid b g m := by
  have := RG.reaches (I := Run n0 bid b g) (G := Base) Base.refl (fun _ _ _ => Base.trans) (w := .quiet)
    (fun c h => h.elim)
    (fun n m h i => by
      obtain ⟨t, -, rfl⟩ := h
      have hb : Base n { n with clock := t } := Base.outside (.clock _ _)
      exact ⟨hb, Good.outside (.clock _ _) i.1, i.2.step hb rfl fun x hx => ⟨x, hx, rfl⟩⟩) hr i hp
  exact this.2.1

/-- The ways in which forwarding a stored bundle can end. -/
theorem forward_ends {bp : Pack} {m : Node} (i : Good n) (hb : n.store.getBundle bp.id = some b)
    (hr : Reaches .quiet ⟨n, [forward bp .done]⟩ ⟨m, []⟩) :
    Success n m ∨ (m.store.getBundle bp.id = some b ∧ bp.id ∈ m.store.forwarding) ∨
    ∃ c, .removed bp.id c ∈ newEvents n m ∧ ((∃ b now, c = .lifetime b now) ∨ (∃ b, c = .hops b) ∨
      (∃ b age, c = .age b age) ∨ ∃ bp' a, c = .router bp' a ∧ a.clas = [] ∧ a.delete = true ∧
        .asked bp' (some a) ∈ newEvents n m) := by
  let Gone : Node → Prop := fun m => m.store.getBundle bp.id = none ∧
    ∀ c, .removed bp.id c ∈ newEvents n m → ((∃ b now, c = .lifetime b now) ∨ (∃ b, c = .hops b) ∨
      (∃ b age, c = .age b age) ∨ ∃ bp' a, c = .router bp' a ∧ a.clas = [] ∧ a.delete = true ∧
        .asked bp' (some a) ∈ newEvents n m)
  have h : Alone (fun pool m => n.events <+: m.events ∧
      (((pool = [.panic] ∨ ∃ ok, pool = [.done ok]) ∧ (Gone m ∨ Waiting bp.id b m)) ∨
       ∃ g, Trying n bp.id b g m ∧ ∀ p ∈ pool, RG (Run n bp.id b g) Base p (fun _ _ => True) m)) (forward bp .done) n := by
    have hknown := known_of_stored i.inv (bid := bp.id) (by rw [hb]; simp)
    refine alone_forward hknown fun m a hl he hs => ?_
    have hw : ∀ m' : Node, m'.store = m.store → Waiting bp.id b m' := by
      intro m' h'
      unfold Waiting
      rw [h', hs, MemStore.getBundle_update, MemStore.getMetadata_update]
      refine ⟨hb, fwdPack bp, ?_, fwdPack_has bp⟩
      simp [hknown]
    cases a with
    | none => exact .stop ⟨hl.past, .inl ⟨.inr ⟨_, rfl⟩, .inr (hw m rfl)⟩⟩
    | some a =>
      unfold answered
      dsimp only
      split
      · rename_i hc
        have hc' : a.clas = [] := by simpa using hc
        split
        · rename_i hd
          refine .act fun t ht => ?_
          have hl' : Later (fun e => e = .removed bp.id (.router (fwdPack bp) a)) m
              ((m.at t).remove (fwdPack bp).id (.router (fwdPack bp) a)) :=
            (Later.time m ht).trans (.remove _ _ _ rfl)
          refine .stop ⟨hl.past.trans hl'.past, .inl ⟨.inr ⟨_, rfl⟩, .inl ⟨getBundle_remove_self (n := m.at t) (hl.inv i.inv) _ _, ?_⟩⟩⟩
          intro c hc
          have h1 := newEvents_of_prefix hl.past
          have h2 := newEvents_of_prefix hl'.past
          rw [newEvents_eq (es := newEvents n m ++ newEvents m _) (by rw [h2, h1, List.append_assoc])] at hc
          rcases List.mem_append.mp hc with hc | hc
          · have := hl.all _ hc; cases this
          · have := hl'.all _ hc
            cases this
            exact .inr (.inr (.inr ⟨_, a, rfl, hc', hd, newEvents_right hl.past hl'.past he⟩))
        · exact .stop ⟨hl.past, .inl ⟨.inr ⟨_, rfl⟩, .inr (hw m rfl)⟩⟩
      · rename_i hc
        refine alone_prepare_all (hl.inv i.inv) (b := b) (hw m rfl).1 ?_ ?_ ?_
        · intro ok m' c hcause hm' hg
          refine .stop ⟨hl.past.trans hm'.past, .inl ⟨.inr ⟨_, rfl⟩, .inl ⟨hg, ?_⟩⟩⟩
          intro c' hc'
          have h1 := newEvents_of_prefix hl.past
          have h2 := newEvents_of_prefix hm'.past
          rw [newEvents_eq (es := newEvents n m ++ newEvents m m') (by rw [h2, h1, List.append_assoc])] at hc'
          rcases List.mem_append.mp hc' with hc' | hc'
          · have := hl.all _ hc'; cases this
          · rcases hm'.all _ hc' with ⟨r, h⟩ | h
            · cases h
            · cases h
              rcases hcause with h | h | h
              · exact .inl h
              · exact .inr (.inl h)
              · exact .inr (.inr (.inl h))
        · intro m' hm' hs'
          exact .stop ⟨hl.past.trans hm'.past, .inl ⟨.inl rfl, .inr (hw m' hs')⟩⟩
        · intro m' out c ag r hm' hs' hgr hout hprep
          unfold sendAll
          refine .act fun t ht => ?_
          dsimp only
          generalize hm1 : (m'.at t).newGroup (fwdPack bp) b a = m1
          have hmk : m1.groups = m'.groups ++ [{ running := a.clas.length, pack := fwdPack bp, stored := b, answer := a }] := by
            rw [← hm1]; rfl
          have hev : m1.events = m'.events := by rw [← hm1]; rfl
          have hcfg : m1.cfg = m.cfg := by rw [← hm1]; exact hm'.cfg
          have hst : m1.store = m'.store := by rw [← hm1]; rfl
          have hx : m1.groups[m'.groups.length]? =
              some { running := a.clas.length, pack := fwdPack bp, stored := b, answer := a } := by
            rw [hmk]; simp
          have hpast : n.events <+: m1.events := by rw [hev]; exact hl.past.trans hm'.past
          have htry : Trying n bp.id b m'.groups.length m1 := by
            refine ⟨hpast, .inr ⟨hw m1 (hst.trans hs'), ?_⟩⟩
            intro x hx'
            rw [hx] at hx'; cases hx'; rfl
          have hask : Event.asked (fwdPack bp) (some a) ∈ m1.events := by
            rw [hev, newEvents_of_prefix (hl.past.trans hm'.past)]
            exact List.mem_append_right _ (newEvents_right hl.past hm'.past he)
          have hid : b.id = (fwdPack bp).id := (hl.inv i.inv).bundleId _ _ (hw m rfl).1
          have hlen : (m'.at t).groups.length = m'.groups.length := rfl
          rw [hlen]
          obtain ⟨s, ss, hss⟩ : ∃ s ss, a.clas = s :: ss := by
            cases h : a.clas with
            | nil => simp [h] at hc
            | cons s ss => exact ⟨s, ss, rfl⟩
          have hrun := run_spawnTransfers (n := m1) (n0 := n) (bid := bp.id) (b := b) (g := m'.groups.length)
            (mk := fun s => ⟨m'.groups.length, b, out, s, c, ag, r⟩) a.clas
            (k := .wait (fun n => n.allEnded m'.groups.length) (afterTransfers (fwdPack bp) out a m'.groups.length .done))
            (fun s hs => ⟨by rw [hcfg]; exact hprep _ _, _, hx, rfl, hs⟩)
            (run_afterTransfers hout hid hask ⟨_, hx, rfl, rfl⟩)
          rw [hss] at hrun ⊢
          refine .spawn ⟨hpast, .inr ⟨m'.groups.length, htry, ?_⟩⟩
          intro p hp
          simp only [List.mem_cons, List.not_mem_nil, or_false] at hp
          rcases hp with rfl | rfl
          · exact (rg_spawn_inv hrun).2
          · exact (rg_spawn_inv hrun).1
  obtain ⟨n', pool, ⟨hpast, hQ⟩, hr', b1, b2, i1, i2⟩ := h.run i
    (rg_forward Good.acts (fun _ _ _ => trivial) fun _ => rg_end (.inr ⟨_, rfl⟩)) hr
  rcases hQ with ⟨hpool, hres⟩ | ⟨g, htry, hrg⟩
  · have hm : ∃ t, m = n'.at t := by
      rcases hpool with rfl | ⟨ok, rfl⟩
      · obtain ⟨t, ht, -⟩ := quiet_ended (.inl rfl) hr'; exact ⟨t, ht⟩
      · obtain ⟨t, ht, -⟩ := quiet_ended (.inr ⟨_, rfl⟩) hr'; exact ⟨t, ht⟩
    obtain ⟨t, rfl⟩ := hm
    rcases hres with ⟨hg, hcause⟩ | hw
    · right; right
      rcases b1.kept bp.id (by rw [hb]; simp) with h | ⟨c, hc⟩
      · exact absurd hg h
      · exact ⟨c, hc, hcause c hc⟩
    · right; left
      exact ⟨hw.1, (mem_forwarding_iff i2.inv _).mpr hw.2⟩
  · have := quiet_run ⟨i1, htry⟩ hrg hr'
    rcases this.2.2 with h | ⟨hw, -⟩
    · exact .inl h
    · exact .inr (.inl ⟨hw.1, (mem_forwarding_iff i2.inv _).mpr hw.2⟩)

end Dtn.Proc
