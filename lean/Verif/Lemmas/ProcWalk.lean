import Verif.Lemmas.ProcLogic
import Verif.Lemmas.Agents
import Verif.Spec.Processing
/-! One walk through all programs of the processing model: which actions they can make, and in which circumstances. -/

namespace Dtn.Proc
open Routing (Notification Answer)
open Spec (Justified Permitted AsksFor HasRecord Carries UnknownBlock)

theorem lifetimeExceeded_iff {now : Nat} {p : Primary} :
    lifetimeExceeded now p = true ↔ p.creationTime ≠ 0 ∧ (p.creationTime + p.lifetime) % 2 ^ 64 ≤ now := by
  unfold lifetimeExceeded u64
  by_cases h : p.creationTime = 0 <;> simp [h]

theorem hasExpired_iff {now : Nat} {p : Pack} :
    p.hasExpired now = true ↔ p.lifetime ≠ 0 ∧ (p.creationTime + p.lifetime) % 2 ^ 64 < now := by
  unfold Pack.hasExpired u64
  by_cases h : p.lifetime = 0 <;> simp [h]

/-- What every action of every task guarantees. -/
structure Base (n m : Node) : Prop where
  cfg : m.cfg = n.cfg
  past : n.events <+: m.events
  known : ∀ bid, n.store.getMetadata bid ≠ none → m.store.getMetadata bid ≠ none
  kept : ∀ bid, n.store.getBundle bid ≠ none → m.store.getBundle bid ≠ none ∨ ∃ c, .removed bid c ∈ Spec.newEvents n m
  groups : ∀ (g : Nat) (x : Group), n.groups[g]? = some x →
    ∃ y : Group, m.groups[g]? = some y ∧ y.pack = x.pack ∧ y.stored = x.stored ∧ y.answer = x.answer ∧
      (x.sent = true → y.sent = true)

theorem Base.events {n m : Node} (h : Base n m) (e : Event) (he : e ∈ n.events) : e ∈ m.events :=
  h.past.subset he

theorem newEvents_eq {n m : Node} {es : List Event} (h : m.events = n.events ++ es) : Spec.newEvents n m = es := by
  simp [Spec.newEvents, h]

theorem newEvents_of_prefix {n m : Node} (h : n.events <+: m.events) : m.events = n.events ++ Spec.newEvents n m := by
  obtain ⟨es, h⟩ := h
  rw [newEvents_eq h.symm, h]

theorem newEvents_left {n m k : Node} (h : n.events <+: m.events) (h' : m.events <+: k.events) {e : Event}
    (he : e ∈ Spec.newEvents m k) : e ∈ Spec.newEvents n k := by
  obtain ⟨es, h⟩ := h; obtain ⟨es', h'⟩ := h'
  rw [newEvents_eq h'.symm] at he
  rw [newEvents_eq (es := es ++ es') (by rw [← h', ← h, List.append_assoc])]
  exact List.mem_append_right _ he

theorem newEvents_right {n m k : Node} (h : n.events <+: m.events) (h' : m.events <+: k.events) {e : Event}
    (he : e ∈ Spec.newEvents n m) : e ∈ Spec.newEvents n k := by
  obtain ⟨es, h⟩ := h; obtain ⟨es', h'⟩ := h'
  rw [newEvents_eq h.symm] at he
  rw [newEvents_eq (es := es ++ es') (by rw [← h', ← h, List.append_assoc])]
  exact List.mem_append_left _ he

theorem Base.refl (n : Node) : Base n n :=
  ⟨rfl, List.prefix_rfl, fun _ h => h, fun _ h => .inl h, fun _ x h => ⟨x, h, rfl, rfl, rfl, id⟩⟩

theorem Base.trans {a b c : Node} (h : Base a b) (k : Base b c) : Base a c := by
  refine ⟨k.cfg.trans h.cfg, h.past.trans k.past, fun bid hb => k.known bid (h.known bid hb), ?_, ?_⟩
  · intro bid hb
    rcases h.kept bid hb with hb | ⟨c, hc⟩
    · rcases k.kept bid hb with hb | ⟨c, hc⟩
      · exact .inl hb
      · exact .inr ⟨c, newEvents_left h.past k.past hc⟩
    · exact .inr ⟨c, newEvents_right h.past k.past hc⟩
  intro g x hx
  obtain ⟨y, hy, h1, h2, h3, h4⟩ := h.groups g x hx
  obtain ⟨z, hz, k1, k2, k3, k4⟩ := k.groups g y hy
  exact ⟨z, hz, k1.trans h1, k2.trans h2, k3.trans h3, fun h => k4 (h4 h)⟩

theorem getElem?_modify_iff {α : Type} (l : List α) (g i : Nat) (f : α → α) (x : α) :
    (l.modify g f)[i]? = some x ↔ ∃ y, l[i]? = some y ∧ x = if g = i then f y else y := by
  rw [List.getElem?_modify]
  cases l[i]? with
  | none => simp
  | some y => simp [eq_comm]

namespace Base

theorem store (n : Node) (s : MemStore) (h : ∀ bid, n.store.getMetadata bid ≠ none → s.getMetadata bid ≠ none)
    (hb : ∀ bid, n.store.getBundle bid ≠ none → s.getBundle bid ≠ none) :
    Base n { n with store := s } :=
  ⟨rfl, List.prefix_rfl, h, fun bid h => .inl (hb bid h), fun _ x hx => ⟨x, hx, rfl, rfl, rfl, id⟩⟩

theorem log (n : Node) (e : Event) : Base n (n.log e) :=
  ⟨rfl, List.prefix_append _ _, fun _ h => h, fun _ h => .inl h, fun _ x hx => ⟨x, hx, rfl, rfl, rfl, id⟩⟩

theorem known_push (s : MemStore) (now b bid) (h : s.getMetadata bid ≠ none) :
    (s.push now b).getMetadata bid ≠ none := by
  rw [MemStore.getMetadata_push]; split <;> simp_all

theorem known_update (s : MemStore) (bp bid) (h : s.getMetadata bid ≠ none) :
    (s.updateMetadata bp).1.getMetadata bid ≠ none := by
  rw [MemStore.getMetadata_update]; split <;> simp_all

theorem known_remove (s : MemStore) (inv : MemStore.Inv s) (j bid) (h : s.getMetadata bid ≠ none) :
    (s.remove j).1.getMetadata bid ≠ none := by
  rw [MemStore.getMetadata_remove inv]; split
  · rename_i hj; subst hj; simpa using h
  · exact h

theorem stored_push (s : MemStore) (now b bid) (h : s.getBundle bid ≠ none) : (s.push now b).getBundle bid ≠ none := by
  rw [MemStore.getBundle_push]; split
  · simp
  · exact h

theorem push (n : Node) (b) : Base n (n.push b) :=
  store _ _ (fun _ => known_push _ _ _ _) fun _ => stored_push _ _ _ _

theorem addIfUnknown (n : Node) (b) : Base n (n.addIfUnknown b) := by
  have h : Base n { n with store := (n.store.addIfUnknown n.clock b).1 } := by
    apply store <;> intro bid hb <;> unfold MemStore.addIfUnknown <;> split
    · exact known_push _ _ _ _ hb
    · exact hb
    · exact stored_push _ _ _ _ hb
    · exact hb
  unfold Node.addIfUnknown; split <;> exact h.trans (log _ _)

theorem remove (n : Node) (inv : n.store.Inv) (bid c) : Base n (n.remove bid c) := by
  have hs : ∀ j, j ≠ bid → n.store.getBundle j ≠ none → (n.store.remove bid).1.getBundle j ≠ none := by
    intro j hj hb
    rw [MemStore.getBundle_remove inv, if_neg hj]; exact hb
  unfold Node.remove; split
  · refine ⟨rfl, List.prefix_append _ _, fun _ => known_remove _ inv _ _, ?_, fun _ x hx => ⟨x, hx, rfl, rfl, rfl, id⟩⟩
    intro j hb
    by_cases hj : j = bid
    · right
      refine ⟨c, ?_⟩
      rw [newEvents_eq (es := [.removed bid c]) rfl, hj]; simp
    · exact .inl (hs j hj hb)
  · rename_i hf
    refine store _ _ (fun _ => known_remove _ inv _ _) ?_
    intro j hb
    by_cases hj : j = bid
    · subst hj
      exact absurd ((MemStore.remove_ok inv j).mpr hb) hf
    · exact hs j hj hb

theorem update (n : Node) (bp) : Base n { n with store := (n.store.updateMetadata bp).1 } :=
  store _ _ (fun _ => known_update _ _ _) fun _ h => by rw [MemStore.getBundle_update]; exact h

theorem deliver (n : Node) (e b r) : Base n (n.deliver e b r) := by
  unfold Node.deliver; split
  · exact refl n
  · exact ⟨rfl, List.prefix_append _ _, fun _ h => h, fun _ h => .inl h, fun _ x hx => ⟨x, hx, rfl, rfl, rfl, id⟩⟩

theorem popAgent (n : Node) (e) : Base n (n.popAgent e) := by
  unfold Node.popAgent; split
  · exact refl n
  · split
    · exact refl n
    · exact ⟨rfl, List.prefix_append _ _, fun _ h => h, fun _ h => .inl h, fun _ x hx => ⟨x, hx, rfl, rfl, rfl, id⟩⟩

theorem newGroup (n : Node) (bp b a) : Base n (n.newGroup bp b a) := by
  refine ⟨rfl, List.prefix_rfl, fun _ h => h, fun _ h => .inl h, ?_⟩
  intro g x hx
  refine ⟨x, ?_, rfl, rfl, rfl, id⟩
  have hl : g < n.groups.length := (List.getElem?_eq_some_iff.mp hx).1
  simp only [Node.newGroup]
  rw [List.getElem?_append_left hl]; exact hx

theorem endTask (n : Node) (g) : Base n (n.endTask g) := by
  refine ⟨rfl, List.prefix_rfl, fun _ h => h, fun _ h => .inl h, ?_⟩
  intro i x hx
  refine ⟨_, (getElem?_modify_iff _ _ _ _ _).mpr ⟨x, hx, rfl⟩, ?_⟩
  split <;> simp

theorem setSent (n : Node) (g) : Base n (n.setSent g) := by
  refine ⟨rfl, List.prefix_rfl, fun _ h => h, fun _ h => .inl h, ?_⟩
  intro i x hx
  refine ⟨_, (getElem?_modify_iff _ _ _ _ _).mpr ⟨x, hx, rfl⟩, ?_⟩
  split <;> simp

theorem stats (n : Node) (st) : Base n { n with stats := st } :=
  ⟨rfl, List.prefix_rfl, fun _ h => h, fun _ h => .inl h, fun _ x hx => ⟨x, hx, rfl, rfl, rfl, id⟩⟩

theorem peers (n : Node) (ps) : Base n { n with peers := ps } :=
  ⟨rfl, List.prefix_rfl, fun _ h => h, fun _ h => .inl h, fun _ x hx => ⟨x, hx, rfl, rfl, rfl, id⟩⟩

theorem outside {n m : Node} (h : Outside n m) : Base n m := by
  cases h <;> exact ⟨rfl, List.prefix_rfl, fun _ h => h, fun _ h => .inl h, fun _ x hx => ⟨x, hx, rfl, rfl, rfl, id⟩⟩

end Base

/-- How the copy that is sent was made from the stored bundle. -/
structure Copied (host : EID) (t : Transfer) : Prop where
  alive : lifetimeExceeded (t.checkedAt - 946684800000) t.stored.primary = false
  hops : (raiseHop t.stored).2 = false
  made : ∃ b2, setPrevious host (raiseHop t.stored).1 = some b2 ∧ t.out = (raiseAge t.agedAt t.receivedAt b2).1 ∧
    tooOld t.out (raiseAge t.agedAt t.receivedAt b2).2 = false

/-- The same, for a bundle with metadata. -/
structure Prepared (host : EID) (t : Transfer) : Prop extends Copied host t where
  received : t.receivedAt ≠ none

/-- The transfer belongs to a `forward` call known to the node. -/
def InGroup (n : Node) (t : Transfer) : Prop :=
  ∃ x : Group, n.groups[t.group]? = some x ∧ x.stored = t.stored ∧ t.to ∈ x.answer.clas

theorem InGroup.mono {n m : Node} {t : Transfer} (h : InGroup n t) (b : Base n m) : InGroup m t := by
  obtain ⟨x, hx, h1, h2⟩ := h
  obtain ⟨y, hy, -, k2, k3, -⟩ := b.groups _ _ hx
  exact ⟨y, hy, k2.trans h1, by rw [k3]; exact h2⟩

/-- An invariant kept by all actions the programs make. -/
structure Acts (I : Node → Prop) : Prop where
  inv : ∀ n, I n → n.store.Inv
  push : ∀ n b, I n → I (n.push b)
  accept : ∀ n b, I n → I (n.addIfUnknown b)
  remove : ∀ n bid c, I n → Justified n.events n.cfg bid c → I (n.remove bid c)
  update : ∀ n bp, I n → I { n with store := (n.store.updateMetadata bp).1 }
  deliver : ∀ n e b r, I n → I (n.deliver e b r)
  pop : ∀ n e, I n → I (n.popAgent e)
  group : ∀ n bp b a, I n → b.id = bp.id → Event.asked bp (some a) ∈ n.events → I (n.newGroup bp b a)
  endTask : ∀ n g, I n → I (n.endTask g)
  setSent : ∀ n t, I n → Event.outcome t true ∈ n.events → I (n.setSent t.group)
  stats : ∀ n st, I n → I { n with stats := st }
  peers : ∀ n ps, I n → I { n with peers := ps }
  called : ∀ n c, I n → I (n.log (.called c))
  note : ∀ n x, I n → I (n.log (.note x))
  asked : ∀ n bp a, I n → I (n.log (.asked bp a))
  sending : ∀ n t, I n → Prepared n.cfg.hostEid t → InGroup n t → I (n.log (.sending t))
  outcome : ∀ n t ok, I n → Event.sending t ∈ n.events → InGroup n t → I (n.log (.outcome t ok))
  report : ∀ n r, I n → Permitted n.cfg r → I ((n.push r.report).log (.report r))
  /-- the flag of a group tells the truth -/
  sent : ∀ n g, I n → n.isSent g = true → ∃ (x : Group) (t : Transfer), n.groups[g]? = some x ∧ Event.outcome t true ∈ n.events ∧
    t.stored = x.stored ∧ t.to ∈ x.answer.clas

variable {I : Node → Prop} {Q : Option Bool → Node → Prop} {n : Node}

theorem rg_read {k : Node → Prog} (h : ∀ m, Base n m → I m → RG I Base (k m) Q m) : RG I Base (.read k) Q n :=
  fun m g i => ⟨⟨Base.refl _, i⟩, h m g i⟩

theorem rg_act {f : Node → Node} {k : Node → Prog} (h : ∀ m, Base n m → I m → Base m (f m) ∧ I (f m))
    (hk : ∀ m, Base n m → I m → Base n (f m) → RG I Base (k m) Q (f m)) : RG I Base (.act f k) Q n :=
  fun m g i => ⟨h m g i, hk m g i (g.trans (h m g i).1)⟩

theorem rg_set {f : Node → Node} {k : Prog} (h : ∀ m, Base n m → I m → Base m (f m) ∧ I (f m))
    (hk : RG I Base k Q n) : RG I Base (.set f k) Q n :=
  rg_act h fun _ _ _ g => RG.mono (G := Base) (fun _ _ _ => Base.trans) hk g

theorem rg_mono {m : Node} {p : Prog} (h : RG I Base p Q n) (g : Base n m) : RG I Base p Q m :=
  RG.mono (G := Base) (fun _ _ _ => Base.trans) h g

theorem rg_choose {k : Bool → Prog} (h : ∀ b, RG I Base (k b) Q n) : RG I Base (.choose k) Q n := h

theorem rg_fresh {k : String → Prog} (h : ∀ b, RG I Base (k b) Q n) : RG I Base (.fresh k) Q n := h

theorem rg_spawn {t k : Prog} (ht : RG I Base t (fun _ _ => True) n) (h : RG I Base k Q n) :
    RG I Base (.spawn t k) Q n := ⟨ht, h⟩

theorem rg_wait {c : Node → Bool} {k : Prog} (h : ∀ m, Base n m → I m → c m = true → RG I Base k Q m) :
    RG I Base (.wait c k) Q n := h

theorem rg_route {bp : Pack} {k : Option Answer → Prog} (h : ∀ m a, Base n m → I m → I (m.log (.asked bp a)))
    (hk : ∀ m a, Base n m → I m → RG I Base (k a) Q (m.log (.asked bp a))) : RG I Base (.route bp k) Q n :=
  fun m g i a => ⟨⟨Base.log _ _, h m a g i⟩, hk m a g i⟩

theorem rg_done {ok : Bool} (h : ∀ m, Base n m → I m → Q (some ok) m) : RG I Base (.done ok) Q n := h

theorem rg_panic (h : ∀ m, Base n m → I m → Q none m) : RG I Base .panic Q n := h

theorem rg_end {p : Prog} (h : p = .panic ∨ ∃ ok, p = .done ok) : RG I Base p (fun _ _ => True) n := by
  rcases h with rfl | ⟨ok, rfl⟩
  · exact fun _ _ _ => trivial
  · exact fun _ _ _ => trivial

attribute [local irreducible] RG

theorem eids_has (r : Registry) (e : EID) : r.has e = false → e ∉ r.eids := by
  intro h hm; rw [(Registry.has_iff r e).mpr hm] at h; cases h

theorem rg_sendReport (A : Acts I) {bp : Pack} {cause : Bundle} {pos : Pos} {reason : Reason} {k : Prog}
    (hc : cause.id = bp.id) (hask : AsksFor cause pos reason)
    (hadm : reason ≠ .blockUnintelligible ∨ pos ≠ .received → cause.isAdmin = false)
    (hcfg : n.cfg.statusReports = true) (hk : RG I Base k Q n) :
    RG I Base (sendReport bp cause pos reason k) Q n := by
  unfold sendReport
  split
  · exact hk
  · rename_i hb
    simp only [Bool.or_eq_true, decide_eq_true_eq, not_or, Bool.not_eq_true] at hb
    apply rg_read
    intro m1 g1 i1
    split
    · exact rg_mono hk g1
    · rename_i subject hs
      have hsid := (A.inv _ i1).bundleId _ _ hs
      apply rg_read
      intro m2 g2 i2
      have g02 := g1.trans g2
      split
      · exact rg_mono hk g02
      · rename_i hnl
        apply rg_fresh
        intro bid
        apply rg_act
        · intro m3 g3 i3
          refine ⟨(Base.push m3 _).trans (Base.log _ _), ?_⟩
          refine A.report m3 (Report.mk bp cause m2.agents.eids subject (mkReport m3 subject bid pos) pos reason) i3 ?_
          exact ⟨by rw [(g02.trans g3).cfg]; exact hcfg, hb.1, hadm, hb.2,
            eids_has _ _ (by simpa using hnl), hask, hc, hsid, rfl, rfl, rfl⟩
        · intro m3 g3 i3 g3'
          apply rg_set
          · intro m4 g4 i4
            have hany : ((Pack.ofBundle m3.clock (mkReport m3 subject bid pos)).add .forwardPending).hasAny = true :=
              (Pack.hasAny_iff _).mpr ⟨.forwardPending, by simp [Pack.has_add]⟩
            simp only [Node.sync, hany, Bool.not_true, Bool.false_eq_true, if_false]
            exact ⟨Base.update _ _, A.update _ _ i4⟩
          · exact rg_mono hk (g02.trans g3')

theorem rg_reportIf (A : Acts I) {asked : Bool} {bp : Pack} {b : Bundle} {pos : Pos} {reason : Reason} {k : Prog}
    (hc : b.id = bp.id) (hask : asked = true → AsksFor b pos reason) (hk : RG I Base k Q n) :
    RG I Base (reportIf asked bp b pos reason k) Q n := by
  unfold reportIf
  apply rg_read
  intro m g i
  split
  · rename_i h
    simp only [Bool.and_eq_true, Bool.not_eq_true'] at h
    exact rg_sendReport A hc (hask h.1.1) (fun _ => h.1.2) h.2 (rg_mono hk g)
  · exact rg_mono hk g

/-- `sync` of a pack that has constraints left. -/
theorem sync_update {bp : Pack} (h : bp.hasAny = true) (n : Node) (c : Cause) :
    n.sync bp c = { n with store := (n.store.updateMetadata bp).1 } := by
  simp [Node.sync, h]

theorem rg_sync (A : Acts I) {bp : Pack} {c : Cause} {k : Node → Prog} (h : bp.hasAny = true)
    (hk : ∀ m, Base n m → I m → RG I Base (k m) Q m) : RG I Base (.act (fun n => n.sync bp c) k) Q n := by
  apply rg_act
  · intro m g i; rw [sync_update h]; exact ⟨Base.update _ _, A.update _ _ i⟩
  · intro m g i g'
    refine rg_mono (hk m g i) ?_
    rw [sync_update h]; exact Base.update _ _

theorem sync_clear_cases (n : Node) (bp : Pack) (c : Cause) :
    n.sync bp.clear c = n.remove bp.id c ∨ n.sync bp.clear c = { n with store := (n.store.updateMetadata bp.clear).1 } := by
  unfold Node.sync
  split
  · left; rw [Pack.id_clear]
  · right; rfl

theorem rg_delete (A : Acts I) {bp : Pack} {reason : Reason} {cause : Cause} {k : Bool → Prog}
    (hj : ∀ m, Base n m → Justified m.events m.cfg bp.id cause)
    (hk : ∀ ok, RG I Base (k ok) Q n) : RG I Base (delete bp reason cause k) Q n := by
  unfold delete
  apply rg_read
  intro m g i
  split
  · exact rg_mono (hk _) g
  · rename_i b hb
    apply rg_reportIf A ((A.inv _ i).bundleId _ _ hb) (fun h => by cases reason <;> exact h)
    apply rg_act
    · intro m1 g1 i1
      rcases sync_clear_cases m1 bp cause with h | h <;> rw [h]
      · exact ⟨Base.remove _ (A.inv _ i1) _ _, A.remove _ _ _ i1 (hj _ (g.trans g1))⟩
      · exact ⟨Base.update _ _, A.update _ _ i1⟩
    · intro m1 g1 i1 g1'
      exact rg_mono (hk _) (g.trans g1')

theorem rg_inspectReport (A : Acts I) {b : Bundle} {r : AdminRecord} {k : Prog} (hb : Carries n.cfg b r) (hk : RG I Base k Q n) :
    RG I Base (inspectReport b r k) Q n := by
  unfold inspectReport
  split
  · rename_i sips ref
    split
    · exact hk
    · apply rg_read
      intro m g i
      split
      · exact rg_mono hk g
      · split
        · exact rg_mono hk g
        · rename_i hl
          apply rg_set
          · intro m1 g1 i1
            exact ⟨Base.remove _ (A.inv _ i1) _ _, A.remove _ _ _ i1 ⟨by rw [(g.trans g1).cfg]; exact hb, sips, rfl, by simpa using hl⟩⟩
          · exact rg_mono hk g
  · exact hk

theorem rg_adminValid (A : Acts I) {b : Bundle} {k : Bool → Prog}
    (ht : HasRecord n.cfg b → RG I Base (k true) Q n) (hf : ¬ HasRecord n.cfg b → RG I Base (k false) Q n) :
    RG I Base (adminValid b k) Q n := by
  unfold adminValid
  split
  · rename_i h; apply hf; rintro ⟨_, h', -⟩; simp [h'] at h
  · rename_i hadm
    split
    · rename_i h; apply hf; rintro ⟨_, -, c, hc, -⟩; rw [h] at hc; cases hc
    · rename_i blk hblk
      split
      · rename_i bytes hdata
        apply rg_read
        intro m g i
        split
        · rename_i ar har
          have hc : Carries m.cfg b ar := ⟨by simpa using hadm, blk, hblk, bytes, hdata, har⟩
          apply rg_inspectReport A hc
          rw [g.cfg] at hc
          exact rg_mono (ht ⟨ar, hc⟩) g
        · rename_i har
          refine rg_mono (hf ?_) g
          rintro ⟨r, -, c, hc, bytes', hd, hr⟩
          rw [hblk] at hc; cases hc
          rw [hdata] at hd; cases hd
          rw [g.cfg] at har; rw [har] at hr; cases hr
      · rename_i hd
        apply hf; rintro ⟨r, -, c, hc, bytes', hdd, hr⟩
        rw [hblk] at hc; cases hc
        exact hd _ hdd

theorem rg_contraindicated (A : Acts I) {bp : Pack} {k : Bool → Prog} (hk : ∀ ok, RG I Base (k ok) Q n) :
    RG I Base (contraindicated bp k) Q n := by
  unfold contraindicated
  apply rg_sync A
  · exact (Pack.hasAny_iff _).mpr ⟨.contraindicated, by simp [Pack.has_add]⟩
  · intro m g _; exact rg_mono (hk _) g

theorem mem_log (n : Node) (e : Event) : e ∈ (n.log e).events := List.mem_append_right _ (List.mem_singleton.mpr rfl)

theorem rg_giveToAgent (A : Acts I) {eid : EID} {b : Bundle} {k : Bool → Prog} (hk : ∀ ok, RG I Base (k ok) Q n) :
    RG I Base (giveToAgent eid b k) Q n := by
  unfold giveToAgent
  apply rg_choose
  intro room
  apply rg_act
  · intro m g i; exact ⟨Base.deliver _ _ _ _, A.deliver _ _ _ _ i⟩
  · intro m g i g'
    have count : RG I Base (Prog.set (fun n => { n with stats := { n.stats with delivered := n.stats.delivered + 1 } })
        (k true)) Q (m.deliver eid b room) := by
      apply rg_set
      · intro m1 _ i1; exact ⟨Base.stats _ _, A.stats _ _ i1⟩
      · exact rg_mono (hk _) g'
    split
    · exact rg_mono (hk _) g'
    · rename_i a ha
      dsimp only
      split
      · rename_i ch hch
        apply rg_set
        · intro m1 g1 i1
          unfold Node.removeIfSingleton
          split
          · rename_i hd
            refine ⟨Base.remove _ (A.inv _ i1) _ _, A.remove _ _ _ i1 ⟨rfl, by simpa using hd, .inl ⟨eid, ch, ?_⟩⟩⟩
            apply g1.events
            simp only [Node.deliver, ha, hch]
            exact mem_log _ _
          · exact ⟨Base.refl _, i1⟩
        · exact count
      · exact count

theorem rg_finishDelivery (A : Acts I) {bp : Pack} {b : Bundle} {k : Bool → Prog} (h : bp.hasAny = true)
    (hk : ∀ ok, RG I Base (k ok) Q n) : RG I Base (finishDelivery bp b k) Q n := by
  unfold finishDelivery
  apply rg_sync A h
  intro m1 g1 _
  split
  · exact rg_mono (hk _) g1
  · exact rg_giveToAgent A fun ok => rg_mono (hk ok) g1

theorem rg_deliverBundle (A : Acts I) {bp : Pack} {b : Bundle} {k : Bool → Prog} (hid : b.id = bp.id)
    (hk : ∀ ok, RG I Base (k ok) Q n) : RG I Base (deliverBundle bp b k) Q n := by
  unfold deliverBundle
  apply rg_sync A
  · exact (Pack.hasAny_iff _).mpr ⟨.localEndpoint, by simp [Pack.has_add]⟩
  intro m1 g1 _
  split
  · exact rg_mono (hk _) g1
  apply rg_read
  intro m2 g2 _
  have g := g1.trans g2
  split
  · refine rg_reportIf A hid (fun h => h) ?_
    apply rg_finishDelivery A
    · exact (Pack.hasAny_iff _).mpr ⟨.localEndpoint, by simp [Pack.has_clear, Pack.has_add]⟩
    · exact fun ok => rg_mono (hk ok) g
  · apply rg_finishDelivery A
    · exact (Pack.hasAny_iff _).mpr ⟨.localEndpoint, by simp [Pack.has_add]⟩
    · exact fun ok => rg_mono (hk ok) g

theorem rg_localDelivery (A : Acts I) {bp : Pack} {k : Bool → Prog} (hk : ∀ ok, RG I Base (k ok) Q n) :
    RG I Base (localDelivery bp k) Q n := by
  unfold localDelivery
  apply rg_read
  intro m g i
  split
  · exact rg_mono (hk _) g
  · rename_i b hb
    have hid := (A.inv _ i).bundleId _ _ hb
    split
    · apply rg_adminValid A
      · intro _
        simp only [Bool.not_true, Bool.false_eq_true, if_false]
        exact rg_deliverBundle A hid fun ok => rg_mono (hk ok) g
      · intro hn
        simp only [Bool.not_false, if_true]
        apply rg_delete A
        · intro m1 g1; rw [g1.cfg]; exact ⟨hid, hn⟩
        · intro _; exact rg_mono (hk _) g
    · exact rg_deliverBundle A hid fun ok => rg_mono (hk ok) g

theorem rg_transferTask (A : Acts I) {bid : String} {t : Transfer} (hp : Prepared n.cfg.hostEid t)
    (hg : InGroup n t) : RG I Base (transferTask bid t) (fun _ _ => True) n := by
  unfold transferTask
  apply rg_act
  · intro m g i
    exact ⟨Base.log _ _, A.sending _ _ i (by rw [g.cfg]; exact hp) (hg.mono g)⟩
  intro m0 g0 i0 g0'
  have hsend : Event.sending t ∈ (m0.log (.sending t)).events := mem_log _ _
  apply rg_choose
  intro ok
  apply rg_act
  · intro m g i
    exact ⟨Base.log _ _, A.outcome _ _ _ i (g.events _ hsend) (hg.mono (g0'.trans g))⟩
  intro m1 g1 i1 g1'
  have endq : ∀ m (p : Prog), p = .done true ∨ p = .panic →
      RG I Base (.set (fun n => n.endTask t.group) p) (fun _ _ => True) m := by
    intro m p hp
    apply rg_set
    · intro m' _ i; exact ⟨Base.endTask _ _, A.endTask _ _ i⟩
    · rcases hp with rfl | rfl
      · exact rg_end (.inr ⟨_, rfl⟩)
      · exact rg_end (.inl rfl)
  split
  · apply rg_set
    · intro m _ i; exact ⟨Base.stats _ _, A.stats _ _ i⟩
    split
    · exact endq _ _ (.inr rfl)
    · apply rg_set
      · intro m _ i; exact ⟨Base.log _ _, A.note _ _ i⟩
      apply rg_act
      · intro m _ i; exact ⟨Base.peers _ _, A.peers _ _ i⟩
      intro m2 _ _ _
      apply rg_set
      · intro m _ i; exact ⟨Base.peers _ _, A.peers _ _ i⟩
      exact endq _ _ (.inl rfl)
  · rename_i hok
    simp only [Bool.not_eq_true', Bool.not_eq_false] at hok
    subst hok
    have hout : Event.outcome t true ∈ (m1.log (.outcome t true)).events := mem_log _ _
    apply rg_set
    · intro m _ i; exact ⟨Base.stats _ _, A.stats _ _ i⟩
    apply rg_set
    · intro m g i; exact ⟨Base.setSent _ _, A.setSent _ _ i (g.events _ hout)⟩
    split
    · exact endq _ _ (.inr rfl)
    · apply rg_set
      · intro m _ i; exact ⟨Base.log _ _, A.note _ _ i⟩
      exact endq _ _ (.inl rfl)

theorem rg_spawnTransfers (A : Acts I) {bid : String} {mk : Sender → Transfer} {k : Prog} (ss : List Sender)
    (h : ∀ s ∈ ss, Prepared n.cfg.hostEid (mk s) ∧ InGroup n (mk s)) (hk : RG I Base k Q n) :
    RG I Base (spawnTransfers bid mk ss k) Q n := by
  induction ss with
  | nil => exact hk
  | cons s ss ih =>
    exact rg_spawn (rg_transferTask A (h s (by simp)).1 (h s (by simp)).2) (ih fun s' hs => h s' (by simp [hs]))

theorem rg_afterTransfers (A : Acts I) {bp : Pack} {b stored : Bundle} {a : Answer} {g : Nat} {k : Bool → Prog}
    (hid : b.id = bp.id) (hsid : stored.id = bp.id) (hask : Event.asked bp (some a) ∈ n.events)
    (hg : ∃ x : Group, n.groups[g]? = some x ∧ x.stored = stored ∧ x.answer = a)
    (hk : ∀ ok, RG I Base (k ok) Q n) : RG I Base (afterTransfers bp b a g k) Q n := by
  unfold afterTransfers
  apply rg_read
  intro m gm im
  split
  · rename_i hs
    obtain ⟨x, t, hx, hout, hst, hto⟩ := A.sent _ _ im hs
    obtain ⟨x0, hx0, hx1, hx2⟩ := hg
    obtain ⟨y, hy, -, h2, h3, -⟩ := gm.groups _ _ hx0
    rw [hx] at hy; cases hy
    refine rg_reportIf A hid (fun h => h) ?_
    split
    · rename_i hd
      have hs' : t.stored.id = bp.id := by rw [hst, h2, hx1]; exact hsid
      have hto' : t.to ∈ a.clas := by rw [h3, hx2] at hto; exact hto
      have hj : ∀ m1, Base m m1 → Justified m1.events m1.cfg bp.id (.router bp a) := by
        intro m1 g1
        exact ⟨rfl, hd, (gm.trans g1).events _ hask, .inr ⟨t, g1.events _ hout, hs', hto'⟩⟩
      apply rg_act
      · intro m1 g1 i1
        exact ⟨Base.remove _ (A.inv _ i1) _ _, A.remove _ _ _ i1 (hj m1 g1)⟩
      · intro m1 g1 _ g1'; exact rg_mono (hk _) (gm.trans g1')
    · split
      · apply rg_adminValid A <;> intro _ <;> exact rg_contraindicated A fun ok => rg_mono (hk ok) gm
      · exact rg_mono (hk _) gm
  · exact rg_mono (hk _) gm

theorem raiseHop_primary (b : Bundle) : (raiseHop b).1.primary = b.primary := by
  unfold raiseHop
  cases firstBlock HOP_COUNT_BLOCK b with
  | none => rfl
  | some blk => obtain ⟨_, _, _, d⟩ := blk; cases d <;> rfl

theorem setPrevious_primary {host : EID} {b b' : Bundle} (h : setPrevious host b = some b') : b'.primary = b.primary := by
  unfold setPrevious at h
  cases hf : firstBlock PREVIOUS_NODE_BLOCK b with
  | none => rw [hf] at h; simp only [Option.some.injEq] at h; rw [← h]; rfl
  | some blk =>
    rw [hf] at h
    obtain ⟨_, _, _, d⟩ := blk
    cases d <;> simp only [Option.some.injEq, reduceCtorEq] at h
    rw [← h]

theorem raiseAge_primary (now r) (b : Bundle) : (raiseAge now r b).1.primary = b.primary := by
  unfold raiseAge
  generalize u64 = m
  cases firstBlock BUNDLE_AGE_BLOCK b with
  | none => rfl
  | some blk =>
    cases r with
    | none => rfl
    | some t =>
      obtain ⟨_, _, _, d⟩ := blk
      cases d with
      | bundleAge age =>
        dsimp only
        by_cases h : (age + (now + m - t) % m) % m ≠ 0
        · rw [if_pos h]
        · rw [if_neg h]
      | _ => rfl

theorem rg_sendAll (A : Acts I) {bp : Pack} {b out : Bundle} {a : Answer} {c g0 : Nat} {r : Option Nat}
    {k : Bool → Prog} (hid : b.id = bp.id) (hout : out.id = bp.id) (hask : Event.asked bp (some a) ∈ n.events)
    (hp : ∀ g s, Prepared n.cfg.hostEid ⟨g, b, out, s, c, g0, r⟩)
    (hk : ∀ ok, RG I Base (k ok) Q n) : RG I Base (sendAll bp b out a c g0 r k) Q n := by
  unfold sendAll
  apply rg_act
  · intro m g i; exact ⟨Base.newGroup _ _ _ _, A.group _ _ _ _ i hid (g.events _ hask)⟩
  intro m gm im gm'
  have hx : (m.newGroup bp b a).groups[m.groups.length]? =
      some { running := a.clas.length, pack := bp, stored := b, answer := a } := by
    simp [Node.newGroup]
  apply rg_spawnTransfers A
  · intro s hs
    refine ⟨?_, _, hx, rfl, hs⟩
    have : (m.newGroup bp b a).cfg = n.cfg := gm'.cfg
    rw [this]; exact hp _ _
  · apply rg_wait
    intro m1 g1 i1 _
    obtain ⟨y, hy, -, h2, h3, -⟩ := g1.groups _ _ hx
    exact rg_afterTransfers A hout hid ((gm'.trans g1).events _ hask) ⟨y, hy, h2, h3⟩
      fun ok => rg_mono (hk ok) (gm'.trans g1)

theorem hopCount_of_exceeded {b : Bundle} (h : (raiseHop b).2 = true) :
    ∃ l k, Spec.hopCount b = some (l, k) ∧ l < (k + 1) % 256 := by
  unfold raiseHop at h
  split at h
  · rename_i blk hb
    unfold firstBlock at hb
    split at h
    · rename_i l c hd
      refine ⟨l, c, ?_, by simpa using h⟩
      unfold Spec.hopCount; rw [hb]; simp [hd]
    · cases h
  · cases h

theorem rg_prepare (A : Acts I) {bp : Pack} {a : Answer} {k : Bool → Prog}
    (hpanic : ∀ m, Base n m → I m → Q none m)
    (hask : Event.asked bp (some a) ∈ n.events) (hk : ∀ ok, RG I Base (k ok) Q n) :
    RG I Base (prepare bp a k) Q n := by
  unfold prepare
  apply rg_read
  intro m0 g0 i0
  split
  · exact rg_mono (hk _) g0
  rename_i b hb
  have hid := (A.inv _ i0).bundleId _ _ hb
  apply rg_read
  intro m1 g1 i1
  have g01 := g0.trans g1
  split
  · rename_i hl
    apply rg_read
    intro m2 g2 i2
    exact rg_delete A (fun m _ => ⟨rfl, lifetimeExceeded_iff.mp hl⟩) fun _ => rg_mono (hk _) (g01.trans g2)
  rename_i hl
  simp only [Bool.not_eq_true] at hl
  dsimp only
  split
  · rename_i hh
    apply rg_read
    intro m2 g2 i2
    apply rg_delete A
    · intro m _
      have : (Pack.ofBundle m2.clock (raiseHop b).1).id = b.id := by
        simp only [Pack.id_ofBundle, Bundle.id, raiseHop_primary]
      rw [this]
      exact ⟨rfl, hopCount_of_exceeded hh⟩
    · intro _; exact rg_mono (hk _) (g01.trans g2)
  rename_i hh
  simp only [Bool.not_eq_true] at hh
  apply rg_read
  intro m2 g2 i2
  have g02 := g01.trans g2
  split
  · exact rg_panic fun m g => hpanic m (g02.trans g)
  rename_i b2 hb2
  apply rg_read
  intro m3 g3 i3
  have g03 := g02.trans g3
  have hrec : (m3.store.getMetadata b.id).map Pack.receivedTime ≠ none := by
    have : m0.store.getMetadata b.id ≠ none := by
      obtain ⟨p, hp⟩ := (A.inv _ i0).hasMeta _ _ hb
      rw [hid, hp]; simp
    simpa using ((g1.trans g2).trans g3).known _ this
  have hpr : (raiseAge m3.clock ((m3.store.getMetadata b.id).map Pack.receivedTime) b2).1.primary = b.primary := by
    rw [raiseAge_primary, setPrevious_primary hb2, raiseHop_primary]
  split
  · rename_i ho
    apply rg_read
    intro m4 g4 i4
    apply rg_delete A
    · intro m _
      have : (Pack.ofBundle m4.clock (raiseAge m3.clock ((m3.store.getMetadata b.id).map Pack.receivedTime) b2).1).id = b.id := by
        rw [Pack.id_ofBundle]; exact congrArg Primary.bid hpr
      rw [this]
      refine ⟨rfl, ?_⟩
      unfold tooOld at ho
      split at ho
      · rename_i x hx; refine ⟨x, hx, ?_⟩; rw [hpr] at ho; simpa using ho
      · cases ho
    · intro _; exact rg_mono (hk _) (g03.trans g4)
  · rename_i ho
    apply rg_sendAll A hid
    · rw [← hid]; exact congrArg Primary.bid hpr
    · exact g03.events _ hask
    · intro g s
      refine ⟨⟨hl, hh, b2, ?_, rfl, by simpa using ho⟩, hrec⟩
      rw [g3.cfg]; exact hb2
    · intro ok; exact rg_mono (hk ok) g03

theorem rg_forward (A : Acts I) {bp : Pack} {k : Bool → Prog} (hpanic : ∀ m, Base n m → I m → Q none m)
    (hk : ∀ ok, RG I Base (k ok) Q n) : RG I Base (forward bp k) Q n := by
  unfold forward
  apply rg_sync A
  · exact (Pack.hasAny_iff _).mpr ⟨.forwardPending, by simp [Pack.has_add, Pack.has_del]⟩
  intro m0 g0 i0
  split
  · exact rg_mono (hk _) g0
  apply rg_route
  · intro m a _ i; exact A.asked _ _ _ i
  intro m1 answer g1 i1
  have g1' : Base m0 (m1.log (.asked ((bp.add .forwardPending).del .dispatchPending) answer)) := g1.trans (Base.log _ _)
  split
  · exact rg_mono (hk _) (g0.trans g1')
  rename_i a
  have hask := mem_log m1 (.asked ((bp.add .forwardPending).del .dispatchPending) (some a))
  split
  · rename_i he
    split
    · rename_i hd
      apply rg_act
      · intro m2 g2 i2
        refine ⟨Base.remove _ (A.inv _ i2) _ _, A.remove _ _ _ i2 ⟨rfl, hd, g2.events _ hask, .inl ?_⟩⟩
        simpa using he
      · intro m2 g2 _ g2'; exact rg_mono (hk _) ((g0.trans g1').trans g2')
    · exact rg_mono (hk _) (g0.trans g1')
  · exact rg_prepare A (fun m g => hpanic m ((g0.trans g1').trans g)) hask fun ok => rg_mono (hk ok) (g0.trans g1')

theorem rg_dispatchRemote (A : Acts I) {bp : Pack} {k : Bool → Prog} (hk : ∀ ok, RG I Base (k ok) Q n) :
    RG I Base (dispatchRemote bp k) Q n := by
  unfold dispatchRemote
  apply rg_read
  intro m1 g1 i1
  split
  · exact rg_spawn (rg_forward A (fun _ _ _ => trivial) (fun _ => rg_end (.inr ⟨_, rfl⟩))) (rg_mono (hk _) g1)
  · exact rg_mono (hk _) g1

theorem rg_dispatch (A : Acts I) {bp : Pack} {k : Bool → Prog} (hpanic : ∀ m, Base n m → I m → Q none m)
    (hk : ∀ ok, RG I Base (k ok) Q n) : RG I Base (dispatch bp k) Q n := by
  unfold dispatch
  apply rg_read
  intro m g i
  split
  · exact rg_panic fun m' g' => hpanic m' (g.trans g')
  · apply rg_set
    · intro m1 _ i1; exact ⟨Base.log _ _, A.note _ _ i1⟩
    apply rg_read
    intro m1 g1 i1
    split
    · apply rg_localDelivery A
      intro ok
      split
      · exact rg_mono (hk _) (g.trans g1)
      · exact rg_dispatchRemote A fun ok => rg_mono (hk ok) (g.trans g1)
    · exact rg_dispatchRemote A fun ok => rg_mono (hk ok) (g.trans g1)

theorem rg_transmit (A : Acts I) {bp : Pack} {k : Bool → Prog} (hpanic : ∀ m, Base n m → I m → Q none m)
    (hk : ∀ ok, RG I Base (k ok) Q n) : RG I Base (transmit bp k) Q n := by
  unfold transmit
  apply rg_sync A
  · exact (Pack.hasAny_iff _).mpr ⟨.dispatchPending, by simp [Pack.has_add]⟩
  intro m0 g0 i0
  split
  · exact rg_mono (hk _) g0
  apply rg_read
  intro m1 g1 i1
  split
  · rename_i h
    apply rg_delete A
    · intro m _
      refine ⟨rfl, h.1, ?_⟩
      intro hm
      have := (Registry.find_isSome _ _).mpr hm
      rw [h.2] at this; cases this
    · intro ok; exact rg_mono (hk ok) (g0.trans g1)
  · exact rg_dispatch A (fun m g => hpanic m ((g0.trans g1).trans g)) fun ok => rg_mono (hk ok) (g0.trans g1)

theorem rg_finishReceive (A : Acts I) {b : Bundle} {bp : Pack} {l : List Nat} {k : Bool → Prog}
    (hpanic : ∀ m, Base n m → I m → Q none m) (hk : ∀ ok, RG I Base (k ok) Q n) :
    RG I Base (finishReceive b bp l k) Q n := by
  unfold finishReceive
  split
  · exact rg_panic hpanic
  · apply rg_set
    · intro m _ i; exact ⟨Base.push _ _, A.push _ _ i⟩
    · exact rg_dispatch A hpanic fun _ => hk true

theorem rg_scanBlocks (A : Acts I) {b : Bundle} {bp : Pack} {k : Bool → Prog} (hid : b.id = bp.id) (cs : List Block) :
    ∀ (index : Nat) (l : List Nat) (n : Node), (∀ c ∈ cs, c ∈ b.canonicals) →
    (∀ m, Base n m → I m → Q none m) → (∀ ok, RG I Base (k ok) Q n) →
    RG I Base (scanBlocks b bp k cs index l) Q n := by
  induction cs with
  | nil => intro index l n _ hp hk; exact rg_finishReceive A hp hk
  | cons c cs ih =>
    intro index l n hsub hp hk
    unfold scanBlocks
    split
    · exact ih _ _ _ (fun x hx => hsub x (by simp [hx])) hp hk
    · rename_i hu
      have hunk : UnknownBlock c := by simpa [UnknownBlock] using hu
      have cont : ∀ m, Base n m → RG I Base (if c.flags.deleteBundle then delete bp .blockUnintelligible (.block b c) k
          else scanBlocks b bp k cs (index + 1) (if c.flags.remove then l ++ [index] else l)) Q m := by
        intro m g
        split
        · rename_i hd
          exact rg_delete A (fun m _ => ⟨hid, hsub c (by simp), hunk, hd⟩) fun ok => rg_mono (hk ok) g
        · exact ih _ _ _ (fun x hx => hsub x (by simp [hx])) (fun m' g' => hp m' (g.trans g'))
            fun ok => rg_mono (hk ok) g
      dsimp only
      split
      · rename_i hr
        apply rg_read
        intro m g i
        split
        · rename_i hs
          exact rg_sendReport A hid ⟨c, hsub c (by simp), hunk, hr⟩ (fun h => by simp at h) hs (cont m g)
        · exact cont m g
      · exact cont n (Base.refl n)

theorem rg_receive (A : Acts I) {b : Bundle} {k : Bool → Prog} (hpanic : ∀ m, Base n m → I m → Q none m)
    (hk : ∀ ok, RG I Base (k ok) Q n) : RG I Base (receive b k) Q n := by
  unfold receive
  apply rg_act
  · intro m _ i; exact ⟨Base.addIfUnknown _ _, A.accept _ _ i⟩
  intro m0 g0 i0 g0'
  split
  · apply rg_set
    · intro m _ i; exact ⟨Base.stats _ _, A.stats _ _ i⟩
    apply rg_read
    intro m1 g1 i1
    apply rg_sync A
    · exact (Pack.hasAny_iff _).mpr ⟨.dispatchPending, by simp [Pack.has_add]⟩
    intro m2 g2 i2
    have g2' := (g0'.trans g1).trans g2
    split
    · exact rg_mono (hk _) g2'
    · refine rg_reportIf A rfl (fun h => h) ?_
      exact rg_scanBlocks A rfl _ _ _ _ (fun _ h => h) (fun m g => hpanic m (g2'.trans g)) fun ok => rg_mono (hk ok) g2'
  · apply rg_set
    · intro m _ i; exact ⟨Base.stats _ _, A.stats _ _ i⟩
    exact rg_mono (hk _) g0'

theorem rg_sweep (A : Acts I) {k : Prog} (ms : List Pack) :
    ∀ n : Node, RG I Base k Q n → RG I Base (sweep ms k) Q n := by
  induction ms with
  | nil => intro n h; exact h
  | cons p ms ih =>
    intro n h
    unfold sweep
    apply rg_read
    intro m g i
    split
    · rename_i he
      apply rg_set
      · intro m1 _ i1
        exact ⟨Base.remove _ (A.inv _ i1) _ _, A.remove _ _ _ i1 ⟨rfl, hasExpired_iff.mp he⟩⟩
      · exact ih _ (rg_mono h g)
    · exact ih _ (rg_mono h g)

theorem rg_collect {k : List Pack → Prog} (bids : List String) :
    ∀ (acc : List Pack) (n : Node), (∀ l, RG I Base (k l) Q n) → RG I Base (collect bids acc k) Q n := by
  induction bids with
  | nil => intro acc n h; exact h acc
  | cons bid bids ih =>
    intro acc n h
    unfold collect
    apply rg_read
    intro m g i
    split <;> exact ih _ _ fun l => rg_mono (h l) g

theorem rg_forwardAll (A : Acts I) (par : Bool) (bps : List Pack) :
    ∀ n : Node, RG I Base (forwardAll par bps) (fun _ _ => True) n := by
  induction bps with
  | nil => intro n; exact rg_end (.inr ⟨_, rfl⟩)
  | cons bp bps ih =>
    intro n
    unfold forwardAll
    split
    · exact rg_spawn (rg_forward A (fun _ _ _ => trivial) (fun _ => rg_end (.inr ⟨_, rfl⟩))) (ih n)
    · exact rg_forward A (fun _ _ _ => trivial) fun _ => ih n

theorem rg_processBundles (A : Acts I) : RG I Base processBundles (fun _ _ => True) n := by
  unfold processBundles
  apply rg_read
  intro m0 g0 i0
  apply rg_sweep A
  apply rg_read
  intro m1 g1 i1
  split
  · exact rg_end (.inr ⟨_, rfl⟩)
  · apply rg_read
    intro m2 g2 i2
    apply rg_collect
    intro l
    apply rg_read
    intro m3 g3 i3
    exact rg_forwardAll A _ _ _

theorem rg_popBundle (A : Acts I) {eid : EID} : RG I Base (popBundle eid) (fun _ _ => True) n := by
  unfold popBundle
  apply rg_act
  · intro m _ i; exact ⟨Base.popAgent _ _, A.pop _ _ i⟩
  intro m0 g0 i0 g0'
  split
  · exact rg_end (.inr ⟨_, rfl⟩)
  · rename_i a ha
    split
    · exact rg_end (.inr ⟨_, rfl⟩)
    · rename_i b hb
      apply rg_set
      · intro m1 g1 i1
        unfold Node.removeIfSingleton
        split
        · rename_i hd
          refine ⟨Base.remove _ (A.inv _ i1) _ _, A.remove _ _ _ i1 ⟨rfl, by simpa using hd, .inr ⟨eid, ?_⟩⟩⟩
          apply g1.events
          simp only [Node.popAgent, ha, hb]
          exact mem_log _ _
        · exact ⟨Base.refl _, i1⟩
      · exact rg_end (.inr ⟨_, rfl⟩)

/-- Every call follows the rules. -/
theorem rg_call (A : Acts I) (c : Call) : RG I Base c.prog (fun _ _ => True) n := by
  cases c with
  | receive b => exact rg_receive A (fun _ _ _ => trivial) (fun _ => rg_end (.inr ⟨_, rfl⟩))
  | send b =>
    unfold Call.prog sendBundle
    apply rg_set
    · intro m _ i; exact ⟨Base.push _ _, A.push _ _ i⟩
    apply rg_read
    intro m g i
    exact rg_transmit A (fun _ _ _ => trivial) (fun _ => rg_end (.inr ⟨_, rfl⟩))
  | remove bid =>
    apply rg_set
    · intro m _ i; exact ⟨Base.remove _ (A.inv _ i) _ _, A.remove _ _ _ i trivial⟩
    · exact rg_end (.inr ⟨_, rfl⟩)
  | pop eid => exact rg_popBundle A
  | janitor => exact rg_processBundles A

/-- What holds initially and is kept by all actions and changes holds always. -/
theorem Acts.always (A : Acts I) (hout : ∀ n m, Outside n m → I n → I m) {n : Node} {t : Sys} (i : I n)
    (hr : Reaches .any ⟨n, []⟩ t) : I t.node ∧ Base n t.node := by
  have := RG.reaches (I := I) (G := Base) Base.refl (fun _ _ _ => Base.trans) (w := .any)
    (fun c _ n i => ⟨⟨Base.log _ _, A.called n c i⟩, rg_call A c⟩) (fun n m h i => ⟨Base.outside h, hout n m h i⟩) hr i (by simp)
  exact ⟨this.2.1, this.1⟩

end Dtn.Proc
