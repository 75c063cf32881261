import Verif.Lemmas.ProcAlone
/-! Delivery, dispatch, transmission and reception by a task that has the node for itself. -/

namespace Dtn.Proc
open Routing (Notification Answer)
open Spec (HasRecord Carries UnknownBlock newEvents keptBlocks)

variable {Q : List Prog → Node → Prop} {n : Node}

theorem After.past {E : Event → Prop} {n m : Node} (h : After E n m) : n.events <+: m.events := by
  obtain ⟨es, h, -⟩ := h.events; exact ⟨es, h.symm⟩

theorem After.all {E : Event → Prop} {n m : Node} (h : After E n m) : ∀ e ∈ newEvents n m, E e := by
  obtain ⟨es, h, he⟩ := h.events; rw [newEvents_eq h]; exact he

/-- The events of handling a bundle up to its forwarding. -/
def Handling (b : Bundle) : Event → Prop
  | .report _ => True
  | .removed x c => x = b.id ∨ ∃ status, c = .statusReport b (.statusReport status x)
  | .note x => x = .incomingBundle b
  | .delivered e b' _ => e = b.primary.destination ∧ b' = b
  | .accepted _ => True
  | _ => False

theorem handling_report {b : Bundle} (e : Event) (h : IsReport e) : Handling b e := by
  obtain ⟨r, rfl⟩ := h; trivial

/-- Is the event a removal because of a record in this bundle? -/
def ByRecord (cfg : Config) (b : Bundle) (e : Event) : Prop :=
  ∃ r status ref, Carries cfg b r ∧ r = .statusReport status ref ∧ e = .removed ref (.statusReport b r)

theorem handling_byRecord {cfg : Config} {b : Bundle} (e : Event) (h : ByRecord cfg b e) : Handling b e := by
  obtain ⟨r, status, ref, -, rfl, rfl⟩ := h; exact .inr ⟨status, rfl⟩

theorem alone_inspectReport {b : Bundle} {r : AdminRecord} {k : Prog} (hc : Carries n.cfg b r)
    (hk : ∀ m, Later (ByRecord n.cfg b) n m → Alone Q k m) : Alone Q (inspectReport b r k) n := by
  unfold inspectReport
  split
  · split
    · exact hk _ (.refl _)
    · refine alone_read fun t ht => ?_
      split
      · exact hk _ (.time n ht)
      · split
        · exact hk _ (.time n ht)
        · refine alone_set fun t2 ht2 => hk _ ?_
          exact ((Later.time n ht).trans (.time _ ht2)).trans (.remove _ _ _ ⟨_, _, _, hc, rfl, rfl⟩)
  · exact hk _ (.refl _)

theorem alone_adminValid {b : Bundle} {k : Bool → Prog}
    (hk : ∀ ok m, Later (ByRecord n.cfg b) n m → (HasRecord n.cfg b → ok = true) → Alone Q (k ok) m) :
    Alone Q (adminValid b k) n := by
  unfold adminValid
  split
  · rename_i h; refine hk _ _ (.refl _) ?_; rintro ⟨_, h', -⟩; simp [h'] at h
  · rename_i hadm
    split
    · rename_i h; refine hk _ _ (.refl _) ?_; rintro ⟨_, -, c, hc, -⟩; rw [h] at hc; cases hc
    · rename_i blk hblk
      split
      · rename_i bytes hdata
        refine alone_read fun t ht => ?_
        split
        · rename_i ar har
          have hc : Carries (n.at t).cfg b ar := ⟨by simpa using hadm, blk, hblk, bytes, hdata, har⟩
          exact alone_inspectReport hc fun m hm => hk _ _ ((Later.time n ht).trans hm) fun _ => rfl
        · rename_i har
          refine hk _ _ (.time n ht) ?_
          rintro ⟨r, -, c, hc, bytes', hd, hr⟩
          rw [hblk] at hc; cases hc
          rw [hdata] at hd; cases hd
          have har' : n.cfg.decode bytes = none := har
          rw [har'] at hr; cases hr
      · rename_i hd
        refine hk _ _ (.refl _) ?_
        rintro ⟨r, -, c, hc, bytes', hdd, hr⟩
        rw [hblk] at hc; cases hc
        exact absurd hdd (hd _)

theorem alone_giveToAgent {b : Bundle} {k : Bool → Prog}
    (hf : b.primary.destination ∈ n.agents.eids)
    (hk : ∀ m, After (Handling b) n m → (∃ ch, .delivered b.primary.destination b ch ∈ newEvents n m) → Alone Q (k true) m) :
    Alone Q (giveToAgent b.primary.destination b k) n := by
  unfold giveToAgent
  refine .choose fun room => .act fun t ht => ?_
  obtain ⟨a, ha⟩ := Option.isSome_iff_exists.mp ((Registry.find_isSome n.agents _).mpr hf)
  have ha' : (n.at t).agents.find b.primary.destination = some a := ha
  have hd : (n.at t).deliver b.primary.destination b room =
      { n.at t with agents := Registry.modify (fun a => (a.push b room).1) b.primary.destination n.agents }.log
        (.delivered b.primary.destination b (a.push b room).2) := by
    unfold Node.deliver; rw [ha']; rfl
  have hl : After (Handling b) n ((n.at t).deliver b.primary.destination b room) := by
    rw [hd]
    exact ⟨rfl, ht, id, fun _ _ => id, [_], rfl, by simp [Handling]⟩
  have he : Event.delivered b.primary.destination b (a.push b room).2 ∈
      newEvents n ((n.at t).deliver b.primary.destination b room) := by
    rw [hd, newEvents_eq (es := [_]) rfl]; simp
  rw [ha']
  dsimp only
  have hcount : ∀ m, After (Handling b) ((n.at t).deliver b.primary.destination b room) m →
      Alone Q (.set (fun n => { n with stats := { n.stats with delivered := n.stats.delivered + 1 } }) (k true)) m := by
    intro m hm
    refine alone_set fun t2 ht2 => hk _ ((hl.trans hm).trans ?_) ⟨_, newEvents_right hl.past ?_ he⟩
    · exact ((Later.time m ht2).trans (.stats _ _)).toAfter
    · exact hm.past.trans (Later.trans (E := fun _ => True) (.time m ht2) (.stats _ _)).toAfter.past
  split
  · refine alone_set fun t2 ht2 => hcount _ ?_
    exact ((Later.time _ ht2).trans (.removeIfSingleton _ _ fun c => (.inl rfl))).toAfter
  · exact hcount _ (.refl _)

theorem sync_ok {s : MemStore} {bp : Pack} (h : bp.hasAny = true) (hk : s.getMetadata bp.id ≠ none) :
    (s.sync bp).2 = true := by
  unfold MemStore.sync
  rw [h]
  exact (MemStore.update_ok _ _).mpr hk

theorem alone_finishDelivery {bp : Pack} {b : Bundle} {k : Bool → Prog} (hany : bp.hasAny = true)
    (hdest : bp.destination = b.primary.destination) (hknown : n.store.getMetadata bp.id ≠ none)
    (hf : b.primary.destination ∈ n.agents.eids)
    (hk : ∀ m, After (Handling b) n m → (∃ ch, .delivered b.primary.destination b ch ∈ newEvents n m) → Alone Q (k true) m) :
    Alone Q (finishDelivery bp b k) n := by
  unfold finishDelivery
  refine alone_sync hany fun t ht => ?_
  have h : ((n.at t).store.sync bp).2 = true := sync_ok hany hknown
  rw [h]
  simp only [Bool.not_true, Bool.false_eq_true, if_false]
  rw [hdest]
  have hl : Later (Handling b) n { n.at t with store := (n.store.updateMetadata bp).1 } :=
    (Later.time n ht).trans (.update _ _)
  refine alone_giveToAgent hf fun m hm ⟨ch, hd⟩ => hk m (hl.toAfter.trans hm) ⟨ch, ?_⟩
  exact newEvents_left hl.past hm.past hd

theorem hasAny_of {bp : Pack} {c : Constraint} (h : bp.has c = true) : bp.hasAny = true := (Pack.hasAny_iff _).mpr ⟨c, h⟩

theorem alone_deliverBundle {bp : Pack} {b : Bundle} {k : Bool → Prog} (hinv : n.store.Inv)
    (hdest : bp.destination = b.primary.destination) (hknown : n.store.getMetadata bp.id ≠ none)
    (hf : b.primary.destination ∈ n.agents.eids)
    (hk : ∀ m, After (Handling b) n m → (∃ ch, .delivered b.primary.destination b ch ∈ newEvents n m) → Alone Q (k true) m) :
    Alone Q (deliverBundle bp b k) n := by
  unfold deliverBundle
  have hany : (bp.add .localEndpoint).hasAny = true := hasAny_of (c := .localEndpoint) (by simp [Pack.has_add])
  refine alone_sync hany fun t ht => ?_
  have h : ((n.at t).store.sync (bp.add .localEndpoint)).2 = true := sync_ok hany hknown
  rw [h]
  simp only [Bool.not_true, Bool.false_eq_true, if_false]
  refine alone_read fun t2 ht2 => ?_
  have hl : Later (Handling b) n (Node.at { n.at t with store := (n.store.updateMetadata (bp.add .localEndpoint)).1 } t2) :=
    ((Later.time n ht).trans (.update _ _)).trans (.time _ ht2)
  split
  · refine alone_reportIf fun m hm => ?_
    have hm' : Later (Handling b) n m := hl.trans (hm.mono handling_report)
    refine alone_finishDelivery (hasAny_of (c := .localEndpoint) ?_) hdest ?_ (by rw [hm'.agents]; exact hf) ?_
    · simp [Pack.has_clear, Pack.has_add]
    · rw [Pack.id_clear]; exact hm'.known hinv _ hknown
    · intro m2 hm2 ⟨ch, hd⟩
      exact hk m2 (hm'.toAfter.trans hm2) ⟨ch, newEvents_left hm'.past hm2.past hd⟩
  · refine alone_finishDelivery (hasAny_of (c := .forwardPending) ?_) hdest ?_ (by rw [hl.agents]; exact hf) ?_
    · simp [Pack.has_add]
    · exact hl.known hinv _ hknown
    · intro m2 hm2 ⟨ch, hd⟩
      exact hk m2 (hl.toAfter.trans hm2) ⟨ch, newEvents_left hl.past hm2.past hd⟩

theorem alone_localDelivery {bp : Pack} {b : Bundle} {k : Bool → Prog} (hinv : n.store.Inv)
    (hb : n.store.getBundle bp.id = some b)
    (hdest : bp.destination = b.primary.destination) (hadm : bp.administrative = b.isAdmin)
    (hf : b.primary.destination ∈ n.agents.eids) (hrec : b.isAdmin = true → HasRecord n.cfg b)
    (hk : ∀ m, After (Handling b) n m → (∃ ch, .delivered b.primary.destination b ch ∈ newEvents n m) → Alone Q (k true) m) :
    Alone Q (localDelivery bp k) n := by
  unfold localDelivery
  refine alone_read fun t ht => ?_
  have hb' : (n.at t).store.getBundle bp.id = some b := hb
  have hknown : n.store.getMetadata bp.id ≠ none := by
    have := hinv.hasMeta bp.id b hb
    obtain ⟨p, hp⟩ := this
    rw [hp]; simp
  rw [hb']
  dsimp only
  have hl : Later (Handling b) n (n.at t) := .time n ht
  split
  · rename_i h
    refine alone_adminValid fun ok m hm hok => ?_
    rw [hok (hrec (hadm ▸ h))]
    simp only [Bool.not_true, Bool.false_eq_true, if_false]
    have hm' : Later (Handling b) n m := hl.trans (hm.mono handling_byRecord)
    refine alone_deliverBundle (hm'.inv hinv) hdest (hm'.known hinv _ hknown) (by rw [hm'.agents]; exact hf) ?_
    intro m2 hm2 ⟨ch, hd⟩
    exact hk m2 (hm'.toAfter.trans hm2) ⟨ch, newEvents_left hm'.past hm2.past hd⟩
  · refine alone_deliverBundle hinv hdest hknown hf ?_
    intro m2 hm2 ⟨ch, hd⟩
    exact hk m2 (hl.toAfter.trans hm2) ⟨ch, newEvents_left hl.past hm2.past hd⟩

/-- Dispatch, up to the decision to forward. -/
theorem alone_dispatch {bp : Pack} {b : Bundle} {k : Bool → Prog} (hinv : n.store.Inv)
    (hb : n.store.getBundle bp.id = some b)
    (hdest : bp.destination = b.primary.destination) (hadm : bp.administrative = b.isAdmin)
    (hrec : b.primary.destination ∈ n.agents.eids → b.isAdmin = true → HasRecord n.cfg b)
    (hk : ∀ m, After (Handling b) n m → .note (.incomingBundle b) ∈ newEvents n m →
      (b.primary.destination ∈ n.agents.eids → ∃ ch, .delivered b.primary.destination b ch ∈ newEvents n m) →
      (b.primary.destination ∉ n.agents.eids → ∀ e b' ch, .delivered e b' ch ∉ newEvents n m) →
      (b.primary.destination ∉ n.agents.eids → m.store.getBundle bp.id = some b) →
      Alone Q (dispatchRemote bp k) m) :
    Alone Q (dispatch bp k) n := by
  unfold dispatch
  refine alone_read fun t ht => ?_
  have hb' : (n.at t).store.getBundle bp.id = some b := hb
  rw [hb']
  dsimp only
  refine alone_set fun t2 ht2 => ?_
  refine alone_read fun t3 ht3 => ?_
  have hl : Later (Handling b) n ((((n.at t).at t2).log (.note (.incomingBundle b))).at t3) :=
    (((Later.time n ht).trans (.time _ ht2)).trans (Later.log (E := Handling b) _ (.note (.incomingBundle b)) rfl)).trans (.time _ ht3)
  have he : newEvents n ((((n.at t).at t2).log (.note (.incomingBundle b))).at t3) = [.note (.incomingBundle b)] :=
    newEvents_eq rfl
  split
  · rename_i h
    have hf : b.primary.destination ∈ n.agents.eids := by
      have := (Registry.has_iff _ _).mp h
      rw [hdest] at this; exact this
    refine alone_localDelivery (hl.inv hinv) hb hdest hadm hf (hrec hf) ?_
    intro m2 hm2 ⟨ch, hd⟩
    simp only [Bool.not_true, Bool.false_eq_true, if_false]
    refine hk m2 (hl.toAfter.trans hm2) ?_ (fun _ => ⟨ch, newEvents_left hl.past hm2.past hd⟩) (fun h => absurd hf h)
      (fun h => absurd hf h)
    exact newEvents_right hl.past hm2.past (by rw [he]; simp)
  · rename_i h
    have hf : b.primary.destination ∉ n.agents.eids := by
      intro hf
      apply h
      rw [hdest]
      exact (Registry.has_iff _ _).mpr hf
    refine hk _ hl.toAfter (by rw [he]; simp) (fun h => absurd h hf) ?_ (fun _ => hb)
    intro _ e b' ch hd
    rw [he] at hd; simp at hd

theorem ofBundle_facts (now : Nat) (b : Bundle) (c : Constraint) :
    ((Pack.ofBundle now b).add c).id = b.id ∧ ((Pack.ofBundle now b).add c).destination = b.primary.destination ∧
    ((Pack.ofBundle now b).add c).administrative = b.isAdmin ∧ ((Pack.ofBundle now b).add c).source = b.primary.source :=
  ⟨rfl, rfl, rfl, rfl⟩

theorem getBundle_pushed (n : Node) (b : Bundle) : (n.push b).store.getBundle b.id = some b := by
  simp [Node.push, MemStore.getBundle_push]

theorem known_of_stored {s : MemStore} (h : s.Inv) {bid : String} (hb : s.getBundle bid ≠ none) :
    s.getMetadata bid ≠ none := by
  cases hg : s.getBundle bid with
  | none => exact absurd hg hb
  | some b => obtain ⟨p, hp⟩ := h.hasMeta bid b hg; rw [hp]; simp

theorem known_pushed {n : Node} (h : n.store.Inv) (b : Bundle) : (n.push b).store.getMetadata b.id ≠ none :=
  known_of_stored (h.push _ _) (by rw [MemStore.getBundle_push]; simp)

/-- Transmission, up to dispatch or rejection. -/
theorem alone_sendBundle {b : Bundle} {n : Node} (hinv : n.store.Inv)
    (hin : (b.primary.source = .none ∨ b.primary.source ∈ n.agents.eids) → ∀ now m, n.clock ≤ now →
      now ≤ m.clock → Later (fun _ => False) n m → m.store.getBundle b.id = some b → Alone Q (dispatch ((Pack.ofBundle now b).add .dispatchPending) .done) m)
    (hout : ¬ (b.primary.source = .none ∨ b.primary.source ∈ n.agents.eids) → ∀ now m reason c, Later (fun _ => False) n m →
      m.store.getBundle b.id = some b →
      Alone Q (delete ((Pack.ofBundle now b).add .dispatchPending) reason c .done) m) :
    Alone Q (sendBundle b) n := by
  unfold sendBundle
  refine alone_set fun t ht => alone_read fun t2 ht2 => ?_
  unfold transmit
  dsimp only
  have hany : ((Pack.ofBundle (((n.at t).push b).at t2).clock b).add .dispatchPending).hasAny = true :=
    hasAny_of (c := .dispatchPending) (by simp [Pack.has_add])
  refine alone_sync hany fun t3 ht3 => ?_
  have hok : (((((n.at t).push b).at t2).at t3).store.sync
      ((Pack.ofBundle (((n.at t).push b).at t2).clock b).add .dispatchPending)).2 = true :=
    sync_ok hany (known_pushed (n := n.at t) hinv b)
  rw [hok]
  simp only [Bool.not_true, Bool.false_eq_true, if_false]
  refine alone_read fun t4 ht4 => ?_
  generalize hbp : (Pack.ofBundle (((n.at t).push b).at t2).clock b).add .dispatchPending = bp at *
  have hl : Later (fun _ => False) n
      (Node.at { (((n.at t).push b).at t2).at t3 with store := ((((n.at t).push b).at t2).store.updateMetadata bp).1 } t4) :=
    (((((Later.time n ht).trans (.push _ _)).trans (.time _ ht2)).trans (.time _ ht3)).trans (.update _ _)).trans (.time _ ht4)
  have hg : (Node.at { (((n.at t).push b).at t2).at t3 with
      store := ((((n.at t).push b).at t2).store.updateMetadata bp).1 } t4).store.getBundle b.id = some b := by
    show (MemStore.updateMetadata _ _).1.getBundle b.id = some b
    rw [MemStore.getBundle_update]
    exact getBundle_pushed (n.at t) b
  have hsrc : bp.source = b.primary.source := by rw [← hbp]; rfl
  have hfind : ∀ e, n.agents.find e = none ↔ e ∉ n.agents.eids := by
    intro e
    rw [← Registry.find_isSome, Option.not_isSome_iff_eq_none]
  split
  · rename_i h
    have h' : ¬ (b.primary.source = .none ∨ b.primary.source ∈ n.agents.eids) := by
      rintro (h1 | h1)
      · exact h.1 (hsrc.trans h1)
      · exact (hfind _).mp (hsrc ▸ h.2) h1
    have := hout h' (((n.at t).push b).at t2).clock _ .noInformation (.foreign bp n.agents.eids) hl hg
    rw [hbp] at this
    exact this
  · rename_i h
    have h' : b.primary.source = .none ∨ b.primary.source ∈ n.agents.eids := by
      by_contra hc
      rw [not_or] at hc
      exact h ⟨hsrc ▸ hc.1, (hfind _).mpr (hsrc ▸ hc.2)⟩
    have := fun le => hin h' (((n.at t).push b).at t2).clock _ (Nat.le_trans ht ht2) le hl hg
    replace this := this (show t2 ≤ t4 from Nat.le_trans ht3 ht4)
    rw [hbp] at this
    exact this

/-- The positions marked for removal (`core/processing.rs:126-170`). -/
def marks : List Block → Nat → List Nat → List Nat
  | [], _, marked => marked
  | c :: cs, index, marked =>
    if c.btype < 11 then marks cs index marked
    else marks cs (index + 1) (if c.flags.remove then marked ++ [index] else marked)

theorem alone_scanBlocks {b : Bundle} {bp : Pack} {k : Bool → Prog} (hle : bp.has .localEndpoint = false) (cs : List Block) :
    ∀ (n : Node) (index : Nat) (marked : List Nat), n.store.Inv →
    ((∀ c ∈ cs, UnknownBlock c → c.flags.deleteBundle = false) → ∀ m, Later IsReport n m →
      Alone Q (finishReceive b bp (marks cs index marked) k) m) →
    (∀ c ∈ cs, UnknownBlock c → c.flags.deleteBundle = true → ∀ ok m, Later (IsReportOr bp.id (.block b c)) n m →
      m.store.getBundle bp.id = none → Alone Q (k ok) m) →
    Alone Q (scanBlocks b bp k cs index marked) n := by
  induction cs with
  | nil =>
    intro n index marked _ h1 _
    exact h1 (by simp) n (.refl n)
  | cons c cs ih =>
    intro n index marked hinv h1 h2
    unfold scanBlocks
    split
    · rename_i hc
      have hu : ¬ UnknownBlock c := by unfold UnknownBlock; omega
      refine ih n index marked hinv ?_ ?_
      · intro h m hm
        have := h1 (by simpa [hu] using h) m hm
        rwa [marks, if_pos hc] at this
      · intro x hx
        exact h2 x (by simp [hx])
    · rename_i hc
      have hu : UnknownBlock c := by unfold UnknownBlock; omega
      have next : ∀ m, Later IsReport n m → Alone Q
          (if c.flags.deleteBundle = true then delete bp Reason.blockUnintelligible (Cause.block b c) k
           else scanBlocks b bp k cs (index + 1) (if c.flags.remove = true then marked ++ [index] else marked)) m := by
        intro m hm
        split
        · rename_i hd
          exact alone_delete (hm.inv hinv) hle fun ok m' hm' hg =>
            h2 c (by simp) hu hd ok m' ((hm.mono fun _ h => .inl h).trans hm') hg
        · rename_i hd
          refine ih m _ _ (hm.inv hinv) ?_ ?_
          · intro h m' hm'
            have := h1 (by simpa [hd] using fun x hx => h x hx) m' (hm.trans hm')
            rwa [marks, if_neg hc] at this
          · intro x hx hux hdx ok m' hm' hg
            exact h2 x (by simp [hx]) hux hdx ok m' ((hm.mono fun _ h => .inl h).trans hm') hg
      dsimp only
      split
      · refine alone_read fun t ht => ?_
        split
        · exact alone_sendReport fun m hm => next m ((Later.time n ht).trans hm)
        · exact next _ (.time n ht)
      · exact next n (.refl n)

/-- Events of a reception before dispatch. -/
def Receiving (b : Bundle) (e : Event) : Prop := IsReport e ∨ e = .accepted b

/-- Reception of a new bundle, up to dispatch or rejection. -/
theorem alone_receive {b : Bundle} {k : Bool → Prog} {n : Node} (hinv : n.store.Inv) (hnew : n.store.getBundle b.id = none)
    (hin : (∀ c ∈ b.canonicals, UnknownBlock c → c.flags.deleteBundle = false) → ∀ now m, n.clock ≤ now → now ≤ m.clock →
      Later (Receiving b) n m → Alone Q (finishReceive b ((Pack.ofBundle now b).add .dispatchPending) (marks b.canonicals 0 []) k) m)
    (hout : ∀ c ∈ b.canonicals, UnknownBlock c → c.flags.deleteBundle = true → ∀ ok m,
      Later (fun e => Receiving b e ∨ e = .removed b.id (.block b c)) n m → m.store.getBundle b.id = none → Alone Q (k ok) m) :
    Alone Q (receive b k) n := by
  unfold receive
  refine .act fun t ht => ?_
  have hadd : (n.at t).store.addIfUnknown (n.at t).clock b = ((n.at t).store.push (n.at t).clock b, true) := by
    unfold MemStore.addIfUnknown
    have : (n.at t).store.hasItem b.id = false := by
      cases h : (n.at t).store.hasItem b.id with
      | false => rfl
      | true => exact absurd hnew ((MemStore.hasItem_iff _ _).mp h)
    simp [this]
  have hnode : (n.at t).addIfUnknown b = ((n.at t).push b).log (.accepted b) := by
    unfold Node.addIfUnknown; rw [hadd]; rfl
  rw [hadd, hnode]
  simp only [if_true]
  refine alone_set fun t2 ht2 => alone_read fun t3 ht3 => ?_
  generalize hm0 : Node.at { Node.at (((n.at t).push b).log (.accepted b)) t2 with stats := _ } t3 = m0 at *
  have hl : Later (Receiving b) n m0 := by
    rw [← hm0]
    exact (((((Later.time n ht).trans (.push _ _)).trans (Later.log (E := Receiving b) _ _ (.inr rfl))).trans
      (.time _ ht2)).trans (.stats _ _)).trans (.time _ ht3)
  have hknown : m0.store.getMetadata b.id ≠ none := by rw [← hm0]; exact known_pushed (n := n.at t) hinv b
  generalize hbp : (Pack.ofBundle m0.clock b).add .dispatchPending = bp
  have hany : bp.hasAny = true := hasAny_of (c := .dispatchPending) (by rw [← hbp]; simp [Pack.has_add])
  have hid : bp.id = b.id := by rw [← hbp]; rfl
  refine alone_sync hany fun t4 ht4 => ?_
  have hok : ((m0.at t4).store.sync bp).2 = true := sync_ok hany (by rw [hid]; exact hknown)
  rw [hok]
  simp only [Bool.not_true, Bool.false_eq_true, if_false]
  have hl2 : Later (Receiving b) n { m0.at t4 with store := (m0.store.updateMetadata bp).1 } :=
    (hl.trans (.time _ ht4)).trans (.update _ _)
  refine alone_reportIf fun m hm => ?_
  have hl3 : Later (Receiving b) n m := hl2.trans (hm.mono fun e h => .inl h)
  refine alone_scanBlocks (by rw [← hbp]; simp [Pack.has_add]) _ _ _ _ (hl3.inv hinv) ?_ ?_
  · intro h m' hm'
    have := hin h m0.clock m' hl.clock (Nat.le_trans ht4 (Nat.le_trans hm.clock hm'.clock)) (hl3.trans (hm'.mono fun e h => .inl h))
    rwa [hbp] at this
  · intro x hx hux hdx ok m' hm' hg
    refine hout x hx hux hdx ok m' ((hl3.mono fun e h => .inl h).trans (hm'.mono ?_)) (hid ▸ hg)
    rintro e (h | h)
    · exact .inl (.inl h)
    · exact .inr (hid ▸ h)

theorem alone_finishReceive {b : Bundle} {bp : Pack} {marked : List Nat} {cs : List Block} {k : Bool → Prog} {n : Node}
    (h : removeBlocks marked b.canonicals = some cs)
    (hk : ∀ m, Later (fun _ => False) n m → m.store.getBundle b.id = some { b with canonicals := cs } →
      Alone Q (dispatch bp fun _ => k true) m) :
    Alone Q (finishReceive b bp marked k) n := by
  unfold finishReceive
  rw [h]
  refine alone_set fun t ht => hk _ ((Later.time n ht).trans (.push _ _)) ?_
  exact getBundle_pushed (n.at t) { b with canonicals := cs }

theorem marks_none {cs : List Block} (h : ∀ c ∈ cs, UnknownBlock c → c.flags.remove = false) :
    ∀ (index : Nat) (marked : List Nat), marks cs index marked = marked := by
  induction cs with
  | nil => intro _ _; rfl
  | cons c cs ih =>
    intro index marked
    unfold marks
    split
    · exact ih (fun x hx => h x (by simp [hx])) _ _
    · rename_i hc
      have hr := h c (by simp) (by unfold UnknownBlock; omega)
      simp only [hr, Bool.false_eq_true, if_false]
      exact ih (fun x hx => h x (by simp [hx])) _ _

/-- A bundle the node takes on, up to the decision to forward. -/
theorem alone_takesOn {c : Call} {b : Bundle} {n : Node} (hinv : n.store.Inv) (ht : Spec.TakesOn n b c)
    (hrec : b.primary.destination ∈ n.agents.eids → b.isAdmin = true → HasRecord n.cfg b)
    (hk : ∀ bp m k, bp.id = b.id → bp.destination = b.primary.destination → n.clock ≤ bp.receivedTime →
      bp.receivedTime ≤ m.clock → k true = .done true → After (Handling b) n m →
      .note (.incomingBundle b) ∈ newEvents n m →
      (b.primary.destination ∈ n.agents.eids → ∃ ch, .delivered b.primary.destination b ch ∈ newEvents n m) →
      (b.primary.destination ∉ n.agents.eids → ∀ e b' ch, .delivered e b' ch ∉ newEvents n m) →
      m.store.getMetadata b.id ≠ none →
      (b.primary.destination ∉ n.agents.eids → m.store.getBundle b.id = some b) →
      Alone Q (dispatchRemote bp k) m) :
    Alone Q c.prog n := by
  have main : ∀ (now : Nat) (m : Node) (k : Bool → Prog), n.clock ≤ now → now ≤ m.clock → k true = .done true → Later (Handling b) n m →
      (∀ e b' ch, Event.delivered e b' ch ∉ newEvents n m) →
      m.store.getBundle b.id = some b →
      Alone Q (dispatch ((Pack.ofBundle now b).add .dispatchPending) k) m := by
    intro now m k hnow hnow' hkk hm hnd hg
    refine alone_dispatch (hm.inv hinv) hg rfl rfl (by rw [hm.agents, hm.cfg]; exact hrec) ?_
    intro m' hm' hnote hdel hndel hstored
    rw [hm.agents] at hdel hndel hstored
    refine hk _ m' k rfl rfl hnow (Nat.le_trans hnow' hm'.clock) hkk (hm.toAfter.trans hm') (newEvents_left hm.past hm'.past hnote) ?_ ?_ ?_ hstored
    · intro h; obtain ⟨ch, hd⟩ := hdel h; exact ⟨ch, newEvents_left hm.past hm'.past hd⟩
    · intro h e b' ch hd
      have h1 := newEvents_of_prefix hm.past
      have h2 := newEvents_of_prefix hm'.past
      rw [newEvents_eq (es := newEvents n m ++ newEvents m m') (by rw [h2, h1, List.append_assoc])] at hd
      rcases List.mem_append.mp hd with hd | hd
      · exact hnd _ _ _ hd
      · exact hndel h _ _ _ hd
    · exact hm'.known (hm.inv hinv) _ (known_of_stored (hm.inv hinv) (by rw [hg]; simp))
  rcases ht with ⟨rfl, hnew, hblocks⟩ | ⟨rfl, hsrc⟩
  · refine alone_receive hinv hnew ?_ ?_
    · intro _ now m hnow hnow' hm
      rw [marks_none fun c hc hu => (hblocks c hc hu).1]
      refine alone_finishReceive (cs := b.canonicals) rfl fun m' hm' hg => ?_
      have hl : Later (Receiving b) n m' := hm.trans (hm'.mono fun _ h => h.elim)
      refine main now m' (fun _ => .done true) hnow (Nat.le_trans hnow' hm'.clock) rfl (hl.mono ?_) ?_ hg
      · rintro e (h | rfl)
        · exact handling_report e h
        · trivial
      · intro e b' ch hd
        rcases hl.all _ hd with ⟨r, h⟩ | h <;> cases h
    · intro c hc hu hd
      rw [(hblocks c hc hu).2] at hd; cases hd
  · refine alone_sendBundle hinv ?_ (fun h => absurd hsrc h)
    intro _ now m hnow hnow' hm hg
    refine main now m _ hnow hnow' rfl (hm.mono fun _ h => h.elim) ?_ hg
    intro e b' ch hd
    exact hm.all _ hd

end Dtn.Proc
