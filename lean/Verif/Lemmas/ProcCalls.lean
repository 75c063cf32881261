import Verif.Lemmas.ProcForward
/-! What a single call does when nothing else happens. -/

namespace Dtn.Proc
open Routing (Notification Answer)
open Spec

attribute [local irreducible] RG

variable {Q : List Prog → Node → Prop} {n m : Node}

/-- The router is told about the bundle before anything else can happen to it. -/
theorem alone_dispatch_note {bp : Pack} {b : Bundle} {k : Bool → Prog} (hb : n.store.getBundle bp.id = some b)
    (hk : ∀ pool m, Later (fun e => e = .note (.incomingBundle b)) n m → .note (.incomingBundle b) ∈ newEvents n m →
      Q pool m) : Alone Q (dispatch bp k) n := by
  unfold dispatch
  refine alone_read fun t ht => ?_
  have hb' : (n.at t).store.getBundle bp.id = some b := hb
  rw [hb']
  dsimp only
  refine alone_set fun t2 ht2 => .stop (hk _ _ ?_ ?_)
  · exact ((Later.time n ht).trans (.time _ ht2)).trans (Later.log (E := fun e => e = .note (.incomingBundle b)) _ _ rfl)
  · rw [newEvents_eq (es := [.note (.incomingBundle b)]) rfl]; simp

theorem send_dispatches {b : Bundle} (i : Good n) (hs : b.primary.source = .none ∨ b.primary.source ∈ n.agents.eids)
    (hr : Reaches .quiet ⟨n, [(Call.send b).prog]⟩ ⟨m, []⟩) : .note (.incomingBundle b) ∈ newEvents n m := by
  have h : Alone (fun _ m => n.events <+: m.events ∧ .note (.incomingBundle b) ∈ newEvents n m) (Call.send b).prog n := by
    refine alone_sendBundle i.inv ?_ fun h => absurd hs h
    intro _ now m1 _ _ h1 hg
    exact alone_dispatch_note (bp := (Pack.ofBundle now b).add .dispatchPending) hg fun pool m2 h2 he =>
      ⟨h1.past.trans h2.past, newEvents_left h1.past h2.past he⟩
  obtain ⟨n', pool, ⟨hp, he⟩, -, -, b2, -, -⟩ := h.run i (rg_call Good.acts _) hr
  exact newEvents_right hp b2.past he

theorem send_foreign {b : Bundle} (i : Good n) (hs : ¬ (b.primary.source = .none ∨ b.primary.source ∈ n.agents.eids))
    (hr : Reaches .quiet ⟨n, [(Call.send b).prog]⟩ ⟨m, []⟩) :
    m.store.getBundle b.id = none ∧ ∀ e ∈ newEvents n m, (∃ r, e = .report r) ∨ ∃ c, e = .removed b.id c := by
  have h : Alone (fun pool m => (∃ ok, pool = [.done ok]) ∧ Later (fun e => (∃ r, e = .report r) ∨ ∃ c, e = .removed b.id c) n m ∧
      m.store.getBundle b.id = none) (Call.send b).prog n := by
    refine alone_sendBundle i.inv (fun h => absurd h hs) ?_
    intro _ now m1 reason c h1 hg
    refine alone_delete (h1.inv i.inv) (by simp [Pack.has_add]) ?_
    intro ok m2 h2 hg2
    refine .stop ⟨⟨_, rfl⟩, (h1.mono fun _ h => h.elim).trans (h2.mono ?_), hg2⟩
    rintro e (h | h)
    · exact .inl h
    · exact .inr ⟨_, h⟩
  obtain ⟨n', pool, ⟨⟨ok, rfl⟩, hl, hg⟩, hr', -, -, -, -⟩ := h.run i (rg_call Good.acts _) hr
  obtain ⟨t, ht, -⟩ := quiet_ended (.inr ⟨_, rfl⟩) hr'
  simp only at ht
  subst ht
  exact ⟨hg, hl.all⟩

/-- All that happens to a bundle the node takes on. -/
theorem takesOn_run {c : Call} {b : Bundle} (i : Good n) (ht : TakesOn n b c)
    (hrec : b.primary.destination ∈ n.agents.eids → b.isAdmin = true → HasRecord n.cfg b)
    (hr : Reaches .quiet ⟨n, [c.prog]⟩ ⟨m, []⟩) :
    ∃ n', After (Handling b) n n' ∧ Base n' m ∧ Good m ∧
      (b.primary.destination ∈ n.agents.eids → ∃ ch, .delivered b.primary.destination b ch ∈ newEvents n n') ∧
      (b.primary.destination ∉ n.agents.eids → ∀ e b' ch, .delivered e b' ch ∉ newEvents n n') ∧
      (b.primary.destination.nodeId = n.cfg.hostEid.nodeId → ∃ t, m = n'.at t) ∧
      (b.primary.destination.nodeId ≠ n.cfg.hostEid.nodeId → ∃ bp, bp.id = b.id ∧
        Reaches .quiet ⟨n', [forward bp .done]⟩ ⟨m, []⟩ ∧ Good n' ∧ n'.store.getMetadata b.id ≠ none ∧
        n.clock ≤ bp.receivedTime ∧ bp.receivedTime ≤ n'.clock ∧
        (b.primary.destination ∉ n.agents.eids → n'.store.getBundle b.id = some b)) := by
  have h : Alone (fun pool n' => After (Handling b) n n' ∧
      (b.primary.destination ∈ n.agents.eids → ∃ ch, .delivered b.primary.destination b ch ∈ newEvents n n') ∧
      (b.primary.destination ∉ n.agents.eids → ∀ e b' ch, .delivered e b' ch ∉ newEvents n n') ∧
      n'.store.getMetadata b.id ≠ none ∧
      ((b.primary.destination.nodeId = n.cfg.hostEid.nodeId ∧ pool = [.done true]) ∨
       (b.primary.destination.nodeId ≠ n.cfg.hostEid.nodeId ∧ ∃ bp, bp.id = b.id ∧ pool = [.done true, forward bp .done] ∧
         n.clock ≤ bp.receivedTime ∧ bp.receivedTime ≤ n'.clock ∧
        (b.primary.destination ∉ n.agents.eids → n'.store.getBundle b.id = some b))))
      c.prog n := by
    refine alone_takesOn i.inv ht hrec ?_
    intro bp m1 k hid hdest hrt hrt' hk hl _ hd hnd hmeta hst
    unfold dispatchRemote
    refine alone_read fun t2 ht2 => ?_
    have hl2 : After (Handling b) n (m1.at t2) := hl.trans (Later.time m1 ht2).toAfter
    have he : newEvents n (m1.at t2) = newEvents n m1 := rfl
    have hloc : (m1.at t2).isLocal bp.destination = decide (b.primary.destination.nodeId = n.cfg.hostEid.nodeId) := by
      unfold Node.isLocal
      rw [hdest, show (m1.at t2).cfg = n.cfg from hl.cfg, Bool.beq_eq_decide_eq]
    rw [hloc]
    split
    · rename_i h
      simp only [Bool.not_eq_true', decide_eq_false_iff_not] at h
      rw [hk]
      exact .spawn ⟨hl2, by rw [he]; exact hd, by rw [he]; exact hnd, hmeta, .inr ⟨h, bp, hid, rfl, hrt, Nat.le_trans hrt' ht2, hst⟩⟩
    · rename_i h
      simp only [Bool.not_eq_true', decide_eq_false_iff_not, not_not] at h
      rw [hk]
      exact .stop ⟨hl2, by rw [he]; exact hd, by rw [he]; exact hnd, hmeta, .inl ⟨h, rfl⟩⟩
  obtain ⟨n', pool, ⟨hl, hd, hnd, hmeta, hp⟩, hr', -, b2, i1, i2⟩ := h.run i (rg_call Good.acts _) hr
  refine ⟨n', hl, b2, i2, hd, hnd, ?_, ?_⟩
  · intro hloc
    rcases hp with ⟨-, rfl⟩ | ⟨h, -⟩
    · obtain ⟨t, ht, -⟩ := quiet_ended (.inr ⟨_, rfl⟩) hr'; exact ⟨t, ht⟩
    · exact absurd hloc h
  · intro hrem
    rcases hp with ⟨h, -⟩ | ⟨-, bp, hid, rfl, hrt, hrt', hst⟩
    · exact absurd h hrem
    · exact ⟨bp, hid, drop_done_ended hr', i1, hmeta, hrt, hrt', hst⟩

theorem keptBlocks_none {cs : List Block} (h : ∀ c ∈ cs, UnknownBlock c → c.flags.remove = false) : keptBlocks cs = cs := by
  unfold keptBlocks
  rw [List.filter_eq_self]
  intro c hc
  by_cases hu : 11 ≤ c.btype
  · simp [h c hc hu]
  · simp [hu]

theorem marks_pre {pre : List Block} (h : ∀ x ∈ pre, UnknownBlock x ∧ x.flags.remove = false) (cs : List Block) :
    ∀ index marked, marks (pre ++ cs) index marked = marks cs (index + pre.length) marked := by
  induction pre with
  | nil => intro _ _; rfl
  | cons c pre ih =>
    intro index marked
    obtain ⟨hu, hr⟩ := h c (by simp)
    have hn : ¬ c.btype < 11 := by unfold UnknownBlock at hu; omega
    rw [List.cons_append, marks, if_neg hn, hr]
    simp only [Bool.false_eq_true, if_false]
    rw [ih (fun x hx => h x (by simp [hx]))]
    congr 1
    simp only [List.length_cons]; omega

theorem removeBlocks_simple {cs : List Block} (h : InFront cs) : removeBlocks (marks cs 0 []) cs = some (keptBlocks cs) := by
  rcases h with h | ⟨pre, c, post, rfl, hpre, hu, hpost⟩
  · rw [marks_none h, keptBlocks_none h]; rfl
  · rw [marks_pre hpre, marks]
    have hn : ¬ c.btype < 11 := by unfold UnknownBlock at hu; omega
    rw [if_neg hn, marks_none hpost]
    have k1 : keptBlocks pre = pre := keptBlocks_none fun x hx _ => (hpre x hx).2
    have k2 : keptBlocks post = post := keptBlocks_none hpost
    have k3 : keptBlocks (pre ++ c :: post) = pre ++ (if c.flags.remove then post else c :: post) := by
      rw [← k1, ← k2]
      unfold keptBlocks
      rw [List.filter_append, List.filter_cons]
      have : 11 ≤ c.btype := hu
      cases hr : c.flags.remove <;> simp [this]
    rw [k3]
    cases hr : c.flags.remove
    · simp [removeBlocks]
    · simp [removeBlocks, List.eraseIdx_append_of_length_le]

theorem receive_kept {b : Bundle} (i : Good n) (hnew : n.store.getBundle b.id = none) (hs : InFront b.canonicals)
    (hdel : ∀ c ∈ b.canonicals, UnknownBlock c → c.flags.deleteBundle = false)
    (hr : Reaches .quiet ⟨n, [(Call.receive b).prog]⟩ ⟨m, []⟩) :
    .note (.incomingBundle { b with canonicals := keptBlocks b.canonicals }) ∈ newEvents n m := by
  have h : Alone (fun _ m => n.events <+: m.events ∧
      .note (.incomingBundle { b with canonicals := keptBlocks b.canonicals }) ∈ newEvents n m) (Call.receive b).prog n := by
    refine alone_receive i.inv hnew ?_ fun c hc hu hd => absurd (hdel c hc hu) (by simp [hd])
    intro _ now m1 _ _ h1
    refine alone_finishReceive (removeBlocks_simple hs) ?_
    intro m2 h2 hg
    exact alone_dispatch_note (bp := (Pack.ofBundle now b).add .dispatchPending) hg fun pool m3 h3 he =>
      ⟨h1.past.trans (h2.past.trans h3.past), newEvents_left h1.past (h2.past.trans h3.past) (newEvents_left h2.past h3.past he)⟩
  obtain ⟨n', pool, ⟨hp, he⟩, -, -, b2, -, -⟩ := h.run i (rg_call Good.acts _) hr
  exact newEvents_right hp b2.past he

theorem receive_deleted {b : Bundle} (i : Good n) (hnew : n.store.getBundle b.id = none)
    (hdel : ∃ c ∈ b.canonicals, UnknownBlock c ∧ c.flags.deleteBundle = true)
    (hr : Reaches .quiet ⟨n, [(Call.receive b).prog]⟩ ⟨m, []⟩) :
    m.store.getBundle b.id = none ∧
    ∀ e ∈ newEvents n m, (∃ r, e = .report r) ∨ e = .accepted b ∨ ∃ c, e = .removed b.id c := by
  have h : Alone (fun pool m => (∃ ok, pool = [.done ok]) ∧
      Later (fun e => (∃ r, e = .report r) ∨ e = .accepted b ∨ ∃ c, e = .removed b.id c) n m ∧
      m.store.getBundle b.id = none) (Call.receive b).prog n := by
    obtain ⟨c, hc, hu, hd⟩ := hdel
    refine alone_receive i.inv hnew (fun h => absurd (h c hc hu) (by simp [hd])) ?_
    intro c' _ _ _ ok m2 h2 hg2
    refine .stop ⟨⟨_, rfl⟩, h2.mono ?_, hg2⟩
    rintro e ((h | h) | h)
    · exact .inl h
    · exact .inr (.inl h)
    · exact .inr (.inr ⟨_, h⟩)
  obtain ⟨n', pool, ⟨⟨ok, rfl⟩, hl, hg⟩, hr', -, -, -, -⟩ := h.run i (rg_call Good.acts _) hr
  obtain ⟨t, ht, -⟩ := quiet_ended (.inr ⟨_, rfl⟩) hr'
  simp only at ht
  subst ht
  exact ⟨hg, hl.all⟩

end Dtn.Proc
