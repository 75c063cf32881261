import Verif.Lemmas.ProcCalls
/-! Programs all of whose steps respect a relation, whatever the state they are started in. -/

namespace Dtn.Proc
open Routing (Notification Answer)
open Spec

/-- Every step of the program, and of the tasks it starts, respects `G`, if the store is sound. -/
def Only (G : Node → Node → Prop) : Prog → Prop
  | .done _ => True
  | .panic => True
  | .act f k => ∀ m, m.store.Inv → G m (f m) ∧ Only G (k m)
  | .route bp k => ∀ a, (∀ m : Node, G m (m.log (.asked bp a))) ∧ Only G (k a)
  | .choose k => ∀ b, Only G (k b)
  | .fresh k => ∀ s, Only G (k s)
  | .spawn t k => Only G t ∧ Only G k
  | .wait _ k => Only G k

variable {G : Node → Node → Prop} {n m : Node}

theorem Only.step {p : Prog} {ps : List Prog} (hrefl : ∀ n, G n n) (i : n.store.Inv) (h : Only G p) (s : TaskStep n p m ps) :
    G n m ∧ ∀ q ∈ ps, Only G q := by
  cases s with
  | done | panic => exact ⟨hrefl _, by simp⟩
  | act => exact ⟨(h n i).1, by simpa using (h n i).2⟩
  | route bp k a => exact ⟨(h a).1 n, by simpa using (h a).2⟩
  | choose k b => exact ⟨hrefl _, by simpa using h b⟩
  | fresh k s => exact ⟨hrefl _, by simpa using h s⟩
  | spawn t k => exact ⟨hrefl _, by simpa using ⟨h.2, h.1⟩⟩
  | wait c k => exact ⟨hrefl _, fun q hq => by rw [List.mem_singleton.mp hq]; exact h⟩

theorem Only.reaches {s t : Sys} (hrefl : ∀ n, G n n) (htrans : ∀ a b c, G a b → G b c → G a c)
    (htime : ∀ (n : Node) t, n.clock ≤ t → G n { n with clock := t }) (i : Good s.node)
    (hrg : ∀ p ∈ s.pool, RG Good Base p (fun _ _ => True) s.node) (h : ∀ p ∈ s.pool, Only G p) (hr : Reaches .quiet s t) :
    G s.node t.node ∧ ∀ p ∈ t.pool, Only G p := by
  induction hr with
  | refl => exact ⟨hrefl _, h⟩
  | @step u v hu hs ih =>
    obtain ⟨g, hp⟩ := ih
    have iu : u.node.store.Inv := (quiet_good i hrg hu).2.1.inv
    cases hs with
    | task l r p n n' ps ht =>
      obtain ⟨g', hq⟩ := Only.step hrefl iu (hp p (by simp)) ht
      refine ⟨htrans _ _ _ g g', ?_⟩
      intro q hq'
      simp only [List.append_assoc, List.mem_append] at hq'
      rcases hq' with h | h | h
      · exact hp q (by simp [h])
      · exact hq q h
      · exact hp q (by simp [h])
    | call n pool c h => exact h.elim
    | change n n' pool h => obtain ⟨t, ht, rfl⟩ := h; exact ⟨htrans _ _ _ g (htime _ _ ht), hp⟩

theorem only_read {k : Node → Prog} (hrefl : ∀ n, G n n) (h : ∀ m, m.store.Inv → Only G (k m)) : Only G (.read k) :=
  fun m i => ⟨hrefl m, h m i⟩

theorem only_set {f : Node → Node} {k : Prog} (hf : ∀ m, G m (f m)) (h : Only G k) : Only G (.set f k) :=
  fun m _ => ⟨hf m, h⟩

/-- The bundle is not to be sent any more. -/
def Ended (c : Cause) : Prop := (∃ b now, c = .lifetime b now) ∨ (∃ b, c = .hops b) ∨ ∃ b age, c = .age b age

/-- What `forward` does to a node after asking the router, step by step. -/
structure Sending (G : Node → Node → Prop) (bid : String) : Prop where
  refl : ∀ n, G n n
  sync : ∀ n bp c, bp.id = bid → bp.hasAny = true → G n (n.sync bp c)
  delete : ∀ n bp c, bp.id = bid → Ended c → G n (n.sync bp c)
  router : ∀ n bp a, G n (n.remove bid (.router bp a))
  byRecord : ∀ n ref b r, G n (n.remove ref (.statusReport b r))
  report : ∀ n b r, r.report = b → G n ((n.push b).log (.report r))
  queue : ∀ n now (b : Bundle) , G n (n.sync ((Pack.ofBundle now b).add .forwardPending))
  sending : ∀ n t, t.stored.id = bid → G n (n.log (.sending t))
  outcome : ∀ n t ok, t.stored.id = bid → G n (n.log (.outcome t ok))
  failed : ∀ n node, G n (n.log (.note (.sendingFailed bid node)))
  succeeded : ∀ n node, G n (n.log (.note (.sendingSucceeded bid node)))
  other : ∀ n m : Node, m.events = n.events → m.store = n.store → G n m

/-- What `forward` does to a node, step by step. -/
structure Forwarding (G : Node → Node → Prop) (bid : String) : Prop extends Sending G bid where
  asked : ∀ n bp a, bp.id = bid → G n (n.log (.asked bp a))

/-- Properties of programs that hold if the steps respect `G` and the rest has the property. -/
structure Closed (G : Node → Node → Prop) (P : Prog → Prop) : Prop where
  panic : P .panic
  act : ∀ {f : Node → Node} {k : Node → Prog}, (∀ m, m.store.Inv → G m (f m) ∧ P (k m)) → P (.act f k)
  fresh : ∀ {k : String → Prog}, (∀ s, P (k s)) → P (.fresh k)
  spawn : ∀ {t k : Prog}, Only G t → P k → P (.spawn t k)
  wait : ∀ {c : Node → Bool} {k : Prog}, P k → P (.wait c k)

theorem Closed.read {P : Prog → Prop} (C : Closed G P) {k : Node → Prog} (hrefl : ∀ n, G n n)
    (h : ∀ m, m.store.Inv → P (k m)) : P (.read k) :=
  C.act fun m i => ⟨hrefl m, h m i⟩

theorem Closed.set {P : Prog → Prop} (C : Closed G P) {f : Node → Node} {k : Prog} (hf : ∀ m, G m (f m)) (h : P k) : P (.set f k) :=
  C.act fun m _ => ⟨hf m, h⟩

theorem Closed.only : Closed G (Only G) := ⟨trivial, id, id, fun h h' => ⟨h, h'⟩, id⟩

namespace Sending
variable {bid : String} {P : Prog → Prop}

theorem sendReport (F : Sending G bid) (C : Closed G P) {bp : Pack} {cause : Bundle} {pos : Pos} {reason : Reason} {k : Prog} (hk : P k) :
    P (sendReport bp cause pos reason k) := by
  unfold Proc.sendReport
  split
  · exact hk
  · refine C.read F.refl fun m _ => ?_
    split
    · exact hk
    · refine C.read F.refl fun m2 _ => ?_
      split
      · exact hk
      · exact C.fresh fun s => C.act fun m3 _ => ⟨F.report _ _ _ rfl, C.set (fun m4 => F.queue _ _ _) hk⟩

theorem reportIf (F : Sending G bid) (C : Closed G P) {asked : Bool} {bp : Pack} {b : Bundle} {pos : Pos} {reason : Reason} {k : Prog}
    (hk : P k) : P (reportIf asked bp b pos reason k) := by
  unfold Proc.reportIf
  refine C.read F.refl fun m _ => ?_
  split
  · exact F.sendReport C hk
  · exact hk

theorem deletes (F : Sending G bid) (C : Closed G P) {bp : Pack} {reason : Reason} {cause : Cause} {k : Bool → Prog} (hid : bp.id = bid)
    (hc : Ended cause) (hk : ∀ ok, P (k ok)) : P (Proc.delete bp reason cause k) := by
  unfold Proc.delete
  refine C.read F.refl fun m _ => ?_
  split
  · exact hk _
  · exact F.reportIf C <| C.act fun m _ => ⟨F.delete _ _ _ ((Pack.id_clear bp).trans hid) hc, hk _⟩

theorem adminValid (F : Sending G bid) (C : Closed G P) {b : Bundle} {k : Bool → Prog} (hk : ∀ ok, P (k ok)) :
    P (adminValid b k) := by
  unfold Proc.adminValid
  split
  · exact hk _
  · split
    · exact hk _
    · split
      · refine C.read F.refl fun m _ => ?_
        split
        · unfold inspectReport
          split
          · split
            · exact hk _
            · refine C.read F.refl fun m _ => ?_
              split
              · exact hk _
              · split
                · exact hk _
                · exact C.set (fun m => F.byRecord _ _ _ _) (hk _)
          · exact hk _
        · exact hk _
      · exact hk _

theorem transferTask (F : Sending G bid) {t : Transfer} (hid : t.stored.id = bid) : Only G (transferTask bid t) := by
  unfold Proc.transferTask
  have o : ∀ n m : Node, m.events = n.events → m.store = n.store → G n m := F.other
  refine only_set (fun m => F.sending _ _ hid) fun ok => only_set (fun m => F.outcome _ _ _ hid) ?_
  split
  · refine only_set (fun m => o _ _ rfl rfl) ?_
    split
    · exact only_set (fun m => o _ _ rfl rfl) trivial
    · exact only_set (fun m => F.failed _ _) fun m _ =>
        ⟨o _ _ rfl rfl, only_set (fun m => o _ _ rfl rfl) (only_set (fun m => o _ _ rfl rfl) trivial)⟩
  · refine only_set (fun m => o _ _ rfl rfl) (only_set (fun m => o _ _ rfl rfl) ?_)
    split
    · exact only_set (fun m => o _ _ rfl rfl) trivial
    · exact only_set (fun m => F.succeeded _ _) (only_set (fun m => o _ _ rfl rfl) trivial)

theorem spawnTransfers (F : Sending G bid) (C : Closed G P) {mk : Sender → Transfer} {k : Prog} (ss : List Sender)
    (hid : ∀ s, (mk s).stored.id = bid) (hk : P k) : P (spawnTransfers bid mk ss k) := by
  induction ss with
  | nil => exact hk
  | cons s ss ih => exact C.spawn (F.transferTask (hid s)) ih

theorem afterTransfers (F : Sending G bid) (C : Closed G P) {bp : Pack} {b : Bundle} {a : Answer} {g : Nat} {k : Bool → Prog}
    (hid : bp.id = bid) (hk : ∀ ok, P (k ok)) : P (afterTransfers bp b a g k) := by
  unfold Proc.afterTransfers
  refine C.read F.refl fun m _ => ?_
  split
  · refine F.reportIf C ?_
    split
    · exact C.act fun m _ => ⟨hid ▸ F.router _ _ _, hk _⟩
    · split
      · exact F.adminValid C fun _ => C.act fun m _ => ⟨F.sync _ _ _ (show (bp.add _).id = bid from hid)
          (hasAny_of (c := .contraindicated) (by simp [Pack.has_add])), hk _⟩
      · exact hk _
  · exact hk _

theorem prepare (F : Sending G bid) (C : Closed G P) {bp : Pack} {a : Answer} {k : Bool → Prog} (hid : bp.id = bid)
    (hk : ∀ ok, P (k ok)) : P (prepare bp a k) := by
  unfold Proc.prepare
  refine C.read F.refl fun m i => ?_
  split
  · exact hk _
  rename_i b hb
  have hbid : b.id = bid := (i.bundleId _ _ hb).trans hid
  have hdel : ∀ (b1 : Bundle) (now : Nat) reason c, b1.primary = b.primary → Ended c →
      P (Proc.delete (Pack.ofBundle now b1) reason c fun _ => k false) := by
    intro b1 now reason c hp hc
    refine F.deletes C ?_ hc fun _ => hk _
    rw [Pack.id_ofBundle, ← hbid]; exact congrArg Primary.bid hp
  refine C.read F.refl fun m2 _ => ?_
  split
  · exact C.read F.refl fun m3 _ => hdel _ _ _ _ rfl (.inl ⟨_, _, rfl⟩)
  split
  · exact C.read F.refl fun m3 _ => hdel _ _ _ _ (raiseHop_primary b) (.inr (.inl ⟨_, rfl⟩))
  refine C.read F.refl fun m3 _ => ?_
  split
  · exact C.panic
  rename_i b2 hb2
  refine C.read F.refl fun m4 _ => ?_
  dsimp only
  split
  · refine C.read F.refl fun m5 _ => hdel _ _ _ _ ?_ (.inr (.inr ⟨_, _, rfl⟩))
    rw [raiseAge_primary, setPrevious_primary hb2, raiseHop_primary]
  · unfold sendAll
    refine C.act fun m5 _ => ⟨F.other _ _ rfl rfl, ?_⟩
    rw [hid]
    refine F.spawnTransfers C _ (fun _ => hbid) (C.wait ?_)
    exact F.afterTransfers C hid hk

end Sending

namespace Forwarding
variable {bid : String}

theorem forward (F : Forwarding G bid) {bp : Pack} {k : Bool → Prog} (hid : bp.id = bid)
    (hk : ∀ ok, Only G (k ok)) : Only G (forward bp k) := by
  unfold Proc.forward
  dsimp only
  have hid' : ((bp.add .forwardPending).del .dispatchPending).id = bid := hid
  have hany : ((bp.add .forwardPending).del .dispatchPending).hasAny = true := hasAny_of (fwdPack_has bp)
  generalize (bp.add .forwardPending).del .dispatchPending = bp' at hid' hany
  intro m _
  refine ⟨F.sync _ _ _ hid' hany, ?_⟩
  dsimp only
  split
  · exact hk _
  · intro a
    refine ⟨fun m => F.asked _ _ _ hid', ?_⟩
    dsimp only
    split
    · exact hk _
    · split
      · split
        · exact fun m _ => ⟨hid' ▸ F.router _ _ _, hk _⟩
        · exact hk _
      · exact F.toSending.prepare .only hid' hk

end Forwarding

/-- Only events of this kind happen. -/
def Events (E : Event → Prop) (n m : Node) : Prop := n.events <+: m.events ∧ ∀ e ∈ newEvents n m, E e

theorem Events.refl (E : Event → Prop) (n : Node) : Events E n n :=
  ⟨List.prefix_refl _, by rw [newEvents_eq (es := []) (by simp)]; simp⟩

theorem Events.same {E : Event → Prop} {n m : Node} (h : m.events = n.events) : Events E n m :=
  ⟨by rw [h]; exact List.prefix_refl _, by rw [newEvents_eq (es := []) (by simp [h])]; simp⟩

theorem Events.log {E : Event → Prop} {n m : Node} {e : Event} (h : m.events = n.events ++ [e]) (he : E e) : Events E n m :=
  ⟨by rw [h]; exact List.prefix_append _ _, by rw [newEvents_eq h]; simpa using he⟩

theorem newEvents_append {n m k : Node} (h : n.events <+: m.events) (h' : m.events <+: k.events) :
    newEvents n k = newEvents n m ++ newEvents m k := by
  obtain ⟨es, h⟩ := h; obtain ⟨es', h'⟩ := h'
  rw [newEvents_eq h.symm, newEvents_eq h'.symm]
  exact newEvents_eq (by rw [← h', ← h, List.append_assoc])

theorem Events.trans {E : Event → Prop} {a b c : Node} (h : Events E a b) (h' : Events E b c) : Events E a c := by
  refine ⟨h.1.trans h'.1, ?_⟩
  rw [newEvents_append h.1 h'.1]
  intro e he
  rcases List.mem_append.mp he with he | he
  · exact h.2 e he
  · exact h'.2 e he

theorem Events.remove {E : Event → Prop} {n : Node} {bid : String} {c : Cause} (h : E (.removed bid c)) :
    Events E n (n.remove bid c) := by
  unfold Node.remove
  split
  · exact .log rfl h
  · exact .same rfl

/-- The events of forwarding a bundle. -/
def ForwardEvent (bid : String) : Event → Prop
  | .asked bp _ => bp.id = bid
  | .sending t => t.stored.id = bid
  | .outcome t _ => t.stored.id = bid
  | .note x => (∃ node, x = .sendingFailed bid node) ∨ ∃ node, x = .sendingSucceeded bid node
  | .report _ => True
  | .removed x c => (x = bid ∧ (Ended c ∨ ∃ bp a, c = .router bp a)) ∨ ∃ b r, c = .statusReport b r
  | _ => False

theorem forwardEvents (bid : String) : Forwarding (Events (ForwardEvent bid)) bid where
  refl := Events.refl _
  sync n bp c h ha := by
    unfold Node.sync
    rw [ha]
    exact .same rfl
  delete n bp c h hc := by
    unfold Node.sync
    split
    · exact .remove (.inl ⟨h, .inl hc⟩)
    · exact .same rfl
  router n bp a := .remove (.inl ⟨rfl, .inr ⟨bp, a, rfl⟩⟩)
  byRecord n ref b r := .remove (.inr ⟨b, r, rfl⟩)
  report n b r _ := .log rfl trivial
  queue n now b := by
    unfold Node.sync
    have : ((Pack.ofBundle now b).add .forwardPending).hasAny = true :=
      hasAny_of (c := .forwardPending) (by simp [Pack.has_add])
    rw [this]
    exact .same rfl
  asked n bp a h := .log rfl h
  sending n t h := .log rfl h
  outcome n t ok h := .log rfl h
  failed n node := .log rfl (.inl ⟨node, rfl⟩)
  succeeded n node := .log rfl (.inr ⟨node, rfl⟩)
  other n m h _ := .same h

/-- All that can happen while a bundle is forwarded. -/
theorem forward_events {bp : Pack} (i : Good n) (hr : Reaches .quiet ⟨n, [forward bp .done]⟩ ⟨m, []⟩) :
    ∀ e ∈ newEvents n m, ForwardEvent bp.id e := by
  have := Only.reaches (G := Events (ForwardEvent bp.id)) (Events.refl _) (fun _ _ _ => Events.trans) (fun _ _ _ => .same rfl) i
    (by simpa using rg_forward Good.acts (fun _ _ _ => trivial) fun _ => rg_end (.inr ⟨_, rfl⟩))
    (by simpa using (forwardEvents bp.id).forward (k := .done) rfl fun _ => trivial) hr
  exact this.1.2

/-- What holds between any two points of an execution. -/
theorem base_between {cfg : Config} {clock : Nat} {s t : Sys} (before : Reaches .any ⟨Node.start cfg clock, []⟩ s)
    (run : Reaches .any s t) : Base s.node t.node := by
  have hcall : ∀ c, World.any.call c → ∀ n, Good n → (Base n (n.log (.called c)) ∧ Good (n.log (.called c))) ∧
      RG Good Base c.prog (fun _ _ => True) (n.log (.called c)) := fun c _ n i =>
    ⟨⟨Base.log _ _, Good.acts.called _ _ i⟩, rg_call Good.acts c⟩
  have hchange : ∀ n m, World.any.change n m → Good n → Base n m ∧ Good m := fun n m h i =>
    ⟨Base.outside h, i.outside h⟩
  obtain ⟨-, i, hp⟩ := RG.reaches (I := Good) (G := Base) Base.refl (fun _ _ _ => Base.trans) (w := .any) hcall hchange
    before (Good.start cfg clock) (by simp)
  exact (RG.reaches (I := Good) (G := Base) Base.refl (fun _ _ _ => Base.trans) (w := .any) hcall hchange run i hp).1

theorem Reaches.toAny {s t : Sys} (h : Reaches .quiet s t) : Reaches .any s t := by
  induction h with
  | refl => exact .refl _
  | step _ hs ih =>
    refine ih.step ?_
    cases hs with
    | task l r p n n' ps h => exact .task l r p n n' ps h
    | call n pool c h => exact h.elim
    | change n n' pool h => obtain ⟨t, -, rfl⟩ := h; exact .change _ _ _ (.clock _ _)

end Dtn.Proc
