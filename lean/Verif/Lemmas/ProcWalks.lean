import Verif.Lemmas.ProcForward
/-! One more walk through all programs: properties of programs that hold if every step respects a relation. -/

namespace Dtn.Proc
open Routing (Notification Answer)
open Spec

/-- The event says nothing about endpoints, and is no question to the router and no call from outside. -/
def Silent : Event → Prop
  | .called .. => False
  | .delivered .. => False
  | .popped .. => False
  | .asked .. => False
  | _ => True

/-- Properties `P` of programs that hold if the steps made in states with `J` respect `G`, the tasks that are started have
the property `S`, and the rest of the program has the property. -/
structure Calm (G : Node → Node → Prop) (J : Node → Prop) (S P : Prog → Prop) : Prop where
  aside : ∀ (n m : Node) es, m.groups = n.groups → m.agents = n.agents → m.clock = n.clock → m.events = n.events ++ es →
    (∀ e ∈ es, Silent e) → G n m
  deliver : ∀ n e b room, G n (n.deliver e b room)
  pop : ∀ n e, G n (n.popAgent e)
  act : ∀ {f : Node → Node} {k : Node → Prog}, (∀ m, J m → G m (f m) ∧ P (k m)) → P (.act f k)
  choose : ∀ {k : Bool → Prog}, (∀ b, P (k b)) → P (.choose k)
  fresh : ∀ {k : String → Prog}, (∀ s, P (k s)) → P (.fresh k)
  spawn : ∀ {t k : Prog}, S t → P k → P (.spawn t k)
  sends : ∀ bp b out a checkedAt agedAt receivedAt k, (∀ g, P (afterTransfers bp out a g k)) →
    P (sendAll bp b out a checkedAt agedAt receivedAt k)
  route : ∀ bp k, (∀ a, P (answered bp k a)) → P (.route bp (answered bp k))

namespace Calm
variable {G : Node → Node → Prop} {J : Node → Prop} {S P : Prog → Prop} (W : Calm G J S P)
include W

theorem refl (n : Node) : G n n := W.aside n n [] rfl rfl rfl (by simp) (by simp)

theorem same {n m : Node} (hg : m.groups = n.groups) (ha : m.agents = n.agents) (hc : m.clock = n.clock) (he : m.events = n.events) : G n m :=
  W.aside n m [] hg ha hc (by simp [he]) (by simp)

theorem log {n m : Node} {e : Event} (hg : m.groups = n.groups) (ha : m.agents = n.agents) (hc : m.clock = n.clock) (he : m.events = n.events ++ [e])
    (h : Silent e) : G n m :=
  W.aside n m [e] hg ha hc he (by simpa using h)

theorem remove (n : Node) (bid : String) (c : Cause) : G n (n.remove bid c) := by
  unfold Node.remove
  split
  · exact W.log rfl rfl rfl rfl trivial
  · exact W.same rfl rfl rfl rfl

theorem sync (n : Node) (bp : Pack) (c : Cause) : G n (n.sync bp c) := by
  unfold Node.sync
  split
  · exact W.remove _ _ _
  · exact W.same rfl rfl rfl rfl

theorem removeIfSingleton (n : Node) (b : Bundle) : G n (n.removeIfSingleton b) := by
  unfold Node.removeIfSingleton
  split
  · exact W.remove _ _ _
  · exact W.refl _

theorem add (n : Node) (b : Bundle) : G n (n.addIfUnknown b) := by
  unfold Node.addIfUnknown
  split
  · exact W.log rfl rfl rfl rfl trivial
  · exact W.log rfl rfl rfl rfl trivial

theorem readJ {k : Node → Prog} (h : ∀ m, J m → P (k m)) : P (.read k) := W.act fun m j => ⟨W.refl m, h m j⟩

theorem read {k : Node → Prog} (h : ∀ m, P (k m)) : P (.read k) := W.readJ fun m _ => h m

theorem set {f : Node → Node} {k : Prog} (hf : ∀ m, G m (f m)) (h : P k) : P (.set f k) := W.act fun m _ => ⟨hf m, h⟩

theorem sendReport {bp : Pack} {cause : Bundle} {pos : Pos} {reason : Reason} {k : Prog} (hk : P k) :
    P (sendReport bp cause pos reason k) := by
  unfold Proc.sendReport
  split
  · exact hk
  · refine W.read fun m => ?_
    split
    · exact hk
    · refine W.read fun m2 => ?_
      split
      · exact hk
      · exact W.fresh fun s => W.act fun m _ => ⟨W.log rfl rfl rfl rfl trivial, W.set (fun m => W.sync _ _ _) hk⟩

theorem reportIf {asked : Bool} {bp : Pack} {b : Bundle} {pos : Pos} {reason : Reason} {k : Prog} (hk : P k) :
    P (reportIf asked bp b pos reason k) := by
  unfold Proc.reportIf
  refine W.read fun m => ?_
  split
  · exact W.sendReport hk
  · exact hk

theorem delete {bp : Pack} {reason : Reason} {cause : Cause} {k : Bool → Prog} (hk : ∀ ok, P (k ok)) :
    P (delete bp reason cause k) := by
  unfold Proc.delete
  refine W.read fun m => ?_
  split
  · exact hk _
  · exact W.reportIf (W.act fun m _ => ⟨W.sync _ _ _, hk _⟩)

theorem adminValid {b : Bundle} {k : Bool → Prog} (hk : ∀ ok, P (k ok)) : P (adminValid b k) := by
  unfold Proc.adminValid
  split
  · exact hk _
  · split
    · exact hk _
    · split
      · refine W.read fun m => ?_
        split
        · unfold inspectReport
          split
          · split
            · exact hk _
            · refine W.read fun m => ?_
              split
              · exact hk _
              · split
                · exact hk _
                · exact W.set (fun m => W.remove _ _ _) (hk _)
          · exact hk _
        · exact hk _
      · exact hk _

theorem contraindicated {bp : Pack} {k : Bool → Prog} (hk : ∀ ok, P (k ok)) : P (contraindicated bp k) :=
  W.act fun _ _ => ⟨W.sync _ _ _, hk _⟩

theorem giveToAgent {eid : EID} {b : Bundle} {k : Bool → Prog} (hk : ∀ ok, P (k ok)) :
    P (giveToAgent eid b k) := by
  refine W.choose fun room => W.act fun m _ => ⟨W.deliver _ _ _ _, ?_⟩
  dsimp only
  split
  · exact hk _
  · have count : P (Prog.set (fun n => { n with stats := { n.stats with delivered := n.stats.delivered + 1 } })
        (k true)) := W.set (fun m => W.same rfl rfl rfl rfl) (hk _)
    split
    · exact W.set (fun m => W.removeIfSingleton _ _) count
    · exact count

theorem finishDelivery {bp : Pack} {b : Bundle} {k : Bool → Prog} (hk : ∀ ok, P (k ok)) :
    P (finishDelivery bp b k) := by
  refine W.act fun m _ => ⟨W.sync _ _ _, ?_⟩
  split
  · exact hk _
  · exact W.giveToAgent hk

theorem deliverBundle {bp : Pack} {b : Bundle} {k : Bool → Prog} (hk : ∀ ok, P (k ok)) :
    P (deliverBundle bp b k) := by
  refine W.act fun m _ => ⟨W.sync _ _ _, ?_⟩
  split
  · exact hk _
  · refine W.read fun m => ?_
    split
    · exact W.reportIf (W.finishDelivery hk)
    · exact W.finishDelivery hk

theorem localDelivery {bp : Pack} {k : Bool → Prog} (hk : ∀ ok, P (k ok)) : P (localDelivery bp k) := by
  refine W.read fun m => ?_
  split
  · exact hk _
  · split
    · refine W.adminValid fun ok => ?_
      split
      · exact W.delete fun _ => hk _
      · exact W.deliverBundle hk
    · exact W.deliverBundle hk

theorem afterTransfers {bp : Pack} {b : Bundle} {a : Answer} {g : Nat} {k : Bool → Prog} (hk : ∀ ok, P (k ok)) :
    P (afterTransfers bp b a g k) := by
  refine W.read fun m => ?_
  split
  · refine W.reportIf ?_
    split
    · exact W.act fun m _ => ⟨W.remove _ _ _, hk _⟩
    · split
      · exact W.adminValid fun _ => W.contraindicated hk
      · exact hk _
  · exact hk _

theorem prepare {bp : Pack} {a : Answer} {k : Bool → Prog}
    (hpanic : ∀ m b host, J m → m.store.getBundle bp.id = some b → setPrevious host (raiseHop b).1 = none → P .panic)
    (hk : ∀ ok, P (k ok)) : P (prepare bp a k) := by
  refine W.readJ fun m j => ?_
  split
  · exact hk _
  rename_i b hb
  refine W.read fun m2 => ?_
  split
  · exact W.read fun m3 => W.delete fun _ => hk _
  split
  · exact W.read fun m3 => W.delete fun _ => hk _
  refine W.read fun m3 => ?_
  split
  · rename_i hp; exact hpanic m b _ j hb hp
  refine W.read fun m4 => ?_
  dsimp only
  split
  · exact W.read fun m5 => W.delete fun _ => hk _
  · exact W.sends _ _ _ _ _ _ _ _ fun _ => W.afterTransfers hk

theorem answered {bp : Pack} {k : Bool → Prog}
    (hpanic : ∀ m b host, J m → m.store.getBundle bp.id = some b → setPrevious host (raiseHop b).1 = none → P .panic)
    (hk : ∀ ok, P (k ok)) (a : Option Answer) : P (answered bp k a) := by
  unfold Proc.answered
  split
  · exact hk _
  · split
    · split
      · exact W.act fun m _ => ⟨W.remove _ _ _, hk _⟩
      · exact hk _
    · exact W.prepare hpanic hk

theorem forward {bp : Pack} {k : Bool → Prog}
    (hpanic : ∀ m b host, J m → m.store.getBundle bp.id = some b → setPrevious host (raiseHop b).1 = none → P .panic)
    (hk : ∀ ok, P (k ok)) : P (forward bp k) := by
  refine W.act fun m _ => ⟨W.sync _ _ _, ?_⟩
  split
  · exact hk _
  · have := W.route (fwdPack bp) k fun a => W.answered (bp := fwdPack bp) hpanic hk a
    unfold Proc.answered at this
    exact this

theorem dispatchRemote (hF : ∀ bp, S (Proc.forward bp .done)) {bp : Pack} {k : Bool → Prog} (hk : ∀ ok, P (k ok)) : P (dispatchRemote bp k) := by
  refine W.read fun m => ?_
  split
  · exact W.spawn (hF _) (hk _)
  · exact hk _

theorem dispatch (hF : ∀ bp, S (Proc.forward bp .done)) (hpanic : P .panic) {bp : Pack} {k : Bool → Prog} (hk : ∀ ok, P (k ok)) : P (dispatch bp k) := by
  refine W.read fun m => ?_
  split
  · exact hpanic
  · refine W.set (fun m => W.log rfl rfl rfl rfl trivial) (W.read fun m => ?_)
    split
    · refine W.localDelivery fun ok => ?_
      split
      · exact hk _
      · exact W.dispatchRemote hF hk
    · exact W.dispatchRemote hF hk

theorem transmit (hF : ∀ bp, S (Proc.forward bp .done)) (hpanic : P .panic) {bp : Pack} {k : Bool → Prog} (hk : ∀ ok, P (k ok)) : P (transmit bp k) := by
  refine W.act fun m _ => ⟨W.sync _ _ _, ?_⟩
  split
  · exact hk _
  · refine W.read fun m => ?_
    split
    · exact W.delete hk
    · exact W.dispatch hF hpanic hk

theorem finishReceive (hF : ∀ bp, S (Proc.forward bp .done)) (hpanic : P .panic) {b : Bundle} {bp : Pack} {l : List Nat} {k : Bool → Prog} (hk : ∀ ok, P (k ok)) :
    P (finishReceive b bp l k) := by
  unfold Proc.finishReceive
  split
  · exact hpanic
  · exact W.set (fun m => W.same rfl rfl rfl rfl) (W.dispatch hF hpanic fun _ => hk _)

theorem scanBlocks (hF : ∀ bp, S (Proc.forward bp .done)) (hpanic : P .panic) {b : Bundle} {bp : Pack} {k : Bool → Prog} (hk : ∀ ok, P (k ok)) (cs : List Block) :
    ∀ index marked, P (scanBlocks b bp k cs index marked) := by
  induction cs with
  | nil => intro _ _; exact W.finishReceive hF hpanic hk
  | cons c cs ih =>
    intro index marked
    unfold Proc.scanBlocks
    split
    · exact ih _ _
    · have cont : P (if c.flags.deleteBundle then Proc.delete bp .blockUnintelligible (.block b c) k
          else Proc.scanBlocks b bp k cs (index + 1) (if c.flags.remove then marked ++ [index] else marked)) := by
        split
        · exact W.delete hk
        · exact ih _ _
      dsimp only
      split
      · refine W.read fun m => ?_
        split
        · exact W.sendReport cont
        · exact cont
      · exact cont

theorem receive (hF : ∀ bp, S (Proc.forward bp .done)) (hpanic : P .panic) {b : Bundle} {k : Bool → Prog} (hk : ∀ ok, P (k ok)) : P (receive b k) := by
  refine W.act fun m _ => ⟨W.add _ _, ?_⟩
  dsimp only
  split
  · refine W.set (fun m => W.same rfl rfl rfl rfl) (W.read fun m => W.act fun m2 _ => ⟨W.sync _ _ _, ?_⟩)
    split
    · exact hk _
    · exact W.reportIf (W.scanBlocks hF hpanic hk _ _ _)
  · exact W.set (fun m => W.same rfl rfl rfl rfl) (hk _)

theorem sweep {k : Prog} (hk : P k) (ms : List Pack) : P (sweep ms k) := by
  induction ms with
  | nil => exact hk
  | cons p ms ih =>
    refine W.read fun m => ?_
    split
    · exact W.set (fun m => W.remove _ _ _) ih
    · exact ih

theorem collect {k : List Pack → Prog} (hk : ∀ l, P (k l)) (bids : List String) : ∀ acc, P (collect bids acc k) := by
  induction bids with
  | nil => intro acc; exact hk acc
  | cons bid bids ih =>
    intro acc
    refine W.read fun m => ?_
    split <;> exact ih _

theorem forwardAll (hdone : ∀ ok, P (.done ok)) (hF : ∀ bp, S (Proc.forward bp .done))
    (hpanic : P .panic) (par : Bool) (bps : List Pack) : P (forwardAll par bps) := by
  induction bps with
  | nil => exact hdone _
  | cons bp bps ih =>
    unfold Proc.forwardAll
    split
    · exact W.spawn (hF _) ih
    · exact W.forward (fun _ _ _ _ _ _ => hpanic) fun _ => ih

omit W in
theorem call (W : Calm G J P P) (hdone : ∀ ok, P (.done ok)) (hpanic : P .panic) (c : Call) : P c.prog := by
  have hF : ∀ bp, P (Proc.forward bp .done) := fun _ => W.forward (fun _ _ _ _ _ _ => hpanic) hdone
  cases c with
  | receive b => exact W.receive hF hpanic hdone
  | send b => exact W.set (fun m => W.same rfl rfl rfl rfl) (W.read fun m => W.transmit hF hpanic hdone)
  | remove bid => exact W.set (fun m => W.remove _ _ _) (hdone _)
  | pop eid =>
    refine W.act fun m _ => ⟨W.pop _ _, ?_⟩
    split
    · exact hdone _
    · split
      · exact hdone _
      · exact W.set (fun m => W.removeIfSingleton _ _) (hdone _)
  | janitor =>
    refine W.read fun m => W.sweep (W.read fun m => ?_) _
    split
    · exact hdone _
    · exact W.read fun m => W.collect (fun l => W.read fun m => W.forwardAll hdone hF hpanic _ _) _ _

end Calm

/-- The same, where the counting of transfers does not matter. -/
structure Walks (G : Node → Node → Prop) (J : Node → Prop) (S P : Prog → Prop) : Prop where
  aside : ∀ (n m : Node) es, m.agents = n.agents → m.clock = n.clock → m.events = n.events ++ es → (∀ e ∈ es, Silent e) → G n m
  deliver : ∀ n e b room, G n (n.deliver e b room)
  pop : ∀ n e, G n (n.popAgent e)
  act : ∀ {f : Node → Node} {k : Node → Prog}, (∀ m, J m → G m (f m) ∧ P (k m)) → P (.act f k)
  choose : ∀ {k : Bool → Prog}, (∀ b, P (k b)) → P (.choose k)
  fresh : ∀ {k : String → Prog}, (∀ s, P (k s)) → P (.fresh k)
  spawn : ∀ {t k : Prog}, S t → P k → P (.spawn t k)
  wait : ∀ {c : Node → Bool} {k : Prog}, P k → P (.wait c k)
  route : ∀ bp k, (∀ a, P (answered bp k a)) → P (.route bp (answered bp k))

namespace Walks
variable {G : Node → Node → Prop} {J : Node → Prop} {S P : Prog → Prop} (W : Walks G J S P)
include W

theorem same {n m : Node} (ha : m.agents = n.agents) (hc : m.clock = n.clock) (he : m.events = n.events) : G n m :=
  W.aside n m [] ha hc (by simp [he]) (by simp)

theorem log {n m : Node} {e : Event} (ha : m.agents = n.agents) (hc : m.clock = n.clock) (he : m.events = n.events ++ [e])
    (h : Silent e) : G n m :=
  W.aside n m [e] ha hc he (by simpa using h)

theorem set {f : Node → Node} {k : Prog} (hf : ∀ m, G m (f m)) (h : P k) : P (.set f k) := W.act fun m _ => ⟨hf m, h⟩

theorem transferTask (hdone : ∀ ok, P (.done ok)) (hpanic : P .panic) {x : String} {t : Transfer} : P (transferTask x t) := by
  unfold Proc.transferTask
  refine W.set (fun m => W.log rfl rfl rfl trivial) <| W.choose fun ok => W.set (fun m => W.log rfl rfl rfl trivial) ?_
  split
  · refine W.set (fun m => W.same rfl rfl rfl) ?_
    split
    · exact W.set (fun m => W.same rfl rfl rfl) hpanic
    · exact W.set (fun m => W.log rfl rfl rfl trivial) <| W.act fun m _ =>
        ⟨W.same rfl rfl rfl, W.set (fun m => W.same rfl rfl rfl) (W.set (fun m => W.same rfl rfl rfl) (hdone _))⟩
  · refine W.set (fun m => W.same rfl rfl rfl) (W.set (fun m => W.same rfl rfl rfl) ?_)
    split
    · exact W.set (fun m => W.same rfl rfl rfl) hpanic
    · exact W.set (fun m => W.log rfl rfl rfl trivial) (W.set (fun m => W.same rfl rfl rfl) (hdone _))

theorem spawnTransfers (hT : ∀ x t, S (Proc.transferTask x t)) {x : String} {mk : Sender → Transfer} {k : Prog} (ss : List Sender) (hk : P k) :
    P (spawnTransfers x mk ss k) := by
  induction ss with
  | nil => exact hk
  | cons s ss ih => exact W.spawn (hT _ _) ih

theorem calm (hT : ∀ x t, S (Proc.transferTask x t)) : Calm G J S P where
  aside n m es _ := W.aside n m es
  deliver := W.deliver
  pop := W.pop
  act := W.act
  choose := W.choose
  fresh := W.fresh
  spawn := W.spawn
  sends _ _ _ _ _ _ _ _ hk := W.act fun _ _ => ⟨W.same rfl rfl rfl, W.spawnTransfers hT _ (W.wait (hk _))⟩
  route := W.route

omit W in
theorem call (W : Walks G J P P) (hdone : ∀ ok, P (.done ok)) (hpanic : P .panic) (c : Call) : P c.prog :=
  (W.calm fun _ _ => W.transferTask hdone hpanic).call hdone hpanic c

end Walks
end Dtn.Proc
