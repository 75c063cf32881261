import Verif.Lemmas.ProcEnds
import Verif.Model.SledNode
/-! A walk through all programs of a node with the persistent store (as in Lemmas/ProcWalks.lean), and its use: every task comes to
an end. -/

namespace Dtn.OnSled
open Proc
open Routing (Notification Answer)

/-- Properties `P` of programs that hold if the steps respect `G`, the tasks that are started have the property `S`, and the rest of
the program has the property. -/
structure Calm (G : Node → Node → Prop) (S P : Prog → Prop) : Prop where
  aside : ∀ (n m : Node) es, m.groups = n.groups → m.agents = n.agents → m.clock = n.clock → m.events = n.events ++ es →
    (∀ e ∈ es, Silent e) → G n m
  deliver : ∀ n e b room, G n (n.deliver e b room)
  pop : ∀ n e, G n (n.popAgent e)
  panic : P .panic
  act : ∀ {f : Node → Node} {k : Node → Prog}, (∀ m, G m (f m) ∧ P (k m)) → P (.act f k)
  choose : ∀ {k : Bool → Prog}, (∀ b, P (k b)) → P (.choose k)
  fresh : ∀ {k : String → Prog}, (∀ s, P (k s)) → P (.fresh k)
  spawn : ∀ {t k : Prog}, S t → P k → P (.spawn t k)
  sends : ∀ bp b out a checkedAt agedAt receivedAt k, (∀ g, P (afterTransfers bp out a g k)) →
    P (sendAll bp b out a checkedAt agedAt receivedAt k)
  route : ∀ bp k, (∀ a, P (answered bp k a)) → P (.route bp (answered bp k))

namespace Calm
variable {G : Node → Node → Prop} {S P : Prog → Prop} (W : Calm G S P)
include W

theorem refl (n : Node) : G n n := W.aside n n [] rfl rfl rfl (by simp) (by simp)

theorem same {n m : Node} (hg : m.groups = n.groups) (ha : m.agents = n.agents) (hc : m.clock = n.clock) (he : m.events = n.events) : G n m :=
  W.aside n m [] hg ha hc (by simp [he]) (by simp)

theorem log {n m : Node} {e : Event} (hg : m.groups = n.groups) (ha : m.agents = n.agents) (hc : m.clock = n.clock) (he : m.events = n.events ++ [e])
    (h : Silent e) : G n m :=
  W.aside n m [e] hg ha hc he (by simpa using h)

theorem write (n : Node) (o : Outcome (List SledStore.Write)) : G n (write n o) := by
  unfold OnSled.write
  split
  · exact W.same rfl rfl rfl rfl
  · exact W.refl _

theorem removed (n : Node) (bid : String) (c : Cause) : G n (removed n bid c) := by
  unfold OnSled.removed
  split
  · unfold OnSled.write
    split <;> exact W.log rfl rfl rfl rfl trivial
  · exact W.write _ _

theorem andThen {α : Type} {o : Outcome α} {k : Bool → Prog} (hk : ∀ ok, P (k ok)) : P (andThen o k) := by
  unfold OnSled.andThen
  split
  · exact hk _
  · exact hk _
  · exact W.panic

theorem read {k : Node → Prog} (h : ∀ m, P (k m)) : P (.read k) := W.act fun m => ⟨W.refl m, h m⟩

theorem set {f : Node → Node} {k : Prog} (hf : ∀ m, G m (f m)) (h : P k) : P (.set f k) := W.act fun m => ⟨hf m, h⟩

theorem remove {bid : String} {c : Cause} {k : Bool → Prog} (hk : ∀ ok, P (k ok)) : P (OnSled.remove bid c k) :=
  W.act fun _ => ⟨W.removed _ _ _, W.andThen hk⟩

theorem sync {bp : Pack} {c : Cause} {k : Bool → Prog} (hk : ∀ ok, P (k ok)) : P (OnSled.sync bp k c) := by
  unfold OnSled.sync
  split
  · exact W.remove hk
  · exact W.act fun _ => ⟨W.write _ _, W.andThen hk⟩

theorem getBundle {bid : String} {k : Option Bundle → Prog} (hk : ∀ b, P (k b)) : P (OnSled.getBundle bid k) := by
  refine W.read fun m => ?_
  split
  · exact hk _
  · exact W.panic

theorem getMetadata {bid : String} {k : Option Pack → Prog} (hk : ∀ b, P (k b)) : P (OnSled.getMetadata bid k) := by
  refine W.read fun m => ?_
  split
  · exact hk _
  · exact W.panic

theorem push {b : Bundle} {k : Bool → Prog} (hk : ∀ ok, P (k ok)) : P (OnSled.push b k) := W.act fun _ => ⟨W.write _ _, W.andThen hk⟩

theorem removeIfSingleton {b : Bundle} {k : Prog} (hk : P k) : P (OnSled.removeIfSingleton b k) := by
  unfold OnSled.removeIfSingleton
  split
  · exact W.remove fun _ => hk
  · exact W.read fun _ => hk

theorem sendReport {bp : Pack} {cause : Bundle} {pos : Pos} {reason : Reason} {k : Prog} (hk : P k) :
    P (OnSled.sendReport bp cause pos reason k) := by
  unfold OnSled.sendReport
  split
  · exact hk
  · refine W.getBundle fun b => ?_
    split
    · exact hk
    · refine W.read fun m2 => ?_
      split
      · exact hk
      · refine W.fresh fun s => W.act fun m => ⟨?_, W.andThen fun ok => ?_⟩
        · split
          · exact W.log rfl rfl rfl rfl trivial
          · exact W.refl _
        · split
          · exact W.sync fun _ => hk
          · exact hk

theorem reportIf {asked : Bool} {bp : Pack} {b : Bundle} {pos : Pos} {reason : Reason} {k : Prog} (hk : P k) :
    P (OnSled.reportIf asked bp b pos reason k) := by
  refine W.read fun m => ?_
  split
  · exact W.sendReport hk
  · exact hk

theorem delete {bp : Pack} {reason : Reason} {cause : Cause} {k : Bool → Prog} (hk : ∀ ok, P (k ok)) :
    P (OnSled.delete bp reason cause k) := by
  refine W.getBundle fun b => ?_
  split
  · exact hk _
  · exact W.reportIf (W.sync hk)

theorem adminValid {b : Bundle} {k : Bool → Prog} (hk : ∀ ok, P (k ok)) : P (OnSled.adminValid b k) := by
  unfold OnSled.adminValid
  split
  · exact hk _
  · split
    · exact hk _
    · split
      · refine W.read fun m => ?_
        split
        · unfold inspectReport
          split
          · split
            · exact hk _
            · refine W.read fun m => ?_
              split
              · exact hk _
              · split
                · exact hk _
                · exact W.remove fun _ => hk _
          · exact hk _
        · exact hk _
      · exact hk _

theorem giveToAgent {eid : EID} {b : Bundle} {k : Bool → Prog} (hk : ∀ ok, P (k ok)) : P (OnSled.giveToAgent eid b k) := by
  refine W.choose fun room => W.act fun m => ⟨W.deliver _ _ _ _, ?_⟩
  dsimp only
  split
  · exact hk _
  · have count : P (Prog.set (fun n => { n with stats := { n.stats with delivered := n.stats.delivered + 1 } })
        (k true)) := W.set (fun m => W.same rfl rfl rfl rfl) (hk _)
    split
    · exact W.removeIfSingleton count
    · exact count

theorem finishDelivery {bp : Pack} {b : Bundle} {k : Bool → Prog} (hk : ∀ ok, P (k ok)) : P (OnSled.finishDelivery bp b k) := by
  refine W.sync fun ok => ?_
  split
  · exact hk _
  · exact W.giveToAgent hk

theorem deliverBundle {bp : Pack} {b : Bundle} {k : Bool → Prog} (hk : ∀ ok, P (k ok)) : P (OnSled.deliverBundle bp b k) := by
  refine W.sync fun ok => ?_
  split
  · exact hk _
  · refine W.read fun m => ?_
    split
    · exact W.reportIf (W.finishDelivery hk)
    · exact W.finishDelivery hk

theorem localDelivery {bp : Pack} {k : Bool → Prog} (hk : ∀ ok, P (k ok)) : P (OnSled.localDelivery bp k) := by
  refine W.getBundle fun b => ?_
  split
  · exact hk _
  · split
    · refine W.adminValid fun ok => ?_
      split
      · exact W.delete fun _ => hk _
      · exact W.deliverBundle hk
    · exact W.deliverBundle hk

theorem afterTransfers {bp : Pack} {b : Bundle} {a : Answer} {g : Nat} {k : Bool → Prog} (hk : ∀ ok, P (k ok)) :
    P (OnSled.afterTransfers bp b a g k) := by
  refine W.read fun m => ?_
  split
  · refine W.reportIf ?_
    split
    · exact W.remove hk
    · split
      · exact W.adminValid fun _ => W.sync hk
      · exact hk _
  · exact hk _

theorem prepare {bp : Pack} {a : Answer} {k : Bool → Prog} (hk : ∀ ok, P (k ok)) : P (OnSled.prepare bp a k) := by
  refine W.getBundle fun b => ?_
  split
  · exact hk _
  refine W.read fun m2 => ?_
  split
  · exact W.read fun m3 => W.delete fun _ => hk _
  dsimp only
  split
  · exact W.read fun m3 => W.delete fun _ => hk _
  refine W.read fun m3 => ?_
  split
  · exact W.panic
  refine W.read fun m4 => ?_
  split
  · exact W.panic
  split
  · exact W.read fun m5 => W.delete fun _ => hk _
  · exact W.sends _ _ _ _ _ _ _ _ fun _ => W.afterTransfers hk

theorem answered {bp : Pack} {k : Bool → Prog} (hk : ∀ ok, P (k ok)) (a : Option Answer) : P (OnSled.answered bp k a) := by
  unfold OnSled.answered
  split
  · exact hk _
  · split
    · split
      · exact W.remove hk
      · exact hk _
    · exact W.prepare hk

theorem forward {bp : Pack} {k : Bool → Prog} (hk : ∀ ok, P (k ok)) : P (OnSled.forward bp k) := by
  refine W.sync fun ok => ?_
  split
  · exact hk _
  · exact W.route _ _ fun a => W.answered hk a

theorem dispatchRemote (hF : ∀ bp, S (OnSled.forward bp .done)) {bp : Pack} {k : Bool → Prog} (hk : ∀ ok, P (k ok)) :
    P (OnSled.dispatchRemote bp k) := by
  refine W.read fun m => ?_
  split
  · exact W.spawn (hF _) (hk _)
  · exact hk _

theorem dispatch (hF : ∀ bp, S (OnSled.forward bp .done)) {bp : Pack} {k : Bool → Prog} (hk : ∀ ok, P (k ok)) : P (OnSled.dispatch bp k) := by
  refine W.getBundle fun b => ?_
  split
  · exact W.panic
  · refine W.set (fun m => W.log rfl rfl rfl rfl trivial) (W.read fun m => ?_)
    split
    · refine W.localDelivery fun ok => ?_
      split
      · exact hk _
      · exact W.dispatchRemote hF hk
    · exact W.dispatchRemote hF hk

theorem transmit (hF : ∀ bp, S (OnSled.forward bp .done)) {bp : Pack} {k : Bool → Prog} (hk : ∀ ok, P (k ok)) : P (OnSled.transmit bp k) := by
  refine W.sync fun ok => ?_
  split
  · exact hk _
  · refine W.read fun m => ?_
    split
    · exact W.delete hk
    · exact W.dispatch hF hk

theorem scanBlocks (hF : ∀ bp, S (OnSled.forward bp .done)) {b : Bundle} {bp : Pack} {k : Bool → Prog} (hk : ∀ ok, P (k ok)) (cs : List Block) :
    ∀ index marked, P (OnSled.scanBlocks b bp k cs index marked) := by
  induction cs with
  | nil =>
    intro _ _
    unfold OnSled.scanBlocks OnSled.finishReceive
    split
    · exact W.panic
    · refine W.push fun ok => ?_
      split
      · exact hk _
      · exact W.dispatch hF fun _ => hk _
  | cons c cs ih =>
    intro index marked
    unfold OnSled.scanBlocks
    split
    · exact ih _ _
    · have cont : P (if c.flags.deleteBundle then OnSled.delete bp .blockUnintelligible (.block b c) k
          else OnSled.scanBlocks b bp k cs (index + 1) (if c.flags.remove then marked ++ [index] else marked)) := by
        split
        · exact W.delete hk
        · exact ih _ _
      dsimp only
      split
      · refine W.read fun m => ?_
        split
        · exact W.sendReport cont
        · exact cont
      · exact cont

theorem added (n : Node) (b : Bundle) : G n (added n b) := by
  unfold OnSled.added
  split
  · exact W.log rfl rfl rfl rfl trivial
  · exact W.log rfl rfl rfl rfl trivial
  · exact W.refl _

theorem receive (hF : ∀ bp, S (OnSled.forward bp .done)) {b : Bundle} {k : Bool → Prog} (hk : ∀ ok, P (k ok)) : P (OnSled.receive b k) := by
  refine W.act fun m => ⟨W.added _ _, ?_⟩
  split
  · refine W.set (fun m => W.same rfl rfl rfl rfl) (W.read fun m => W.sync fun ok => ?_)
    split
    · exact hk _
    · exact W.reportIf (W.scanBlocks hF hk _ _ _)
  · exact W.set (fun m => W.same rfl rfl rfl rfl) (hk _)
  · exact hk _
  · exact W.panic

theorem sweep {k : Prog} (hk : P k) (ms : List Pack) : P (OnSled.sweep ms k) := by
  induction ms with
  | nil => exact hk
  | cons p ms ih =>
    refine W.read fun m => ?_
    split
    · exact W.remove fun _ => ih
    · exact ih

theorem collect {k : List Pack → Prog} (hk : ∀ l, P (k l)) (bids : List String) : ∀ acc, P (OnSled.collect bids acc k) := by
  induction bids with
  | nil => intro acc; exact hk acc
  | cons bid bids ih =>
    intro acc
    refine W.getMetadata fun p => ?_
    split <;> exact ih _

theorem forwardAll (hdone : ∀ ok, P (.done ok)) (hF : ∀ bp, S (OnSled.forward bp .done)) (par : Bool) (bps : List Pack) :
    P (OnSled.forwardAll par bps) := by
  induction bps with
  | nil => exact hdone _
  | cons bp bps ih =>
    unfold OnSled.forwardAll
    split
    · exact W.spawn (hF _) ih
    · exact W.forward fun _ => ih

omit W in
theorem task (W : Calm G P P) (hdone : ∀ ok, P (.done ok)) (c : Call) : P (OnSled.task c) := by
  have hF : ∀ bp, P (OnSled.forward bp .done) := fun _ => W.forward hdone
  cases c with
  | receive b => exact W.receive hF hdone
  | send b =>
    refine W.push fun ok => ?_
    split
    · exact hdone _
    · exact W.read fun m => W.transmit hF hdone
  | remove bid => exact W.remove fun _ => hdone _
  | pop eid =>
    refine W.act fun m => ⟨W.pop _ _, ?_⟩
    split
    · exact hdone _
    · split
      · exact hdone _
      · exact W.removeIfSingleton (hdone _)
  | janitor =>
    refine W.read fun m => W.sweep (W.read fun m => ?_) _
    split
    · exact hdone _
    · exact W.read fun m => W.collect (fun l => W.read fun m => W.forwardAll hdone hF _ _) _ _

end Calm

/-! ### Every task comes to an end -/

theorem owes_calm : Calm (fun n m => m.groups = n.groups) (fun p => ∀ L O, Owes p L O 0) (fun p => ∀ L O, Owes p L O 0) where
  aside _ _ _ hg _ _ _ _ := hg
  deliver n e b room := by unfold Node.deliver; split <;> rfl
  pop n e := by
    unfold Node.popAgent
    split
    · rfl
    · split <;> rfl
  panic _ _ := rfl
  act h L O := owes_keep (fun n => keep_of_groups (h n).1) fun n => (h n).2 _ _
  choose h L O := fun b => h b _ _
  fresh h L O := fun b => h b _ _
  spawn ht hk L O := ⟨0, 0, rfl, ht _ _, hk _ _⟩
  sends bp b out a c1 c2 r k hk L O := owes_transfers fun g L O => hk g L O
  route bp k h L O := fun a => h a _ _

theorem owes_task (c : Call) (L : Nat) (O : Nat → Prop) : Owes (task c) L O 0 := owes_calm.task (fun _ _ _ => rfl) c L O

end Dtn.OnSled
