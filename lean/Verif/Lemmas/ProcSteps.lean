import Verif.Lemmas.ProcOnly
import Verif.Lemmas.ProcWalks
/-! One more walk through all programs: the steps of every call, seen from the endpoints. -/

namespace Dtn.Proc
open Routing (Notification Answer)
open Spec

/-- The event says nothing about endpoints. -/
def Aside : Event → Prop
  | .delivered .. => False
  | .popped .. => False
  | _ => True

/-- A relation that all steps respect, if the changes of endpoints do. -/
structure Steps (G : Node → Node → Prop) : Prop where
  aside : ∀ (n m : Node) es, m.agents = n.agents → m.clock = n.clock → m.events = n.events ++ es → (∀ e ∈ es, Aside e) → G n m
  deliver : ∀ n e b room, G n (n.deliver e b room)
  pop : ∀ n e, G n (n.popAgent e)

namespace Steps
variable {G : Node → Node → Prop} (S : Steps G)
include S

theorem refl (n : Node) : G n n := S.aside n n [] rfl rfl (by simp) (by simp)

theorem walks : Walks G (fun m => m.store.Inv) (Only G) (Only G) where
  aside n m es ha hc he hs := S.aside n m es ha hc he fun e h => by have := hs e h; cases e <;> trivial
  deliver := S.deliver
  pop := S.pop
  act h := h
  choose h := h
  fresh h := h
  spawn h h' := ⟨h, h'⟩
  wait h := h
  route bp _ h a := ⟨fun m => S.aside m _ [.asked bp a] rfl rfl rfl fun _ he => by rw [List.mem_singleton.mp he]; trivial, h a⟩

theorem forward {bp : Pack} {k : Bool → Prog} (hk : ∀ ok, Only G (k ok)) : Only G (forward bp k) :=
  (S.walks.calm fun _ _ => S.walks.transferTask (fun _ => trivial) trivial).forward (fun _ _ _ _ _ _ => trivial) hk

theorem call (c : Call) : Only G c.prog := S.walks.call (fun _ => trivial) trivial c

omit S in
/-- All tasks that can be running at some time. -/
theorem _root_.Dtn.Proc.only_pool {w : World} {s t : Sys} (hc : ∀ c, Only G (Call.prog c)) (h : ∀ p ∈ s.pool, Only G p)
    (hs : Step w s t) (inv : s.node.store.Inv) : ∀ p ∈ t.pool, Only G p := by
  cases hs with
  | task l r p n n' ps ht =>
    intro q hq
    have hp := h p (by simp)
    simp only [List.append_assoc, List.mem_append] at hq
    rcases hq with hq | hq | hq
    · exact h q (by simp [hq])
    · cases ht with
      | done | panic => simp at hq
      | act f k => rw [List.mem_singleton.mp hq]; exact (hp n inv).2
      | route bp k a => rw [List.mem_singleton.mp hq]; exact (hp a).2
      | choose k b => rw [List.mem_singleton.mp hq]; exact hp b
      | fresh k b => rw [List.mem_singleton.mp hq]; exact hp b
      | spawn t k =>
        simp only [List.mem_cons, List.not_mem_nil, or_false] at hq
        rcases hq with rfl | rfl
        · exact hp.2
        · exact hp.1
      | wait c k => rw [List.mem_singleton.mp hq]; exact hp
    · exact h q (by simp [hq])
  | call n pool c hc' =>
    intro q hq
    rcases List.mem_append.mp hq with hq | hq
    · exact h q hq
    · rw [List.mem_singleton.mp hq]; exact hc c
  | change n n' pool h' => exact h

theorem pool {cfg : Config} {clock : Nat} {s : Sys} (run : Reaches .any ⟨Node.start cfg clock, []⟩ s) :
    ∀ p ∈ s.pool, Only G p := by
  generalize hs : (⟨Node.start cfg clock, []⟩ : Sys) = s0 at run
  induction run with
  | refl => subst hs; simp
  | @step t u hr hst ih =>
    subst hs
    exact only_pool S.call ih hst (good_always hr).1.inv

/-- A task that moves respects the relation. -/
theorem step {cfg : Config} {clock : Nat} {n n' : Node} {l r : List Prog} {p : Prog} {ps : List Prog}
    (run : Reaches .any ⟨Node.start cfg clock, []⟩ ⟨n, l ++ p :: r⟩) (h : TaskStep n p n' ps) : G n n' :=
  (Only.step S.refl (good_always run).1.inv (S.pool run p (by simp)) h).1

end Steps
end Dtn.Proc
