import Verif.Lemmas.SledStranded
import Verif.Lemmas.SledExample
/-! C128: what a node with the persistent store holds survives restarts, and what was removed does not come back.
C129: what a node with the persistent store does after a restart with the bundles it holds. -/

namespace Dtn.Props
open Spec Proc OnSled

/-! ### C128 -/

/-- C128 (kept). Whatever the node does, and however often its process is stopped and started again in between, a bundle in the
database stays there until the node removes it. -/
theorem C128_kept {cfg : Config} {clock : Nat} {s t : Sys} {bid : String} (before : OnSled.Reaches ⟨Node.start cfg clock, []⟩ s)
    (stored : s.node.store.getBundle bid ≠ none) (run : OnSled.Reaches s t) :
    t.node.store.getBundle bid ≠ none ∨ ∃ c, .removed bid c ∈ newEvents s.node t.node :=
  (between before run).2.1.base.kept bid stored

/-- A bundle is forwarded, the process is stopped in the middle of a call, and the bundle is still there. -/
example : ∃ s t, OnSled.Reaches ⟨Node.start Ex.cfg 946684800100, []⟩ s ∧ OnSled.Reaches s t ∧
    (s.node.store.getBundle "b" ≠ none ∧ t.node.agents = [] ∧ s.node.agents ≠ [] ∧ t.node.store.getBundle "b" ≠ none) := by
  obtain ⟨s, t, h1, h2, h3⟩ := exists_moves (n := Node.start Ex.cfg 946684800100)
    ([.register (.dtn "n1" "x"), .call (.receive (Ex.bundle 5 1 20))] ++ going 30 (some (Ex.answer false)))
    ([.cut 946684800200 (.remove "b") 1]) (fun s => s)
    (fun s t => decide (s.node.store.getBundle "b" ≠ none) && decide (t.node.agents = []) && decide (s.node.agents ≠ []) &&
      decide (t.node.store.getBundle "b" ≠ none)) (by decide +kernel)
  simp only [Bool.and_eq_true, decide_eq_true_eq] at h3
  exact ⟨s, t, h1, h2, h3.1.1.1, h3.1.1.2, h3.1.2, h3.2⟩

/-- C128 (removed). A bundle that was removed never comes back into the database, before and after restarts. -/
theorem C128_dropped {cfg : Config} {clock : Nat} {s t : Sys} {bid : String} {c : Cause}
    (before : OnSled.Reaches ⟨Node.start cfg clock, []⟩ s) (gone : .removed bid c ∈ s.node.events) (run : OnSled.Reaches s t) :
    t.node.store.getBundle bid = none := by
  obtain ⟨h, l, -⟩ := between before run
  exact (l.gone bid (h.gone bid c gone)).2

/-- Is it gone? -/
def wasRemoved (bid : String) (n : Node) : Bool := n.events.any fun e => match e with | .removed b _ => decide (b = bid) | _ => false

theorem wasRemoved_of {bid : String} {n : Node} (h : wasRemoved bid n = true) : ∃ c, .removed bid c ∈ n.events := by
  obtain ⟨e, he, hp⟩ := List.any_eq_true.mp h
  split at hp
  · rw [decide_eq_true_eq] at hp; subst hp; exact ⟨_, he⟩
  · cases hp

/-- A bundle is removed, the node is restarted, and the bundle is received again. -/
example : ∃ s t c, OnSled.Reaches ⟨Node.start Ex.cfg 946684800100, []⟩ s ∧ .removed "b" c ∈ s.node.events ∧ OnSled.Reaches s t ∧
    (t.pool = [] ∧ .called (.receive (Ex.bundle 5 1 20)) ∈ newEvents s.node t.node) := by
  obtain ⟨s, t, h1, h2, h3⟩ := exists_moves (n := Node.start Ex.cfg 946684800100)
    ([.call (.receive (Ex.bundle 5 1 20))] ++ going 30 (some (Ex.answer false)) ++ [.call (.remove "b")] ++ going 5)
    ([.restart 946684800200, .call (.receive (Ex.bundle 5 1 20))] ++ going 30) (fun s => s)
    (fun s t => wasRemoved "b" s.node && t.pool.isEmpty && (newEvents s.node t.node).any fun e => match e with
      | .called (.receive b) => decide (b = Ex.bundle 5 1 20) | _ => false) (by decide +kernel)
  simp only [Bool.and_eq_true, List.isEmpty_iff] at h3
  obtain ⟨c, hc⟩ := wasRemoved_of h3.1.1
  refine ⟨s, t, c, h1, hc, h2, h3.1.2, ?_⟩
  obtain ⟨e, he, hp⟩ := List.any_eq_true.mp h3.2
  split at hp
  · rw [decide_eq_true_eq] at hp; subst hp; exact he
  · cases hp

/-- C128 (duplicates). However often a bundle is received, and however often the node is restarted, it is taken as new at most
once. -/
theorem C128_taken_once {cfg : Config} {clock : Nat} {t : Sys} (run : OnSled.Reaches ⟨Node.start cfg clock, []⟩ t) (bid : String) :
    (t.node.events.filter (takenAsNew bid)).length ≤ 1 :=
  (between run (.refl _)).1.once bid

/-- A bundle is received before and after a restart. -/
example : ∃ t, OnSled.Reaches ⟨Node.start Ex.cfg 946684800100, []⟩ t ∧ t.pool = [] ∧
    (t.node.events.filter fun e => match e with | .called (.receive b) => decide (b.id = "b") | _ => false).length = 2 ∧
    (t.node.events.filter (takenAsNew "b")).length = 1 := by
  obtain ⟨s, t, h1, h2, h3⟩ := exists_moves (n := Node.start Ex.cfg 946684800100)
    ([.call (.receive (Ex.bundle 5 1 20))] ++ going 30 (some (Ex.answer false)))
    ([.restart 946684800200, .call (.receive (Ex.bundle 5 1 20))] ++ going 30) (fun s => s)
    (fun s t => t.pool.isEmpty && decide ((t.node.events.filter fun e => match e with
      | .called (.receive b) => decide (b.id = "b") | _ => false).length = 2) &&
      decide ((t.node.events.filter (takenAsNew "b")).length = 1)) (by decide +kernel)
  simp only [Bool.and_eq_true, List.isEmpty_iff, decide_eq_true_eq] at h3
  exact ⟨t, h1.join h2, h3.1.1, h3.1.2, h3.2⟩

/-- C128 (silence). After a restart, the node does nothing any more with a bundle that it had removed before: it does not take it in
again, does not send it, and gives it to no application. -/
theorem C128_silent {cfg : Config} {clock clock' : Nat} {n : Node} {tasks : List Prog} {t : Sys} {bid : String} {c : Cause}
    (before : OnSled.Reaches ⟨Node.start cfg clock, []⟩ ⟨n, tasks⟩) (gone : .removed bid c ∈ n.events)
    (run : OnSled.Reaches ⟨restarted n clock', []⟩ t) : ∀ e ∈ newEvents n t.node, handled bid e = false := by
  have b : Buried bid (restarted n clock') := by
    have h := (between before (.refl _)).1
    have l := h.restart clock'
    exact ⟨l.sound, l.gone _ (h.gone _ _ gone), by simp [restarted]⟩
  obtain ⟨es, he, hs⟩ := (reaches_buried run b (by simp)).1.silent
  rw [newEvents_eq (show t.node.events = n.events ++ es from he)]
  exact hs

/-- The node is stopped while the bundle is on its way to the convergence layer, and a removed bundle is received and submitted again. -/
example : ∃ n tasks t c, OnSled.Reaches ⟨Node.start Ex.cfg 946684800100, []⟩ ⟨n, tasks⟩ ∧ tasks ≠ [] ∧ .removed "b" c ∈ n.events ∧
    OnSled.Reaches ⟨restarted n 946684800200, []⟩ t ∧ (t.pool = [] ∧ 2 ≤ (newEvents n t.node).length) := by
  obtain ⟨⟨n, tasks⟩, t, h1, h2, h3⟩ := exists_moves (n := Node.start Ex.cfg 946684800100)
    ([.call (.receive (Ex.bundle 5 1 20))] ++ going 22 (some (Ex.answer false)) ++ [.call (.remove "b"), .run 2 none true "r"])
    ([.call (.receive (Ex.bundle 5 1 20)), .call (.send (Ex.bundle 5 1 20))] ++ going 30) (fun s => ⟨restarted s.node 946684800200, []⟩)
    (fun s t => wasRemoved "b" s.node && !s.pool.isEmpty && t.pool.isEmpty && decide (2 ≤ (newEvents s.node t.node).length)) (by decide +kernel)
  simp only [Bool.and_eq_true, List.isEmpty_iff, decide_eq_true_eq] at h3
  obtain ⟨c, hc⟩ := wasRemoved_of h3.1.1.1
  exact ⟨n, tasks, t, c, h1, by simpa using h3.1.1.2, hc, h2, h3.1.2, h3.2⟩

/-! ### C129 -/

/-- C129 (transfers). Whenever the router names a neighbour for a bundle in the database, a copy is handed to the convergence layer
for this neighbour before the node comes to rest, if the bundle stays in the store and alive and the process is not stopped. -/
theorem C129_carried_out {cfg : Config} {clock : Nat} {n m : Node} {tasks : List Prog} {b : Bundle} {bp : Pack} {x : Routing.Answer}
    {s : Sender} (before : OnSled.Reaches ⟨Node.start cfg clock, []⟩ ⟨n, tasks⟩) (stored : n.store.getBundle b.id = some b)
    (leave : CanLeave b) (run : SledThroughout (Undisturbed n b) ⟨n, tasks⟩ ⟨m, []⟩) (asked : .asked bp (some x) ∈ newEvents n m)
    (about : bp.id = b.id) (named : s ∈ x.clas) : HandedOver cfg.hostEid n m b s := by
  have run' : SledThroughout (fun w => Leaving n cfg.hostEid b w ∧ w.store.getMetadata b.id ≠ none) ⟨n, tasks⟩ ⟨m, []⟩ := by
    refine run.add fun u hu i => ?_
    obtain ⟨-, l, -⟩ := between before hu
    have hst : u.node.store.getBundle b.id = some b := by
      rcases l.base.kept b.id (by rw [stored]; simp) with h | ⟨c, hc⟩
      · cases hb : u.node.store.getBundle b.id with
        | none => exact absurd hb h
        | some b' => rw [i.2.1 b' hb]
      · exact absurd hc (i.1 c)
    refine ⟨⟨l.base.past, ?_, hst, i.2.2⟩, ?_⟩
    · rw [(between (.refl _) (before.join hu)).2.1.base.cfg]; rfl
    · obtain ⟨p, hp⟩ := l.sound.inv.hasMeta _ _ hst
      rw [hp]; simp
  obtain ⟨u, v, h1, h2, h3, h4, k, hk⟩ := run'.asked before asked
  have bv := before.join (h1.reaches.step h2)
  have := ended (D := Sent n cfg.hostEid b s) (fun _ _ hb h => h.mono hb) bv h3
    (.inr ⟨_, hk, OnSled.will_answered (fun _ h => h.1) (fun _ h => h.2) leave about named⟩)
  rcases this with ⟨-, t, ht, k1, k2, k3⟩ | ⟨p, hp, -⟩
  · subst k2
    exact ⟨t, ht, k1, rfl, k3.passedOn, k3.previousNode, (Ready.copied ⟨leave.hops, leave.previous, leave.age⟩ k3).2⟩
  · cases hp

/-- After a restart, the router names a neighbour while another bundle is being received. -/
example : ∃ (n m : Node) (tasks : List Prog) (b : Bundle) (bp : Pack) (x : Routing.Answer),
    OnSled.Reaches ⟨Node.start Ex.cfg 946684800100, []⟩ ⟨n, tasks⟩ ∧ n.store.getBundle b.id = some b ∧ CanLeave b ∧
    SledThroughout (Undisturbed n b) ⟨n, tasks⟩ ⟨m, []⟩ ∧ .asked bp (some x) ∈ newEvents n m ∧ bp.id = b.id ∧ Ex.sender ∈ x.clas := by
  obtain ⟨n, tasks, m, h1, h2, h3⟩ := exists_sled (n := Node.start Ex.cfg 946684800100)
    ([.call (.receive (Ex.bundle 5 1 20))] ++ going 30 ++ [.restart 946684800200, .cla true, .call .janitor, .call (.receive Ex113.other)] ++ going 2)
    (fun t => t) (List.replicate 4 (.run 1 (some (Ex.answer false)) true "r") ++ going 90 (some (Ex.answer false)))
    (Ex113.undisturbed (Ex.bundle 5 1 20)) (fun s m => decide (s.node.store.getBundle "b" = some (Ex.bundle 5 1 20)) && Ex113.asked s.node m "b")
    (by decide +kernel)
  simp only [Bool.and_eq_true, decide_eq_true_eq] at h3
  obtain ⟨bp, x, k1, k2, k3⟩ := Ex113.asked_of h3.2
  exact ⟨n, m, tasks, Ex.bundle 5 1 20, bp, x, h1, h3.1, Ex113.leave, h2.weaken fun _ h => Ex113.undisturbed_of h, k1, k2, k3⟩

/-- C129 (waiting bundles), if bundles are processed in parallel. After any history, with restarts at any points, each bundle in the
database that is marked as waiting to be forwarded is taken to the router by the next run of the janitor, and copies are handed over
for all neighbours it names, if the bundle stays in the store, alive and marked until the node comes to rest.

Missing: bundles that are in the database but not marked (`C129_stranded_violated`), and sequential processing
(`C129_janitor_violated`). -/
theorem C129_resumed_partial {cfg : Config} {clock : Nat} {n m : Node} {tasks : List Prog} {b : Bundle}
    (before : OnSled.Reaches ⟨Node.start cfg clock, []⟩ ⟨n, tasks⟩) (parallel : cfg.parallel = true)
    (stored : n.store.getBundle b.id = some b) (leave : CanLeave b)
    (run : SledThroughout (fun w => Undisturbed n b w ∧ w.claActive = true ∧
        ∃ p, w.store.getMetadata b.id = some p ∧ p.has .forwardPending = true ∧ p.has .deleted = false)
      ⟨n.log (.called .janitor), tasks ++ [OnSled.task .janitor]⟩ ⟨m, []⟩) : Routed cfg.hostEid n m b := by
  have before' : OnSled.Reaches ⟨Node.start cfg clock, []⟩ ⟨n.log (.called .janitor), tasks ++ [OnSled.task .janitor]⟩ :=
    before.step (.call _ _ _)
  have past1 : n.events <+: (n.log (.called .janitor)).events := List.prefix_append _ _
  have run' : SledThroughout (OnSled.Pending (n.log (.called .janitor)) b.id) _ _ := run.add (J := OnSled.Pending (n.log (.called .janitor)) b.id) fun u hu i => by
    obtain ⟨-, l, -⟩ := between before' hu
    refine ⟨l.sound.inv, l.base.past, i.2.1, i.2.2, ?_⟩
    rw [(between (.refl _) (before'.join hu)).2.1.base.cfg]; exact parallel
  have := ended (D := AskedFor (n.log (.called .janitor)) b.id) (fun _ _ hb h => h.mono hb) before' run'
    (.inr ⟨_, List.mem_append_right _ (List.mem_singleton.mpr rfl), will_janitor (fun _ h => h) fun _ h => h⟩)
  rcases this with ⟨hp, bp, a, hid, ha⟩ | ⟨p, hp, -⟩
  · have run2 : SledThroughout (Undisturbed (n.log (.called .janitor)) b) ⟨n.log (.called .janitor), tasks ++ [OnSled.task .janitor]⟩ ⟨m, []⟩ := by
      refine run.add fun u hu i => ⟨fun c hc => i.1.1 c ?_, i.1.2⟩
      exact newEvents_left past1 (between before' hu).2.1.base.past hc
    refine ⟨bp, a, hid, newEvents_left past1 hp ha, ?_⟩
    rintro x rfl s hs
    obtain ⟨t, ht, h⟩ := C129_carried_out before' stored leave run2 ha hid hs
    exact ⟨t, newEvents_left past1 hp ht, h⟩
  · cases hp

/-- Is it marked as waiting? -/
def marked (bid : String) (w : Node) : Bool := (w.store.getMetadata bid).any fun p => p.has .forwardPending && !p.has .deleted

theorem marked_of {bid : String} {w : Node} (h : marked bid w = true) :
    ∃ p, w.store.getMetadata bid = some p ∧ p.has .forwardPending = true ∧ p.has .deleted = false := by
  unfold marked at h
  cases hm : w.store.getMetadata bid with
  | none => rw [hm] at h; cases h
  | some p =>
    rw [hm] at h
    simp only [Option.any_some, Bool.and_eq_true, Bool.not_eq_true'] at h
    exact ⟨p, rfl, h.1, h.2⟩

/-- The state after a call. -/
def sledCall (c : Call) (s : Sys) : Sys := ⟨s.node.log (.called c), s.pool ++ [taskE c]⟩

/-- A node that processes bundles in parallel. -/
def sledParallel : Config := { Ex.cfg with parallel := true }

/-- No neighbour was known when the bundle came; the node is restarted, and then one is known. -/
example : ∃ (n m : Node) (tasks : List Prog) (b : Bundle), OnSled.Reaches ⟨Node.start sledParallel 946684800100, []⟩ ⟨n, tasks⟩ ∧
    n.store.getBundle b.id = some b ∧ CanLeave b ∧ SledThroughout (fun w => Undisturbed n b w ∧ w.claActive = true ∧
        ∃ p, w.store.getMetadata b.id = some p ∧ p.has .forwardPending = true ∧ p.has .deleted = false)
      ⟨n.log (.called .janitor), tasks ++ [OnSled.task .janitor]⟩ ⟨m, []⟩ ∧
    (∃ bp x, .asked bp (some x) ∈ newEvents n m ∧ bp.id = b.id ∧ Ex.sender ∈ x.clas) := by
  obtain ⟨n, tasks, m, h1, h2, h3⟩ := exists_sled (n := Node.start sledParallel 946684800100)
    ([.call (.receive (Ex.bundle 5 1 20))] ++ going 30 ++ [.restart 946684800200, .cla true, .call (.receive Ex113.other)] ++ going 2)
    (sledCall .janitor) (List.replicate 4 (.run 1 (some (Ex.answer false)) true "r") ++ going 90 (some (Ex.answer false)))
    (fun n w => Ex113.undisturbed (Ex.bundle 5 1 20) n w && w.claActive && marked "b" w)
    (fun s m => decide (s.node.store.getBundle "b" = some (Ex.bundle 5 1 20)) && Ex113.asked s.node m "b") (by decide +kernel)
  simp only [Bool.and_eq_true, decide_eq_true_eq] at h3
  unfold sledCall at h2
  rw [taskE_eq] at h2
  refine ⟨n, m, tasks, Ex.bundle 5 1 20, h1, h3.1, Ex113.leave, h2.weaken ?_, Ex113.asked_of h3.2⟩
  intro w h
  simp only [Bool.and_eq_true] at h
  exact ⟨Ex113.undisturbed_of h.1.1, h.1.2, marked_of h.2⟩

/-- C129 (lost track). A bundle that is not marked as waiting to be forwarded when the process is stopped is never sent and never
given to an application after that, although it may be in the database, unless a bundle with its id is submitted again. -/
theorem C129_stranded_violated {cfg : Config} {clock clock' : Nat} {n : Node} {tasks : List Prog} {t : Sys} {bid : String} {p : Pack}
    (before : OnSled.Reaches ⟨Node.start cfg clock, []⟩ ⟨n, tasks⟩) (known : n.store.getMetadata bid = some p)
    (unmarked : p.has .forwardPending = false) (run : OnSled.Reaches ⟨restarted n clock', []⟩ t)
    (notAgain : ∀ e ∈ newEvents n t.node, originated bid e = false) : ∀ e ∈ newEvents n t.node, handled bid e = false := by
  have h := (between before (.refl _)).1
  have st : Stranded n bid (restarted n clock') := by
    refine ⟨(h.restart clock').sound, List.prefix_rfl, ?_, ?_, by simp [restarted]⟩
    · change n.store.getMetadata bid ≠ none; rw [known]; simp
    · intro q hq
      change n.store.getMetadata bid = some q at hq
      rw [known] at hq; cases hq; exact unmarked
  obtain ⟨es, he, hs⟩ := (reaches_stranded (before.restart clock') run st rfl (by
    rintro ⟨e, he, ho⟩
    rw [notAgain e he] at ho; cases ho)).1.silent
  rw [newEvents_eq (show t.node.events = n.events ++ es from he)]
  exact hs

/-- A bundle for an application of this node. -/
def forApp : Bundle := { Ex.bundle 5 1 20 with primary := { Ex.primary with destination := .dtn "n1" "x" } }

/-- A bundle waits for its application when the node is restarted. The application registers again and asks for bundles, the bundle is
received once more and the janitor runs; the bundle is in the database all the time. -/
example : ∃ n tasks p t, OnSled.Reaches ⟨Node.start sledParallel 946684800100, []⟩ ⟨n, tasks⟩ ∧ n.store.getMetadata "b" = some p ∧
    p.has .forwardPending = false ∧ OnSled.Reaches ⟨restarted n 946684800200, []⟩ t ∧
    (∀ e ∈ newEvents n t.node, originated "b" e = false) ∧ (tasks = [] ∧ t.pool = [] ∧ (∃ q, .delivered (.dtn "n1" "x") forApp q ∈ n.events) ∧
    t.node.store.getBundle "b" = some forApp ∧ t.node.agents.has (.dtn "n1" "x") = true ∧ .called (.pop (.dtn "n1" "x")) ∈ newEvents n t.node) := by
  obtain ⟨⟨n, tasks⟩, t, h1, h2, h3⟩ := exists_moves (n := Node.start sledParallel 946684800100)
    ([.register (.dtn "n1" "x"), .call (.receive forApp)] ++ going 40)
    ([.register (.dtn "n1" "x"), .cla true, .call (.pop (.dtn "n1" "x")), .call (.receive forApp), .call .janitor] ++ going 60)
    (fun s => ⟨restarted s.node 946684800200, []⟩)
    (fun s t => ((s.node.store.getMetadata "b").any fun p => !p.has .forwardPending) && ((newEvents s.node t.node).all fun e => !originated "b" e) &&
      s.pool.isEmpty && t.pool.isEmpty && (s.node.events.any fun e => match e with
        | .delivered eid b _ => decide (eid = .dtn "n1" "x" ∧ b = forApp) | _ => false) &&
      decide (t.node.store.getBundle "b" = some forApp) && t.node.agents.has (.dtn "n1" "x") &&
      (newEvents s.node t.node).any fun e => match e with | .called (.pop eid) => decide (eid = .dtn "n1" "x") | _ => false) (by decide +kernel)
  simp only [Bool.and_eq_true, List.isEmpty_iff, decide_eq_true_eq] at h3
  obtain ⟨⟨⟨⟨⟨⟨⟨k1, k2⟩, k3⟩, k4⟩, k5⟩, k6⟩, k7⟩, k8⟩ := h3
  cases hm : n.store.getMetadata "b" with
  | none => rw [hm] at k1; cases k1
  | some p =>
    rw [hm] at k1
    refine ⟨n, tasks, p, t, h1, hm, by simpa using k1, h2, fun e he => by simpa using List.all_eq_true.mp k2 e he, k3, k4, ?_, k6, k7, ?_⟩
    · obtain ⟨e, he, hp⟩ := List.any_eq_true.mp k5
      split at hp
      · rename_i q
        rw [decide_eq_true_eq] at hp
        obtain ⟨rfl, rfl⟩ := hp
        exact ⟨_, he⟩
      · cases hp
    · obtain ⟨e, he, hp⟩ := List.any_eq_true.mp k8
      split at hp
      · rw [decide_eq_true_eq] at hp; subst hp; exact he
      · cases hp

/-- The process is stopped right after a bundle for another node was taken in. -/
example : ∃ n tasks p t, OnSled.Reaches ⟨Node.start sledParallel 946684800100, []⟩ ⟨n, tasks⟩ ∧ n.store.getMetadata "b" = some p ∧
    p.has .forwardPending = false ∧ OnSled.Reaches ⟨restarted n 946684800200, []⟩ t ∧
    (∀ e ∈ newEvents n t.node, originated "b" e = false) ∧
    (t.pool = [] ∧ .accepted (Ex.bundle 5 1 20) ∈ n.events ∧ t.node.store.getBundle "b" = some (Ex.bundle 5 1 20) ∧
      .called .janitor ∈ newEvents n t.node) := by
  obtain ⟨⟨n, tasks⟩, t, h1, h2, h3⟩ := exists_moves (n := Node.start sledParallel 946684800100)
    ([.call (.receive (Ex.bundle 5 1 20))] ++ going 5)
    ([.cla true, .call (.receive (Ex.bundle 5 1 20)), .call .janitor] ++ going 60 (some (Ex.answer false)))
    (fun s => ⟨restarted s.node 946684800200, []⟩)
    (fun s t => ((s.node.store.getMetadata "b").any fun p => !p.has .forwardPending) && ((newEvents s.node t.node).all fun e => !originated "b" e) &&
      t.pool.isEmpty && (s.node.events.any fun e => match e with | .accepted b => decide (b = Ex.bundle 5 1 20) | _ => false) &&
      decide (t.node.store.getBundle "b" = some (Ex.bundle 5 1 20)) &&
      (newEvents s.node t.node).any fun e => match e with | .called .janitor => true | _ => false) (by decide +kernel)
  simp only [Bool.and_eq_true, List.isEmpty_iff, decide_eq_true_eq] at h3
  obtain ⟨⟨⟨⟨⟨k1, k2⟩, k4⟩, k5⟩, k6⟩, k8⟩ := h3
  cases hm : n.store.getMetadata "b" with
  | none => rw [hm] at k1; cases k1
  | some p =>
    rw [hm] at k1
    refine ⟨n, tasks, p, t, h1, hm, by simpa using k1, h2, fun e he => by simpa using List.all_eq_true.mp k2 e he, k4, ?_, k6, ?_⟩
    · obtain ⟨e, he, hp⟩ := List.any_eq_true.mp k5
      split at hp
      · rw [decide_eq_true_eq] at hp; subst hp; exact he
      · cases hp
    · obtain ⟨e, he, hp⟩ := List.any_eq_true.mp k8
      split at hp
      · exact he
      · cases hp

/-- A bundle made after "b". -/
def afterB : Bundle := { Ex.bundle 5 1 20 with primary := { Ex.primary with bid := "c", creationTime := 6 } }

/-- C129 (sequential processing). Nothing of that holds if bundles are processed one after the other: a bundle that was removed while
it was being forwarded is still listed as waiting, and the janitor aborts when the router names a neighbour for it. The bundles that
come after it are not taken to the router, after a restart neither. -/
theorem C129_janitor_violated : ∃ (cfg : Config) (clock : Nat) (n m : Node) (b : Bundle), cfg.parallel = false ∧
    OnSled.Reaches ⟨Node.start cfg clock, []⟩ ⟨n, []⟩ ∧ n.store.getBundle b.id = some b ∧ CanLeave b ∧
    SledThroughout (fun w => Undisturbed n b w ∧ w.claActive = true ∧
        ∃ p, w.store.getMetadata b.id = some p ∧ p.has .forwardPending = true ∧ p.has .deleted = false)
      ⟨n.log (.called .janitor), [OnSled.task .janitor]⟩ ⟨m, []⟩ ∧ ∀ bp a, .asked bp a ∈ newEvents n m → bp.id ≠ b.id := by
  obtain ⟨n, tasks, m, h1, h2, h3⟩ := exists_sled (n := Node.start { Ex.cfg with parallel := false } 946684800100)
    ([.call (.receive (Ex.bundle 5 1 20))] ++ going 12 ++ [.call (.remove "b"), .run 1 none true "r", .run 1 none true "r"] ++ going 20 ++
      [.call (.receive afterB)] ++ going 30 ++ [.restart 946684800200, .cla true])
    (fun s => ⟨s.node.log (.called .janitor), [taskE .janitor]⟩) (going 90 (some (Ex.answer false)))
    (fun n w => Ex113.undisturbed afterB n w && w.claActive && marked "c" w)
    (fun s m => s.pool.isEmpty && decide (s.node.store.getBundle "c" = some afterB) &&
      (newEvents s.node m).all fun e => match e with | .asked bp _ => decide (bp.id ≠ "c") | _ => true) (by decide +kernel)
  simp only [Bool.and_eq_true, decide_eq_true_eq, List.isEmpty_iff] at h3
  obtain ⟨⟨rfl, k2⟩, k3⟩ := h3
  rw [taskE_eq] at h2
  refine ⟨{ Ex.cfg with parallel := false }, _, n, m, afterB, rfl, h1, k2, ⟨by decide, ⟨by unfold AtMostOne; decide, ?_⟩, fun _ => by decide, by unfold AtMostOne; decide⟩,
    h2.weaken ?_, ?_⟩
  · intro l c h
    have : hopCount afterB = some (5, 1) := by decide
    rw [this] at h; cases h; decide
  · intro w h
    simp only [Bool.and_eq_true] at h
    exact ⟨Ex113.undisturbed_of h.1.1, h.1.2, marked_of h.2⟩
  · intro bp a h
    simpa [afterB, Bundle.id] using List.all_eq_true.mp k3 _ h

end Dtn.Props
