import Verif.Lemmas.ProcWalks
import Verif.Spec.Ends
import Mathlib.Logic.Hydra
/-! Every task comes to an end: programs are finite, and no task waits for what will not happen. -/

namespace Dtn.Proc
open Routing (Answer)
open Spec

/-! ### Programs are finite -/

/-- What may be left of a program after one step. -/
inductive PartOf : Prog → Prog → Prop where
  | act (f : Node → Node) (k : Node → Prog) (n : Node) : PartOf (k n) (.act f k)
  | route (bp : Pack) (k : Option Answer → Prog) (a : Option Answer) : PartOf (k a) (.route bp k)
  | choose (k : Bool → Prog) (b : Bool) : PartOf (k b) (.choose k)
  | fresh (k : String → Prog) (s : String) : PartOf (k s) (.fresh k)
  | task (t k : Prog) : PartOf t (.spawn t k)
  | spawn (t k : Prog) : PartOf k (.spawn t k)
  | wait (c : Node → Bool) (k : Prog) : PartOf k (.wait c k)

theorem rest_wf : WellFounded PartOf := by
  refine ⟨fun p => ?_⟩
  induction p with
  | done => exact ⟨_, fun q h => by cases h⟩
  | panic => exact ⟨_, fun q h => by cases h⟩
  | act f k ih => exact ⟨_, fun q h => by cases h; exact ih _⟩
  | route bp k ih => exact ⟨_, fun q h => by cases h; exact ih _⟩
  | choose k ih => exact ⟨_, fun q h => by cases h; exact ih _⟩
  | fresh k ih => exact ⟨_, fun q h => by cases h; exact ih _⟩
  | spawn t k ih1 ih2 => exact ⟨_, fun q h => by cases h <;> assumption⟩
  | wait c k ih => exact ⟨_, fun q h => by cases h; exact ih⟩

theorem step_rest {n n' : Node} {p : Prog} {ps : List Prog} (h : TaskStep n p n' ps) : ∀ q ∈ ps, PartOf q p := by
  intro q hq
  cases h <;> simp only [List.not_mem_nil, List.mem_cons, or_false] at hq
  · subst hq; exact .act _ _ _
  · subst hq; exact .route _ _ _
  · subst hq; exact .choose _ _
  · subst hq; exact .fresh _ _
  · rcases hq with rfl | rfl
    · exact .spawn _ _
    · exact .task _ _
  · subst hq; exact .wait _ _

/-- There is less left to do. -/
def Less (l l' : List Prog) : Prop := Relation.CutExpand PartOf (l : Multiset Prog) (l' : Multiset Prog)

theorem less_wf : WellFounded Less := InvImage.wf _ rest_wf.cutExpand

theorem less_step {n n' : Node} {p : Prog} {ps : List Prog} (h : TaskStep n p n' ps) (l r : List Prog) :
    Less (l ++ ps ++ r) (l ++ p :: r) := by
  refine ⟨(ps : Multiset Prog), p, fun q hq => step_rest h q (by simpa using hq), ?_⟩
  rw [← Multiset.coe_singleton, Multiset.coe_add, Multiset.coe_add, Multiset.coe_eq_coe]
  simp only [List.append_assoc, List.cons_append]
  refine List.Perm.append_left l ?_
  have h1 : (ps ++ (r ++ [p])).Perm ((r ++ [p]) ++ ps) := List.perm_append_comm
  refine h1.trans ?_
  exact List.Perm.append_right ps (List.perm_append_comm (l₁ := r) (l₂ := [p]))

theorem step_less {s t : Sys} (h : Step tasksOnly s t) : Less t.pool s.pool := by
  cases h with
  | task l r p n n' ps h => exact less_step h l r
  | call _ _ _ h => exact h.elim
  | change _ _ _ h => exact h.elim

/-! ### Nobody waits in vain -/

/-- How many transfers of a group are running. -/
def running (n : Node) (g : Nat) : Nat :=
  match n.groups[g]? with
  | some x => x.running
  | none => 0

/-- In a node with at least `L` groups of transfers, the program will end `d g` transfers of each group `g`, and it waits only
for groups in `O` and for those it sets up itself. -/
def Owes : Prog → Nat → (Nat → Prop) → (Nat → Nat) → Prop
  | .done _, _, _, d => d = 0
  | .panic, _, _, d => d = 0
  | .act f k, L, O, d => ∀ n : Node, L ≤ n.groups.length → (∀ g, d g ≤ running n g) →
      n.groups.length ≤ (f n).groups.length ∧ ∃ d', (∀ g, running (f n) g + d g = running n g + d' g) ∧
        (∀ g, d' g ≠ 0 → d g ≠ 0 ∨ n.groups.length ≤ g) ∧
        Owes (k n) (f n).groups.length (fun g => O g ∨ n.groups.length ≤ g ∧ g < (f n).groups.length) d'
  | .route _ k, L, O, d => ∀ a, Owes (k a) L O d
  | .choose k, L, O, d => ∀ b, Owes (k b) L O d
  | .fresh k, L, O, d => ∀ s, Owes (k s) L O d
  | .spawn t k, L, O, d => ∃ d1 d2, d = d1 + d2 ∧ Owes t L O d1 ∧ Owes k L O d2
  | .wait c k, L, O, d => d = 0 ∧ (∃ g, O g ∧ g < L ∧ ∀ n : Node, g < n.groups.length → running n g = 0 → c n = true) ∧ Owes k L O 0

theorem Owes.mono {p : Prog} {L L' : Nat} {O O' : Nat → Prop} {d : Nat → Nat} (h : Owes p L O d) (hL : L ≤ L') (hO : ∀ g, O g → O' g) :
    Owes p L' O' d := by
  induction p generalizing L L' O O' d with
  | done => exact h
  | panic => exact h
  | act f k ih =>
    intro n hn hd
    obtain ⟨h1, d', h2, h3, h4⟩ := h n (hL.trans hn) hd
    exact ⟨h1, d', h2, h3, ih _ h4 (Nat.le_refl _) fun g hg => hg.imp (hO g) id⟩
  | route bp k ih => exact fun a => ih _ (h a) hL hO
  | choose k ih => exact fun a => ih _ (h a) hL hO
  | fresh k ih => exact fun a => ih _ (h a) hL hO
  | spawn t k ih1 ih2 =>
    obtain ⟨d1, d2, h1, h2, h3⟩ := h
    exact ⟨d1, d2, h1, ih1 h2 hL hO, ih2 h3 hL hO⟩
  | wait c k ih =>
    obtain ⟨h1, ⟨g, h2, h3, h4⟩, h5⟩ := h
    exact ⟨h1, ⟨g, hO g h2, by omega, h4⟩, ih h5 hL hO⟩

theorem owes_keep {f : Node → Node} {k : Node → Prog} {L : Nat} {O : Nat → Prop} {d : Nat → Nat}
    (hf : ∀ n, (f n).groups.length = n.groups.length ∧ ∀ g, running (f n) g = running n g) (hk : ∀ n, Owes (k n) L O d) :
    Owes (.act f k) L O d := by
  intro n hn hd
  refine ⟨Nat.le_of_eq (hf n).1.symm, d, fun g => by rw [(hf n).2], fun g h => .inl h, ?_⟩
  exact (hk n).mono (by rw [(hf n).1]; exact hn) fun g h => .inl h

theorem keep_of_groups {n m : Node} (h : m.groups = n.groups) : m.groups.length = n.groups.length ∧ ∀ g, running m g = running n g := by
  unfold running; rw [h]; exact ⟨rfl, fun _ => rfl⟩

theorem running_modify {n : Node} {g g' : Nat} {f : Group → Group} :
    running { n with groups := n.groups.modify g f } g' = match n.groups[g']? with
      | some x => if g = g' then (f x).running else x.running
      | none => 0 := by
  unfold running
  rw [List.getElem?_modify]
  by_cases h : g = g'
  · subst h; cases n.groups[g]? <;> simp
  · simp [h]

/-- One transfer of a group. -/
def aTransfer (g : Nat) : Nat → Nat := fun g' => if g' = g then 1 else 0

theorem owes_endTask {g L : Nat} {O : Nat → Prop} {k : Prog} (hk : Owes k L O 0) : Owes (.set (fun n => n.endTask g) k) L O (aTransfer g) := by
  intro n hn hd
  refine ⟨by simp [Node.endTask], 0, fun g' => ?_, fun g' h => absurd rfl h, hk.mono ?_ fun g h => .inl h⟩
  · have := hd g'
    show running { n with groups := _ } g' + _ = _
    rw [running_modify]
    unfold running aTransfer at *
    cases hg : n.groups[g']? with
    | none =>
      rw [hg] at this
      simp only [Pi.zero_apply] at *
      omega
    | some x =>
      rw [hg] at this
      simp only [Pi.zero_apply] at *
      by_cases h : g = g'
      · subst h; simp only [if_true] at *; omega
      · rw [if_neg h, if_neg (Ne.symm h)]
  · simpa [Node.endTask] using hn

theorem owes_setSent {g L : Nat} {O : Nat → Prop} {d : Nat → Nat} {k : Prog} (hk : Owes k L O d) :
    Owes (.set (fun n => n.setSent g) k) L O d := by
  refine owes_keep (fun n => ⟨by simp [Node.setSent], fun g' => ?_⟩) fun _ => hk
  show running { n with groups := _ } g' = _
  rw [running_modify]
  unfold running
  cases n.groups[g']? with
  | none => rfl
  | some x => simp only; split <;> rfl

theorem owes_transfer {x : String} {t : Transfer} {L : Nat} {O : Nat → Prop} : Owes (transferTask x t) L O (aTransfer t.group) := by
  unfold transferTask
  refine owes_keep (fun n => keep_of_groups rfl) fun _ => fun ok => owes_keep (fun n => keep_of_groups rfl) fun _ => ?_
  split
  · refine owes_keep (fun n => keep_of_groups rfl) fun _ => ?_
    split
    · exact owes_endTask rfl
    · exact owes_keep (fun n => keep_of_groups rfl) fun _ => owes_keep (fun n => keep_of_groups rfl) fun _ =>
        owes_keep (fun n => keep_of_groups rfl) fun _ => owes_endTask rfl
  · refine owes_keep (fun n => keep_of_groups rfl) fun _ => owes_setSent ?_
    split
    · exact owes_endTask rfl
    · exact owes_keep (fun n => keep_of_groups rfl) fun _ => owes_endTask rfl

/-- `k` transfers of a group. -/
def transfers (g k : Nat) : Nat → Nat := fun g' => if g' = g then k else 0

theorem owes_spawnTransfers {x : String} {mk : Sender → Transfer} {g L : Nat} {O : Nat → Prop} {k : Prog} (hmk : ∀ s, (mk s).group = g)
    (hk : Owes k L O 0) (ss : List Sender) : Owes (spawnTransfers x mk ss k) L O (transfers g ss.length) := by
  induction ss with
  | nil =>
    have : transfers g ([] : List Sender).length = 0 := by funext g'; unfold transfers; split <;> rfl
    rw [this]; exact hk
  | cons s ss ih =>
    refine ⟨aTransfer g, transfers g ss.length, ?_, by rw [← hmk s]; exact owes_transfer, ih⟩
    funext g'
    simp only [transfers, aTransfer, Pi.add_apply, List.length_cons]
    split <;> omega

/-- A group of transfers is set up, started and waited for. -/
theorem owes_transfers {bid : String} {bp : Pack} {b out : Bundle} {a : Answer} {c1 c2 : Nat} {r : Option Nat} {after : Nat → Prog} {L : Nat}
    {O : Nat → Prop} (hk : ∀ g L O, Owes (after g) L O 0) :
    Owes (.act (fun n => n.newGroup bp b a) fun n =>
      spawnTransfers bid (fun s => { group := n.groups.length, stored := b, out, «to» := s, checkedAt := c1, agedAt := c2, receivedAt := r }) a.clas
        (.wait (fun m => m.allEnded n.groups.length) (after n.groups.length))) L O 0 := by
  intro n hn hd
  have hlen : (n.newGroup bp b a).groups.length = n.groups.length + 1 := by simp [Node.newGroup]
  refine ⟨by rw [hlen]; omega, transfers n.groups.length a.clas.length, fun g => ?_, fun g hg => ?_, ?_⟩
  · unfold running Node.newGroup transfers
    simp only [Pi.zero_apply]
    rcases Nat.lt_trichotomy g n.groups.length with h | h | h
    · rw [List.getElem?_append_left h, if_neg (by omega)]
    · subst h; simp
    · rw [if_neg (by omega), List.getElem?_eq_none (by simp; omega), List.getElem?_eq_none (by omega)]
  · unfold transfers at hg
    split at hg
    · right; omega
    · exact absurd rfl hg
  · have hw : Owes (.wait (fun m => m.allEnded n.groups.length) (after n.groups.length)) (n.newGroup bp b a).groups.length
        (fun g => O g ∨ n.groups.length ≤ g ∧ g < (n.newGroup bp b a).groups.length) 0 := by
      refine ⟨rfl, ⟨n.groups.length, .inr ⟨Nat.le_refl _, by rw [hlen]; omega⟩, by rw [hlen]; omega, ?_⟩, hk _ _ _⟩
      intro m hm hr
      unfold running at hr
      unfold Node.allEnded
      cases hg : m.groups[n.groups.length]? with
      | none => exact absurd hm (by have := List.getElem?_eq_none_iff.mp hg; omega)
      | some x => rw [hg] at hr; simp only [hg]; simpa using hr
    exact owes_spawnTransfers (mk := fun s => { group := n.groups.length, stored := b, out, «to» := s, checkedAt := c1, agedAt := c2, receivedAt := r })
      (fun _ => rfl) hw a.clas

theorem owes_calm : Calm (fun n m => m.groups = n.groups) (fun _ => True) (fun p => ∀ L O, Owes p L O 0) (fun p => ∀ L O, Owes p L O 0) where
  aside _ _ _ hg _ _ _ _ := hg
  deliver n e b room := by unfold Node.deliver; split <;> rfl
  pop n e := by
    unfold Node.popAgent
    split
    · rfl
    · split <;> rfl
  act h L O := owes_keep (fun n => keep_of_groups (h n trivial).1) fun n => (h n trivial).2 _ _
  choose h L O := fun b => h b _ _
  fresh h L O := fun b => h b _ _
  spawn ht hk L O := ⟨0, 0, rfl, ht _ _, hk _ _⟩
  sends bp b out a c1 c2 r k hk L O := owes_transfers fun g L O => hk g L O
  route bp k h L O := fun a => h a _ _

theorem owes_call (c : Call) (L : Nat) (O : Nat → Prop) : Owes c.prog L O 0 :=
  owes_calm.call (fun _ _ _ => rfl) (fun _ _ => rfl) c L O

/-- All tasks together. -/
inductive Owed (L : Nat) (O : Nat → Prop) : List Prog → (Nat → Nat) → Prop where
  | nil : Owed L O [] 0
  | cons {p : Prog} {ps : List Prog} {d d' : Nat → Nat} : Owes p L O d → Owed L O ps d' → Owed L O (p :: ps) (d + d')

theorem Owed.mono {L L' : Nat} {O O' : Nat → Prop} {ps : List Prog} {d : Nat → Nat} (h : Owed L O ps d) (hL : L ≤ L') (hO : ∀ g, O g → O' g) :
    Owed L' O' ps d := by
  induction h with
  | nil => exact .nil
  | cons h _ ih => exact .cons (h.mono hL hO) ih

theorem Owed.append {L : Nat} {O : Nat → Prop} {ps qs : List Prog} {d d' : Nat → Nat} (h : Owed L O ps d) (h' : Owed L O qs d') :
    Owed L O (ps ++ qs) (d + d') := by
  induction h with
  | nil => rw [zero_add]; exact h'
  | cons h _ ih => rw [add_assoc]; exact .cons h ih

theorem Owed.split {L : Nat} {O : Nat → Prop} {qs : List Prog} : ∀ {ps : List Prog} {d : Nat → Nat}, Owed L O (ps ++ qs) d →
    ∃ d1 d2, d = d1 + d2 ∧ Owed L O ps d1 ∧ Owed L O qs d2
  | [], d, h => ⟨0, d, (zero_add d).symm, .nil, h⟩
  | p :: ps, _, .cons (d := e) h h' => by
    obtain ⟨d1, d2, rfl, h1, h2⟩ := Owed.split h'
    exact ⟨e + d1, d2, (add_assoc _ _ _).symm, .cons h h1, h2⟩

/-- A step of a task: what it owed is made up for. -/
theorem Owes.step {n n' : Node} {p : Prog} {ps : List Prog} {O : Nat → Prop} {d : Nat → Nat} (s : TaskStep n p n' ps)
    (h : Owes p n.groups.length O d) (hd : ∀ g, d g ≤ running n g) :
    n.groups.length ≤ n'.groups.length ∧ ∃ d', (∀ g, running n' g + d g = running n g + d' g) ∧
      (∀ g, d' g ≠ 0 → d g ≠ 0 ∨ n.groups.length ≤ g) ∧
      Owed n'.groups.length (fun g => O g ∨ n.groups.length ≤ g ∧ g < n'.groups.length) ps d' := by
  have single : ∀ {m : Node} {q : Prog} {d' : Nat → Nat}, Owes q m.groups.length O d' → m.groups = n.groups →
      Owed m.groups.length (fun g => O g ∨ n.groups.length ≤ g ∧ g < m.groups.length) [q] d' := by
    intro m q d' h _
    have := Owed.cons (h.mono (Nat.le_refl _) fun g hg => .inl hg) (.nil (O := fun g => O g ∨ n.groups.length ≤ g ∧ g < m.groups.length))
    rwa [add_zero] at this
  cases s with
  | done => rw [show d = 0 from h]; exact ⟨Nat.le_refl _, 0, fun _ => rfl, fun g hg => absurd rfl hg, .nil⟩
  | panic => rw [show d = 0 from h]; exact ⟨Nat.le_refl _, 0, fun _ => rfl, fun g hg => absurd rfl hg, .nil⟩
  | act f k =>
    obtain ⟨h1, d', h2, h3, h4⟩ := h n (Nat.le_refl _) hd
    refine ⟨h1, d', h2, h3, ?_⟩
    have := Owed.cons h4 .nil
    rwa [add_zero] at this
  | route bp k a => exact ⟨Nat.le_refl _, d, fun _ => rfl, fun g hg => .inl hg, single (m := n.log (.asked bp a)) (h a) rfl⟩
  | choose k b => exact ⟨Nat.le_refl _, d, fun _ => rfl, fun g hg => .inl hg, single (h b) rfl⟩
  | fresh k b => exact ⟨Nat.le_refl _, d, fun _ => rfl, fun g hg => .inl hg, single (h b) rfl⟩
  | spawn t k =>
    obtain ⟨d1, d2, rfl, h1, h2⟩ := h
    refine ⟨Nat.le_refl _, d1 + d2, fun _ => rfl, fun g hg => .inl hg, ?_⟩
    rw [add_comm]
    exact (single h2 rfl).append (single h1 rfl)
  | wait c k hc =>
    obtain ⟨rfl, -, h⟩ := h
    exact ⟨Nat.le_refl _, 0, fun _ => rfl, fun g hg => absurd rfl hg, single h rfl⟩

/-- What holds in all states: the transfers running are those that the tasks will end, and the tasks singled out wait only for
transfers of their own. -/
def Served (s : Followed) : Prop :=
  ∃ (O O' : Nat → Prop) (da dm db : Nat → Nat), (∀ g, O g → O' g → False) ∧ (∀ g, O g ∨ O' g → g < s.node.groups.length) ∧
    Owed s.node.groups.length O' s.before da ∧ Owed s.node.groups.length O s.own dm ∧ Owed s.node.groups.length O' s.after db ∧
    (∀ g, running s.node g = da g + dm g + db g) ∧ (∀ g, dm g ≠ 0 → O g) ∧ ∀ g, da g ≠ 0 ∨ db g ≠ 0 → O' g

/-- A step within one part. -/
theorem Owed.within {n n' : Node} {p : Prog} {ps l r : List Prog} {O : Nat → Prop} {d : Nat → Nat} (s : TaskStep n p n' ps)
    (h : Owed n.groups.length O (l ++ p :: r) d) (hd : ∀ g, d g ≤ running n g) :
    n.groups.length ≤ n'.groups.length ∧ ∃ d', (∀ g, running n' g + d g = running n g + d' g) ∧
      (∀ g, d' g ≠ 0 → d g ≠ 0 ∨ n.groups.length ≤ g) ∧
      Owed n'.groups.length (fun g => O g ∨ n.groups.length ≤ g ∧ g < n'.groups.length) (l ++ ps ++ r) d' := by
  obtain ⟨d1, d2, rfl, h1, h2⟩ := h.split
  cases h2 with
  | @cons _ _ e d3 hp hr =>
    have hd' : ∀ g, e g ≤ running n g := fun g => by have := hd g; simp only [Pi.add_apply] at this; omega
    obtain ⟨k1, d', k2, k3, k4⟩ := hp.step s hd'
    refine ⟨k1, d1 + d' + d3, fun g => ?_, fun g hg => ?_, ?_⟩
    · have := k2 g; simp only [Pi.add_apply]; omega
    · simp only [Pi.add_apply] at hg ⊢
      by_cases hz : d' g = 0
      · left; omega
      · rcases k3 g hz with h | h
        · left; omega
        · exact .inr h
    · exact ((h1.mono k1 fun g hg => .inl hg).append k4).append (hr.mono k1 fun g hg => .inl hg)

theorem running_of_le {n : Node} {g : Nat} (h : n.groups.length ≤ g) : running n g = 0 := by
  unfold running; rw [List.getElem?_eq_none h]

theorem outside_groups {n n' : Node} (h : Outside n n') : n'.groups = n.groups := by cases h <;> rfl

theorem Served.own {s t : Followed} (h : Served s) (st : OwnStep s t) : Served t := by
  obtain ⟨O, O', da, dm, db, hdis, hlt, ha, hm, hb, hr, hO, hO'⟩ := h
  cases st with
  | mk a b l r p n n' ps st =>
    dsimp only at *
    obtain ⟨k1, d', k2, k3, k4⟩ := hm.within st fun g => by have := hr g; omega
    refine ⟨_, O', da, d', db, ?_, ?_, ha.mono k1 fun _ h => h, k4, hb.mono k1 fun _ h => h, ?_, ?_, hO'⟩
    · rintro g (h | ⟨h, -⟩) h'
      · exact hdis g h h'
      · have := hlt g (.inr h'); omega
    · rintro g ((h | h) | h) <;> dsimp only
      · have := hlt g (.inl h); omega
      · exact h.2
      · have := hlt g (.inr h); omega
    · intro g; have := hr g; have := k2 g; dsimp only; omega
    · intro g hg
      rcases k3 g hg with h | h
      · exact .inl (hO g h)
      · refine .inr ⟨h, ?_⟩
        by_contra hc
        have h1 := running_of_le (n := n') (Nat.le_of_not_lt hc)
        have h2 := running_of_le h
        have := k2 g; have := hr g
        omega

theorem Served.other {s t : Followed} (h : Served s) (st : OtherStep s t) : Served t := by
  obtain ⟨O, O', da, dm, db, hdis, hlt, ha, hm, hb, hr, hO, hO'⟩ := h
  cases st with
  | before own b l r p n n' ps st =>
    dsimp only at *
    obtain ⟨k1, d', k2, k3, k4⟩ := ha.within st fun g => by have := hr g; omega
    refine ⟨O, _, d', dm, db, ?_, ?_, k4, hm.mono k1 fun _ h => h, hb.mono k1 fun _ h => .inl h, ?_, hO, ?_⟩
    · rintro g h (h' | ⟨h', -⟩)
      · exact hdis g h h'
      · have := hlt g (.inl h); omega
    · rintro g (h | (h | h)) <;> dsimp only
      · have := hlt g (.inl h); omega
      · have := hlt g (.inr h); omega
      · exact h.2
    · intro g; have := hr g; have := k2 g; dsimp only; omega
    · rintro g (hg | hg)
      · rcases k3 g hg with h | h
        · exact .inl (hO' g (.inl h))
        · refine .inr ⟨h, ?_⟩
          by_contra hc
          have h1 := running_of_le (n := n') (Nat.le_of_not_lt hc)
          have h2 := running_of_le h
          have := k2 g; have := hr g
          omega
      · exact .inl (hO' g (.inr hg))
  | after a own l r p n n' ps st =>
    dsimp only at *
    obtain ⟨k1, d', k2, k3, k4⟩ := hb.within st fun g => by have := hr g; omega
    refine ⟨O, _, da, dm, d', ?_, ?_, ha.mono k1 fun _ h => .inl h, hm.mono k1 fun _ h => h, k4, ?_, hO, ?_⟩
    · rintro g h (h' | ⟨h', -⟩)
      · exact hdis g h h'
      · have := hlt g (.inl h); omega
    · rintro g (h | (h | h)) <;> dsimp only
      · have := hlt g (.inl h); omega
      · have := hlt g (.inr h); omega
      · exact h.2
    · intro g; have := hr g; have := k2 g; dsimp only; omega
    · rintro g (hg | hg)
      · exact .inl (hO' g (.inl hg))
      · rcases k3 g hg with h | h
        · exact .inl (hO' g (.inr h))
        · refine .inr ⟨h, ?_⟩
          by_contra hc
          have h1 := running_of_le (n := n') (Nat.le_of_not_lt hc)
          have h2 := running_of_le h
          have := k2 g; have := hr g
          omega
  | call n a own b c =>
    refine ⟨O, O', da, dm, db + 0, hdis, hlt, ha, hm, hb.append ?_, hr, hO, hO'⟩
    exact .cons (owes_call c _ _) .nil
  | change n n' a own b st =>
    have hg := outside_groups st
    have hk := keep_of_groups hg
    refine ⟨O, O', da, dm, db, hdis, ?_, ?_, ?_, ?_, ?_, hO, hO'⟩
    · dsimp only at *; rw [hk.1]; exact hlt
    · dsimp only at *; rw [hk.1]; exact ha
    · dsimp only at *; rw [hk.1]; exact hm
    · dsimp only at *; rw [hk.1]; exact hb
    · dsimp only at *; intro g; rw [hk.2]; exact hr g

/-- Tasks that all wait owe nothing. -/
theorem owed_waiting {L : Nat} {O : Nat → Prop} {ps : List Prog} {d : Nat → Nat} (h : Owed L O ps d) (hw : ∀ p ∈ ps, ∃ c k, p = .wait c k) : d = 0 := by
  induction h with
  | nil => rfl
  | cons h _ ih =>
    obtain ⟨c, k, rfl⟩ := hw _ (List.mem_cons_self ..)
    rw [ih fun q hq => hw q (List.mem_cons_of_mem _ hq), h.1, add_zero]

/-- A task that does not wait can make a step. -/
theorem can_step (n : Node) (p : Prog) : (∃ n' ps, TaskStep n p n' ps) ∨ ∃ c k, p = .wait c k := by
  cases p with
  | done => exact .inl ⟨_, _, .done _ _⟩
  | panic => exact .inl ⟨_, _, .panic _⟩
  | act f k => exact .inl ⟨_, _, .act _ _ _⟩
  | route bp k => exact .inl ⟨_, _, .route _ _ _ none⟩
  | choose k => exact .inl ⟨_, _, .choose _ _ true⟩
  | fresh k => exact .inl ⟨_, _, .fresh _ _ ""⟩
  | spawn t k => exact .inl ⟨_, _, .spawn _ _ _⟩
  | wait c k => exact .inr ⟨c, k, rfl⟩

theorem Served.steps {s : Followed} (h : Served s) (hne : s.own ≠ []) : ∃ t, OwnStep s t := by
  obtain ⟨n, a, own, b⟩ := s
  obtain ⟨O, O', da, dm, db, hdis, hlt, ha, hm, hb, hr, hO, hO'⟩ := h
  dsimp only at *
  by_cases hs : ∃ p ∈ own, ∃ n' ps, TaskStep n p n' ps
  · obtain ⟨p, hp, n', ps, st⟩ := hs
    obtain ⟨l, r, rfl⟩ := List.append_of_mem hp
    exact ⟨_, .mk a b l r p n n' ps st⟩
  · exfalso
    have hw : ∀ p ∈ own, ∃ c k, p = .wait c k := fun p hp => (can_step n p).resolve_left fun ⟨n', ps, st⟩ => hs ⟨p, hp, n', ps, st⟩
    have hz := owed_waiting hm hw
    cases hm with
    | nil => exact hne rfl
    | @cons p ps d d' hp _ =>
      obtain ⟨c, k, rfl⟩ := hw _ (List.mem_cons_self ..)
      obtain ⟨-, ⟨g, h1, h2, h3⟩, -⟩ := hp
      refine hs ⟨_, List.mem_cons_self .., n, [k], .wait n c k (h3 n h2 ?_)⟩
      have e1 : (d + d') g = 0 := by rw [hz]; rfl
      have e2 : da g = 0 := by by_contra h; exact hdis g h1 (hO' g (.inl h))
      have e3 : db g = 0 := by by_contra h; exact hdis g h1 (hO' g (.inr h))
      rw [hr g, e1, e2, e3]

/-- A node that has just been started, seen in this way. -/
theorem served_reaches {cfg : Config} {clock : Nat} {n : Node} {tasks : List Prog} (h : Reaches .any ⟨Node.start cfg clock, []⟩ ⟨n, tasks⟩) :
    Served ⟨n, [], tasks, []⟩ := by
  have : ∀ s, Reaches .any ⟨Node.start cfg clock, []⟩ s → Served ⟨s.node, [], s.pool, []⟩ := by
    intro s hs
    induction hs with
    | refl =>
      exact ⟨fun _ => False, fun _ => False, 0, 0, 0, fun _ h _ => h, fun _ h => by cases h <;> contradiction, .nil, .nil, .nil,
        fun g => by unfold running Node.start; simp, fun g h => absurd rfl h, fun g h => by cases h <;> contradiction⟩
    | step _ st ih =>
      cases st with
      | task l r p n n' ps h => exact ih.own (.mk _ _ _ _ _ _ _ _ h)
      | call n pool c _ =>
        obtain ⟨O, O', da, dm, db, h1, h2, h3, h4, h5⟩ := ih
        exact ⟨O, O', da, dm + 0, db, h1, h2, h3, h4.append (.cons (owes_call c _ _) .nil), h5⟩
      | change n n' pool h => exact ih.other (.change _ _ _ _ _ h)
  exact this _ h

/-- The tasks that are running are left aside, the call is followed. -/
theorem served_call {n : Node} {tasks : List Prog} (c : Call) (h : Served ⟨n, [], tasks, []⟩) : Served ⟨n.log (.called c), tasks, [c.prog], []⟩ := by
  obtain ⟨O, O', da, dm, db, h1, h2, h3, h4, h5, h6, h7, h8⟩ := h
  cases h3; cases h5
  refine ⟨fun _ => False, O, dm, 0 + 0, 0, fun _ h _ => h, fun g h => h2 g (.inl (h.resolve_left id)), h4,
    .cons (owes_call c _ _) .nil, .nil, fun g => ?_, fun g h => absurd rfl h, fun g h => h7 g (h.resolve_right fun k => k rfl)⟩
  have := h6 g
  show running n g = dm g + 0 + 0
  simpa using this

theorem served_follows {s t : Followed} (hs : Served s) (h : Follows s t) : Served t := by
  induction h with
  | refl => exact hs
  | own _ st ih => exact ih.own st
  | other _ st ih => exact ih.other st

theorem tasksOnly_any {s t : Sys} (h : Reaches tasksOnly s t) : Reaches .any s t := by
  induction h with
  | refl => exact .refl _
  | step _ st ih =>
    cases st with
    | task l r p n n' ps h => exact ih.step (.task l r p n n' ps h)
    | call _ _ _ h => exact h.elim
    | change _ _ _ h => exact h.elim

end Dtn.Proc
