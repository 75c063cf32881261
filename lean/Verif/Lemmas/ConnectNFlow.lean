import Verif.Lemmas.ConnectN
/-! Lemmas about the program that connects N nodes: what happens to the packets. -/

namespace Dtn.ConnectN
open ModuleClient (EclaPacket)
open Spec.ConnectNSpec

/-- The packet is one that client `i` may pass on. -/
def Mine (x : Ext) (i : Nat) : EclaPacket → Prop
  | .data src _ _ _ => src = toString i
  | .beacon eid addr _ => eid = x.host i ∧ addr = toString i
  | .registered .. => True
  | _ => False

/-- Is it a packet from node `i` for node `j`? With `b`, beacons are counted too. -/
def goes (b : Bool) (i j : Nat) : EclaPacket → Bool
  | .data src dst _ _ => decide (src = toString i ∧ target dst = some j)
  | .beacon _ addr _ => b && decide (addr = toString i ∧ i ≠ j)
  | _ => false

theorem Mine.goes {x : Ext} {i i' j : Nat} {b : Bool} {p : EclaPacket} (h : Mine x i p) (hg : goes b i' j p = true) : i' = i := by
  cases p with
  | data src dst bid bytes =>
    simp only [ConnectN.goes, decide_eq_true_eq] at hg
    simp only [Mine] at h
    exact toString_inj (hg.1.symm.trans h)
  | beacon eid addr block =>
    simp only [ConnectN.goes, Bool.and_eq_true, decide_eq_true_eq] at hg
    simp only [Mine] at h
    exact toString_inj (hg.2.1.symm.trans h.2)
  | _ => cases hg

theorem relayed_mine (x : Ext) (i : Nat) (block : Bytes) (o : Ecla.Out) : ∀ p ∈ relayed i (written x i block o), Mine x i p := by
  intro p hp
  cases o <;> simp [written, relayed, kind, ModuleClient.ecla] at hp
  · subst hp; trivial
  · subst hp; exact ⟨rfl, rfl⟩
  · subst hp; rfl

/-- What is kept of a packet that a client passes on. -/
def shape : EclaPacket → Option (Option (String × String × Bytes))
  | .data _ dst bid bytes => some (some (dst, bid, bytes))
  | .beacon .. => some none
  | _ => none

/-- The same for what a node writes. -/
def shapeOut (x : Ext) : Ecla.Out → Option (Option (String × String × Bytes))
  | .data dest b => some (some (dest, x.bid b, x.wire b))
  | .beacon => some none
  | _ => none

theorem relayed_shape (x : Ext) (i : Nat) (block : Bytes) (o : Ecla.Out) :
    (relayed i (written x i block o)).filterMap shape = (shapeOut x o).toList := by
  cases o <;> simp [written, relayed, kind, ModuleClient.ecla, shape, shapeOut]

/-- The packets after the registration. -/
def afterReg : List EclaPacket → List EclaPacket
  | [] => []
  | p :: ps => if isReg p then ps else afterReg ps

theorem afterReg_snoc_old {H : List EclaPacket} (h : ∃ p ∈ H, isReg p = true) (q : EclaPacket) : afterReg (H ++ [q]) = afterReg H ++ [q] := by
  induction H with
  | nil => obtain ⟨p, hp, -⟩ := h; cases hp
  | cons a H ih =>
    by_cases ha : isReg a = true
    · simp [afterReg, ha]
    · simp only [List.cons_append, afterReg, ha]
      apply ih
      obtain ⟨p, hp, hr⟩ := h
      rcases List.mem_cons.mp hp with rfl | hp
      · exact absurd hr ha
      · exact ⟨p, hp, hr⟩

theorem afterReg_snoc_new {H : List EclaPacket} (h : ∀ p ∈ H, isReg p = false) (q : EclaPacket) : afterReg (H ++ [q]) = [] := by
  induction H with
  | nil => simp [afterReg]
  | cons a H ih =>
    simp only [List.cons_append, afterReg, h a (by simp), Bool.false_eq_true, if_false]
    exact ih fun p hp => h p (by simp [hp])

/-- The bundles that a node reads in packets. -/
def bundlesIn (x : Ext) (H : List EclaPacket) : List Bundle := H.flatMap fun p => Ecla.bundleIn (read x p)

theorem afterReg_prefix (H : List EclaPacket) (q : EclaPacket) : afterReg H <+: afterReg (H ++ [q]) := by
  by_cases h : ∃ p ∈ H, isReg p = true
  · rw [afterReg_snoc_old h]; exact List.prefix_append _ _
  · have : ∀ H : List EclaPacket, (∀ p ∈ H, isReg p = false) → afterReg H = [] := by
      intro H
      induction H with
      | nil => intro _; rfl
      | cons a H ih => intro h; simp only [afterReg, h a (by simp), Bool.false_eq_true, if_false]; exact ih fun p hp => h p (by simp [hp])
    rw [this H fun p hp => by simpa using fun hh => h ⟨p, hp, hh⟩]
    exact List.nil_prefix

theorem bundlesIn_prefix (x : Ext) {H K : List EclaPacket} (h : H <+: K) : bundlesIn x H <+: bundlesIn x K := by
  obtain ⟨t, rfl⟩ := h
  unfold bundlesIn
  rw [List.flatMap_append]
  exact List.prefix_append _ _

/-- A node and its connection with the program, of which it has handled the packets `H`. -/
def NodeInv (x : Ext) (node : Ecla.State) (c : Nat) (down : Nat) (passed H : List EclaPacket) : Prop :=
  ∃ m p w, node.see c = some (.number m, p, w) ∧ down ≤ w.length ∧
    passed.filterMap shape = (w.take down).filterMap (shapeOut x) ∧
    node.got (.number m) <+: bundlesIn x (afterReg H) ∧
    (p = .accepted ∨ p = .entered → node.got (.number m) = []) ∧
    (p = .serving → ∃ k, AList.get? node.modules (.number m) = some k ∧
      ((k.active = true ∧ (∃ p ∈ H, isReg p = true) ∧ node.got (.number m) = bundlesIn x (afterReg H)) ∨
       (k.active = false ∧ node.got (.number m) = [])))

/-- What holds at every node. -/
structure SiteInv (x : Ext) (i : Nat) (s : Site) : Prop extends ClientInv s where
  mine : ∀ p ∈ s.client.passed, Mine x i p
  ws : .websocket ∈ s.node.connectors
  uniq : s.node.Uniq
  known : s.node.Known
  up : s.up ≤ s.put.length
  node : ∀ c, s.link = some c → NodeInv x s.node c s.down s.client.passed (s.put.take s.up)

/-- Something at the node that is no packet of the program. -/
theorem NodeInv.step {x node c down passed H} {e : Ecla.Ev} {t : Ecla.State} (h : NodeInv x node c down passed H) (hu : node.Uniq)
    (he : ∀ p, e ≠ .packet c p) (hs : Ecla.step node e = some t) : NodeInv x t c down passed H := by
  obtain ⟨m, p, w, h1, h2, h3, h4, h5, h6⟩ := h
  by_cases ho : Ecla.own c e = true
  · have he' : e = .proceed c ∨ e = .stop c := by
      cases e with
      | packet d p => exact absurd (by simp only [Ecla.own, beq_iff_eq] at ho; rw [ho]) (he p)
      | proceed d => left; simp only [Ecla.own, beq_iff_eq] at ho; rw [ho]
      | stop d => right; simp only [Ecla.own, beq_iff_eq] at ho; rw [ho]
      | _ => cases ho
    obtain ⟨g1, q, g2, g3, g4, g5⟩ := Ecla.own_step h1 he' hs
    refine ⟨m, q, w, g2, h2, h3, by rw [g1]; exact h4, ?_, ?_⟩
    · rintro (rfl | rfl)
      · exact absurd rfl g3
      · rw [g1]; exact h5 (.inl (g4 rfl))
    · intro hq
      obtain ⟨g6, k, g7, g8⟩ := g5 hq
      exact ⟨k, g7, .inr ⟨g8, by rw [g1]; exact h5 (.inr g6)⟩⟩
  · have q := Ecla.quiet_step hu h1 (by simpa using ho) hs
    obtain ⟨v, hv, hwv⟩ := q.conn _ _ _ h1
    refine ⟨m, p, v, hv, Nat.le_trans h2 hwv.length_le, ?_, by rw [q.recv]; exact h4, by rw [q.recv]; exact h5, by rw [q.recv, q.mods]; exact h6⟩
    rw [h3]
    obtain ⟨r, rfl⟩ := hwv
    rw [List.take_append_of_le_length h2]

/-- The node handles a packet of the program. -/
theorem NodeInv.packet {x node c down passed H q} {t : Ecla.State} (h : NodeInv x node c down passed H) (hw : .websocket ∈ node.connectors)
    (one : isReg q = true → ∀ p ∈ H, isReg p = false) (hs : Ecla.step node (.packet c (read x q)) = some t) :
    NodeInv x t c down passed (H ++ [q]) := by
  obtain ⟨m, p, w, h1, h2, h3, h4, h5, h6⟩ := h
  obtain ⟨g0, r, v, g1, g2, g3, g4, g5⟩ := Ecla.packet_step h1 hw hs
  have hsh : passed.filterMap shape = (v.take down).filterMap (shapeOut x) := by
    rw [h3]
    obtain ⟨r, rfl⟩ := g2
    rw [List.take_append_of_le_length h2]
  have grow := bundlesIn_prefix x (afterReg_prefix H q)
  have pre : ¬ (r = .accepted ∨ r = .entered) := fun hh => hh.elim g3 g4
  obtain ⟨k, k1, k2⟩ := h6 g0
  rcases g5 with ⟨g5, g6⟩ | ⟨g5, ⟨g6, -, -⟩ | ⟨k', g6, g7, g8, g9⟩ | ⟨k', g6, g7, g8, k'', g9, g10⟩⟩
  · exact ⟨m, r, v, g1, Nat.le_trans h2 g2.length_le, hsh, by rw [g6]; exact h4.trans grow, fun hh => absurd hh pre, fun hh => absurd hh g5⟩
  · rw [k1] at g6; cases g6
  · rw [k1] at g6
    cases g6
    rcases k2 with ⟨a1, a2, a3⟩ | ⟨a1, -⟩
    · have e : t.got (.number m) = bundlesIn x (afterReg (H ++ [q])) := by
        rw [g9, a3, afterReg_snoc_old a2]
        simp [bundlesIn]
      refine ⟨m, r, v, g1, Nat.le_trans h2 g2.length_le, hsh, by rw [e]; exact List.prefix_refl _, fun hh => absurd hh pre, fun _ => ⟨k, g8, .inl ⟨g7, ?_, e⟩⟩⟩
      obtain ⟨p, hp, hr⟩ := a2
      exact ⟨p, by simp [hp], hr⟩
    · rw [g7] at a1; cases a1
  · rw [k1] at g6
    cases g6
    rcases k2 with ⟨a1, -, -⟩ | ⟨-, a2⟩
    · rw [g7] at a1; cases a1
    · refine ⟨m, r, v, g1, Nat.le_trans h2 g2.length_le, hsh, by rw [g8]; exact h4.trans grow, fun hh => absurd hh pre, fun _ => ⟨k'', g9, ?_⟩⟩
      by_cases hk : k''.active = true
      · left
        obtain ⟨n, b, o, hq⟩ := g10 hk
        have hqr : isReg q = true := by
          cases q with
          | register => rfl
          | _ => simp [read] at hq
        refine ⟨hk, ⟨q, by simp, hqr⟩, ?_⟩
        rw [g8, a2, afterReg_snoc_new (one hqr)]
        rfl
      · exact .inr ⟨by simpa using hk, by rw [g8]; exact a2⟩

end Dtn.ConnectN
