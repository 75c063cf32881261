import Verif.Lemmas.Foreign
/-! Received bundles with a block that asks for their deletion. -/

namespace Dtn.Proc
open Spec

variable {bid : String} {A : Node → Prop}

/-- The bundle has an unknown block that asks for its deletion. -/
def Asks (b : Bundle) : Prop := ∃ c ∈ b.canonicals, UnknownBlock c ∧ c.flags.deleteBundle = true

theorem Idle.addsIfUnknown {n : Node} (r : Idle bid n) (b : Bundle) : Idle bid (n.addIfUnknown b) := by
  have hp : Idle bid { n with store := (n.store.addIfUnknown n.clock b).1 } := by
    unfold MemStore.addIfUnknown
    split
    · exact r.store b
    · exact r
  unfold Node.addIfUnknown
  split <;> exact (hp.log (by simp [TakenUp])).1

theorem shuns_scanBlocks_asks {b : Bundle} {bp : Pack} {k : Bool → Prog} (hk : ∀ ok, Shuns bid A (k ok)) (cs : List Block)
    (h : ∃ c ∈ cs, UnknownBlock c ∧ c.flags.deleteBundle = true) (index : Nat) (marked : List Nat) :
    Shuns bid A (scanBlocks b bp k cs index marked) := by
  induction cs generalizing index marked with
  | nil => obtain ⟨c, hc, -⟩ := h; cases hc
  | cons c cs ih =>
    unfold scanBlocks
    split
    · rename_i hc
      refine ih ?_ _ _
      obtain ⟨d, hd, h1, h2⟩ := h
      rcases List.mem_cons.mp hd with rfl | hd
      · exact absurd h1 (by unfold UnknownBlock; omega)
      · exact ⟨d, hd, h1, h2⟩
    · have hc : Shuns bid A (if c.flags.deleteBundle then Proc.delete bp .blockUnintelligible (.block b c) k
          else scanBlocks b bp k cs (index + 1) (if c.flags.remove then marked ++ [index] else marked)) := by
        split
        · exact shuns_delete hk
        · rename_i hn
          refine ih ?_ _ _
          obtain ⟨d, hd, h1, h2⟩ := h
          rcases List.mem_cons.mp hd with rfl | hd
          · exact absurd h2 hn
          · exact ⟨d, hd, h1, h2⟩
      dsimp only
      split
      · refine shuns_read fun m _ _ => ?_
        split
        · exact shuns_sendReport hc
        · exact hc
      · exact hc

theorem doomed_scanBlocks {b : Bundle} {bp : Pack} {k : Bool → Prog} (hid : bp.id = bid) (hl : bp.has .localEndpoint = false)
    (cs : List Block) (h : ∃ c ∈ cs, UnknownBlock c ∧ c.flags.deleteBundle = true) (index : Nat) (marked : List Nat) :
    Doomed bid A (scanBlocks b bp k cs index marked) := by
  induction cs generalizing index marked with
  | nil => obtain ⟨c, hc, -⟩ := h; cases hc
  | cons c cs ih =>
    unfold scanBlocks
    split
    · rename_i hc
      refine ih ?_ _ _
      obtain ⟨d, hd, h1, h2⟩ := h
      rcases List.mem_cons.mp hd with rfl | hd
      · exact absurd h1 (by unfold UnknownBlock; omega)
      · exact ⟨d, hd, h1, h2⟩
    · have hc : Doomed bid A (if c.flags.deleteBundle then Proc.delete bp .blockUnintelligible (.block b c) k
          else scanBlocks b bp k cs (index + 1) (if c.flags.remove then marked ++ [index] else marked)) := by
        split
        · exact doomed_delete hid hl
        · rename_i hn
          refine ih ?_ _ _
          obtain ⟨d, hd, h1, h2⟩ := h
          rcases List.mem_cons.mp hd with rfl | hd
          · exact absurd h2 hn
          · exact ⟨d, hd, h1, h2⟩
      dsimp only
      split
      · refine doomed_read fun m _ _ _ _ => ?_
        split
        · exact doomed_sendReport hc
        · exact hc
      · exact hc

theorem shuns_receive_asks {b : Bundle} (hb : Asks b) : Shuns b.id A (Call.receive b).prog := by
  intro m i r a
  refine .inr ⟨r.addsIfUnknown b, ?_, ?_⟩
  · intro hh
    by_cases hn : (m.store.addIfUnknown m.clock b).2 = true
    · right
      dsimp only
      rw [if_pos hn]
      refine doomed_set <| doomed_read fun m0 _ _ _ _ => ?_
      intro m i r a hh
      right; right
      have h : (m.store.sync ((Pack.ofBundle m0.clock b).add .dispatchPending)).2 = true :=
        sync_ok ((Pack.hasAny_iff _).mpr ⟨.dispatchPending, by simp [Pack.has_add]⟩) (known_of_stored i hh)
      dsimp only
      rw [h]
      have last := doomed_scanBlocks (A := A) (b := b) (k := .done) (bp := (Pack.ofBundle m0.clock b).add .dispatchPending) rfl
        (by simp [Pack.has_add]) b.canonicals hb 0 []
      refine doomed_read fun m _ _ _ _ => ?_
      split
      · exact doomed_sendReport last
      · exact last
    · left
      replace hh : Here b.id (m.addIfUnknown b) := hh
      unfold Node.addIfUnknown at hh
      rw [if_neg hn] at hh
      have : (m.store.addIfUnknown m.clock b).1 = m.store := by
        unfold MemStore.addIfUnknown at hn ⊢
        split
        · rename_i h; rw [if_pos h] at hn; exact absurd rfl hn
        · rfl
      unfold Here at hh ⊢
      simpa [Node.log, this] using hh
  · dsimp only
    split
    · refine shuns_set (fun m i r => r.still rfl rfl rfl) <| shuns_read fun m _ _ => ?_
      refine shuns_act (fun m i r => r.sync i (.inr (by simp [Pack.has_add])) _) fun m => ?_
      split
      · trivial
      · exact shuns_reportIf (shuns_scanBlocks_asks (k := .done) (fun _ => trivial) _ hb _ _)
    · exact shuns_set (fun m i r => r.still rfl rfl rfl) trivial

end Dtn.Proc
