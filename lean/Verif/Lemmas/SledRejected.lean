import Verif.Lemmas.SledForeign
import Verif.Lemmas.Rejected
/-! Received bundles with a block that asks for their deletion, with the persistent store. -/

namespace Dtn.OnSled
open Spec Proc

variable {bid : String} {A : Node → Prop}

theorem shuns_scanBlocks_asks {b : Bundle} {bp : Pack} {k : Bool → Prog} (hk : ∀ ok, Shuns bid A (k ok)) (cs : List Block)
    (h : ∃ c ∈ cs, UnknownBlock c ∧ c.flags.deleteBundle = true) (index : Nat) (marked : List Nat) :
    Shuns bid A (scanBlocks b bp k cs index marked) := by
  induction cs generalizing index marked with
  | nil => obtain ⟨c, hc, -⟩ := h; cases hc
  | cons c cs ih =>
    unfold scanBlocks
    split
    · rename_i hc
      refine ih ?_ _ _
      obtain ⟨d, hd, h1, h2⟩ := h
      rcases List.mem_cons.mp hd with rfl | hd
      · exact absurd h1 (by unfold UnknownBlock; omega)
      · exact ⟨d, hd, h1, h2⟩
    · have hc : Shuns bid A (if c.flags.deleteBundle then delete bp .blockUnintelligible (.block b c) k
          else scanBlocks b bp k cs (index + 1) (if c.flags.remove then marked ++ [index] else marked)) := by
        split
        · exact shuns_delete hk
        · rename_i hn
          refine ih ?_ _ _
          obtain ⟨d, hd, h1, h2⟩ := h
          rcases List.mem_cons.mp hd with rfl | hd
          · exact absurd h2 hn
          · exact ⟨d, hd, h1, h2⟩
      dsimp only
      split
      · refine shuns_read fun m _ _ => ?_
        split
        · exact shuns_sendReport hc
        · exact hc
      · exact hc

theorem doomed_scanBlocks {b : Bundle} {bp : Pack} {k : Bool → Prog} (hid : bp.id = bid) (hl : bp.has .localEndpoint = false)
    (cs : List Block) (h : ∃ c ∈ cs, UnknownBlock c ∧ c.flags.deleteBundle = true) (index : Nat) (marked : List Nat) :
    Doomed bid A (scanBlocks b bp k cs index marked) := by
  induction cs generalizing index marked with
  | nil => obtain ⟨c, hc, -⟩ := h; cases hc
  | cons c cs ih =>
    unfold scanBlocks
    split
    · rename_i hc
      refine ih ?_ _ _
      obtain ⟨d, hd, h1, h2⟩ := h
      rcases List.mem_cons.mp hd with rfl | hd
      · exact absurd h1 (by unfold UnknownBlock; omega)
      · exact ⟨d, hd, h1, h2⟩
    · have hc : Doomed bid A (if c.flags.deleteBundle then delete bp .blockUnintelligible (.block b c) k
          else scanBlocks b bp k cs (index + 1) (if c.flags.remove then marked ++ [index] else marked)) := by
        split
        · exact doomed_delete hid hl
        · rename_i hn
          refine ih ?_ _ _
          obtain ⟨d, hd, h1, h2⟩ := h
          rcases List.mem_cons.mp hd with rfl | hd
          · exact absurd h2 hn
          · exact ⟨d, hd, h1, h2⟩
      dsimp only
      split
      · refine doomed_read fun m _ _ _ _ => ?_
        split
        · exact doomed_sendReport hid hc
        · exact hc
      · exact hc

theorem shuns_receive_asks {b : Bundle} (hb : Asks b) : Shuns b.id A (task (.receive b)) := by
  have doom : Doomed b.id A (.set (fun n => { n with stats := { n.stats with incoming := n.stats.incoming + 1 } }) <|
      .read fun n =>
        let bp := (Pack.ofBundle n.clock b).add .dispatchPending
        sync bp fun ok =>
          if !ok then .done false
          else reportIf b.primary.flags.reqReception bp b .received .noInformation <| scanBlocks b bp .done b.canonicals 0 []) := by
    refine doomed_set <| doomed_read fun m0 _ _ _ _ => ?_
    refine doomed_sync ((Pack.hasAny_iff _).mpr ⟨.dispatchPending, by simp [Pack.has_add]⟩) rfl ?_
    have last := doomed_scanBlocks (A := A) (b := b) (k := .done) (bp := (Pack.ofBundle m0.clock b).add .dispatchPending) rfl
      (by simp [Pack.has_add]) b.canonicals hb 0 []
    refine doomed_read fun m _ _ _ _ => ?_
    split
    · exact doomed_sendReport rfl last
    · exact last
  have main : Shuns b.id A (.set (fun n => { n with stats := { n.stats with incoming := n.stats.incoming + 1 } }) <|
      .read fun n =>
        let bp := (Pack.ofBundle n.clock b).add .dispatchPending
        sync bp fun ok =>
          if !ok then .done false
          else reportIf b.primary.flags.reqReception bp b .received .noInformation <| scanBlocks b bp .done b.canonicals 0 []) := by
    refine shuns_set (fun m i r => r.still rfl rfl rfl) <| shuns_read fun m _ _ => ?_
    refine shuns_sync (.inr (by simp [Pack.has_add])) fun ok => ?_
    split
    · trivial
    · exact shuns_reportIf (shuns_scanBlocks_asks (k := .done) (fun _ => trivial) _ hb _ _)
  intro m i r a
  dsimp only
  rcases add_eq m b with ⟨-, h1, h2⟩ | ⟨hh, h1, -, h2⟩ | ⟨-, -, h1, -, h2⟩
  · rw [h1, h2]; exact .inr ⟨r, .inl, trivial⟩
  · rw [h1, h2]
    refine .inr ⟨r.addsIfUnknown b, fun _ => .inl hh, shuns_set (fun m i r => r.still rfl rfl rfl) trivial⟩
  · rw [h1, h2]
    exact .inr ⟨r.addsIfUnknown b, fun _ => .inr doom, main⟩

end Dtn.OnSled
