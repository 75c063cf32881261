import Verif.Model.White
import Verif.Spec.White
/-! The model's white space is Unicode's. -/

namespace Dtn

theorem isWhite_iff (c : Char) : isWhite c = true ↔ Spec.White c := by
  have h : c = ' ' ↔ c.toNat = 32 := ⟨fun h => by rw [h]; rfl, fun h => Char.toNat_inj.mp h⟩
  unfold isWhite Spec.White
  simp only [Bool.or_eq_true, Bool.and_eq_true, decide_eq_true_eq, List.mem_cons, List.not_mem_nil, or_false, h]
  omega

end Dtn
