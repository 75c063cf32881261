import Verif.Lemmas.PeerUrl
/-! Which hosts are taken as IPv4 addresses. -/

namespace Dtn.PeerUrl
open Spec.PeerUrlSpec Routing

theorem digit_cases {c : Char} (h : '0' ≤ c ∧ c ≤ '9') : ∃ d : Fin 10, c = Char.ofNat (48 + d.val) := by
  have h1 : 48 ≤ c.toNat := h.1
  have h2 : c.toNat ≤ 57 := h.2
  refine ⟨⟨c.toNat - 48, by omega⟩, ?_⟩
  have : 48 + (c.toNat - 48) = c.toNat := by omega
  show c = Char.ofNat (48 + (c.toNat - 48))
  rw [this, Char.ofNat_toNat]

/-- The text of a number from 0 to 255. -/
def IsByte (s : List Char) : Prop := ∃ a : Fin 256, s = (toString a.val).toList

instance (s : List Char) : Decidable (IsByte s) := by unfold IsByte; infer_instance

theorem byte1 : ∀ a : Fin 10, isOctet [Char.ofNat (48 + a.val)] = true → IsByte [Char.ofNat (48 + a.val)] := by
  decide +kernel

theorem byte2 : ∀ a b : Fin 10, isOctet [Char.ofNat (48 + a.val), Char.ofNat (48 + b.val)] = true →
    IsByte [Char.ofNat (48 + a.val), Char.ofNat (48 + b.val)] := by
  decide +kernel

theorem byte3 : ∀ a b c : Fin 10, isOctet [Char.ofNat (48 + a.val), Char.ofNat (48 + b.val), Char.ofNat (48 + c.val)] = true →
    IsByte [Char.ofNat (48 + a.val), Char.ofNat (48 + b.val), Char.ofNat (48 + c.val)] := by
  decide +kernel

theorem digits_only {p : List Char} {acc n} (h : StaticRouting.digits acc p = some n) : ∀ c ∈ p, '0' ≤ c ∧ c ≤ '9' := by
  induction p generalizing acc with
  | nil => intro c hc; cases hc
  | cons d p ih =>
    intro c hc
    unfold StaticRouting.digits at h
    split at h
    · rename_i hd
      rcases List.mem_cons.mp hc with rfl | hc
      · exact hd
      · exact ih h c hc
    · cases h

theorem isOctet_byte {s : List Char} (h : isOctet s = true) : IsByte s := by
  have h' := h
  unfold isOctet at h'
  simp only [Bool.and_eq_true] at h'
  obtain ⟨⟨⟨h1, h2⟩, _⟩, h4⟩ := h'
  have hd : ∀ c ∈ s, '0' ≤ c ∧ c ≤ '9' := by
    cases hd : StaticRouting.digits 0 s with
    | none => rw [hd] at h4; cases h4
    | some n => exact digits_only hd
  have hl : s.length ≤ 3 := of_decide_eq_true h2
  match s, hl with
  | [], _ => simp at h1
  | [a], _ =>
    obtain ⟨x, rfl⟩ := digit_cases (hd a (by simp))
    exact byte1 x h
  | [a, b], _ =>
    obtain ⟨x, rfl⟩ := digit_cases (hd a (by simp))
    obtain ⟨y, rfl⟩ := digit_cases (hd b (by simp))
    exact byte2 x y h
  | [a, b, c], _ =>
    obtain ⟨x, rfl⟩ := digit_cases (hd a (by simp))
    obtain ⟨y, rfl⟩ := digit_cases (hd b (by simp))
    obtain ⟨z, rfl⟩ := digit_cases (hd c (by simp))
    exact byte3 x y z h
  | _ :: _ :: _ :: _ :: _, hl => simp at hl

/-- Parts joined by dots. -/
def joinDots : List (List Char) → List Char
  | [] => []
  | [p] => p
  | p :: q :: r => p ++ '.' :: joinDots (q :: r)

theorem join_split (s : List Char) : joinDots (splitDots s) = s ∧ splitDots s ≠ [] := by
  induction s with
  | nil => exact ⟨rfl, by decide⟩
  | cons c s ih =>
    unfold splitDots
    cases hs : splitDots s with
    | nil => exact absurd hs ih.2
    | cons p ps =>
      rw [hs] at ih
      by_cases hc : c = '.'
      · rw [if_pos hc]
        refine ⟨?_, by simp⟩
        show [] ++ '.' :: joinDots (p :: ps) = _
        rw [ih.1, hc, List.nil_append]
      · rw [if_neg hc]
        refine ⟨?_, by simp⟩
        cases ps with
        | nil => show c :: p = _; rw [← ih.1]; rfl
        | cons q r =>
          show c :: p ++ '.' :: joinDots (q :: r) = _
          have : p ++ '.' :: joinDots (q :: r) = s := ih.1
          rw [List.cons_append, this]

theorem byte_of {s : List Char} (h : IsByte s) : ∃ a : UInt8, s = (toString a.toNat).toList := by
  obtain ⟨a, ha⟩ := h
  refine ⟨UInt8.ofNat a.val, ?_⟩
  rw [ha, UInt8.toNat_ofNat', Nat.mod_eq_of_lt a.isLt]

theorem ip4_of_isIpv4 {s : List Char} (h : isIpv4 s = true) : ∃ a b c d : UInt8, s = ip4 a b c d := by
  unfold isIpv4 at h
  simp only [Bool.and_eq_true] at h
  have hl : (splitDots s).length = 4 := of_decide_eq_true h.1
  have hall := List.all_eq_true.mp h.2
  have hj := (join_split s).1
  match hs : splitDots s with
  | [p, q, r, t] =>
    rw [hs] at hall hj
    obtain ⟨a, ha⟩ := byte_of (isOctet_byte (hall p (by simp)))
    obtain ⟨b, hb⟩ := byte_of (isOctet_byte (hall q (by simp)))
    obtain ⟨c, hc⟩ := byte_of (isOctet_byte (hall r (by simp)))
    obtain ⟨d, hd⟩ := byte_of (isOctet_byte (hall t (by simp)))
    refine ⟨a, b, c, d, ?_⟩
    rw [← hj, ha, hb, hc, hd]
    simp only [joinDots, ip4, List.append_assoc, List.cons_append]
  | [] => rw [hs] at hl; simp at hl
  | [_] => rw [hs] at hl; simp at hl
  | [_, _] => rw [hs] at hl; simp at hl
  | [_, _, _] => rw [hs] at hl; simp at hl
  | _ :: _ :: _ :: _ :: _ :: _ => rw [hs] at hl; simp at hl

end Dtn.PeerUrl
