import Verif.Spec.BeaconLayout
import Verif.Lemmas.Discovery
/-! Lemmas about the layout of beacons. -/

namespace Dtn.Spec.Beacons
open Dtn.Discovery Dtn.Spec.Discovery Cbor

theorem number_put {k n : Nat} (h : n < 256 ^ k) : number (putUint k n) = n := by
  have : ∀ bs : Bytes, number bs = Rd.beVal bs := by
    intro bs
    induction bs with
    | nil => rfl
    | cons b bs ih => rw [beVal_cons, number, ih]
  rw [this, beVal_putUint_of_lt h]

theorem head_spec {m n : Nat} (hm : m < 6) (hn : n < 2 ^ 64) : Head m n (head m n) := by
  have far : ∀ i k, i < 4 → k = 2 ^ i → n < 256 ^ k → Head m n (UInt8.ofNat (m * 32 + (24 + i)) :: putUint k n) := by
    intro i k hi hk hlt
    refine ⟨_, _, rfl, ?_, .inr ⟨i, hi, ?_, ?_, (number_put hlt).symm⟩⟩
    · rw [ofNat_toNat (by omega)]; omega
    · rw [ofNat_toNat (by omega)]; omega
    · rw [putUint_length, hk]
  unfold head
  split
  · refine ⟨_, _, rfl, ?_, .inl ⟨?_, rfl, ?_⟩⟩ <;> rw [ofNat_toNat (by omega)] <;> omega
  · split
    · exact far 0 1 (by omega) rfl (by omega)
    · split
      · exact far 1 2 (by omega) rfl (by omega)
      · split
        · exact far 2 4 (by omega) rfl (by omega)
        · exact far 3 8 (by omega) rfl (by omega)

theorem num_spec {n : Nat} (hn : n < 2 ^ 64) : Num n (num n) := head_spec (by omega) hn

theorem text_spec {s : String} (h : (utf8 s).length < 2 ^ 64) : Text s (text s) :=
  ⟨_, head_spec (by omega) h, rfl⟩

theorem Each.length {Ps : List (Bytes → Prop)} {bs : List Bytes} (h : Each Ps bs) : bs.length = Ps.length := by
  induction h with
  | nil => rfl
  | cons _ _ ih => simp [ih]

theorem seq_spec {Ps : List (Bytes → Prop)} {bs : List Bytes} (h : Each Ps bs) (hl : bs.length < 2 ^ 64) :
    Arr Ps (seq bs) :=
  ⟨_, bs, by rw [← h.length]; exact head_spec (by omega) hl, h, rfl⟩

theorem each_map {α : Type} {P : α → Bytes → Prop} {w : α → Bytes} (l : List α) (h : ∀ x ∈ l, P x (w x)) :
    Each (l.map P) (l.map w) := by
  induction l with
  | nil => exact .nil
  | cons x l ih => exact .cons (h x (by simp)) (ih fun y hy => h y (by simp [hy]))

theorem Each.append {Ps Qs : List (Bytes → Prop)} {bs cs : List Bytes} (h : Each Ps bs) (h2 : Each Qs cs) :
    Each (Ps ++ Qs) (bs ++ cs) := by
  induction h with
  | nil => exact h2
  | cons hb _ ih => exact .cons hb ih

theorem two {P Q : Bytes → Prop} {x y : Bytes} (hx : P x) (hy : Q y) : Arr [P, Q] (seq [x, y]) :=
  seq_spec (.cons hx (.cons hy .nil)) (by simp)

theorem dtnText (n s : String) : "//" ++ n ++ "/" ++ s = String.ofList ('/' :: '/' :: n.toList ++ '/' :: s.toList) := by
  apply String.toList_injective
  simp

theorem eid_spec {e : EID} (h : GoodEid e) : Eid e (writeEid e) := by
  cases e with
  | none => exact two (num_spec (by omega)) (num_spec (by omega))
  | dtn n s =>
    unfold Eid writeEid
    dsimp only
    rw [dtnText]
    exact two (num_spec (by omega)) (text_spec h.2)
  | ipn n s => exact two (num_spec (by omega)) (two (num_spec h.1) (num_spec h.2))

theorem cla_spec {c : String × Option Nat} (h1 : Sized (utf8 c.1).length) (h2 : ∀ p, c.2 = some p → p < 2 ^ 16) :
    Cla c (writeCla c) := by
  obtain ⟨name, port⟩ := c
  cases port with
  | none => exact two (text_spec h1) rfl
  | some p =>
    have := h2 p rfl
    exact two (text_spec h1) (num_spec (by omega))

theorem block_spec {b : ServiceBlock}
    (hc : Sized b.clas.length ∧ ∀ c ∈ b.clas, Sized (utf8 c.1).length ∧ ∀ p, c.2 = some p → p < 2 ^ 16)
    (hs : Sized b.services.length ∧ ∀ s ∈ b.services, s.1 < 2 ^ 8 ∧ Sized s.2.length) (hne : b.isEmpty = false) :
    Block false b (writeBlock b) := by
  unfold Block writeBlock
  rw [hne]
  refine two (.inl (seq_spec (each_map b.clas fun c hm => cla_spec (hc.2 c hm).1 (hc.2 c hm).2) ?_))
    (.inl ⟨_, (b.services.map writeService).map fun kv => kv.1 ++ kv.2, ?_, ?_, rfl⟩)
  · rw [List.length_map]; exact hc.1
  · rw [List.length_map, List.length_map]
    exact head_spec (by omega) hs.1
  · rw [List.map_map, List.map_map]
    refine each_map b.services fun kv hm => ⟨_, _, num_spec ?_, .inl (seq_spec (each_map kv.2 fun x _ => num_spec ?_) ?_), rfl⟩
    · have := (hs.2 kv hm).1; omega
    · have := x.toNat_lt; omega
    · rw [List.length_map]; exact (hs.2 kv hm).2

theorem beacon_spec {b : Beacon} (h : Typed b) : Wire false b (writeBeacon b) := by
  unfold Wire writeBeacon
  have h4 : Each [Num b.version, Num b.flags, Eid b.eid, Num b.bsn] [num b.version, num b.flags, writeEid b.eid, num b.bsn] :=
    .cons (num_spec (by have := h.version; omega)) (.cons (num_spec (by have := h.flags; omega)) (.cons (eid_spec h.eid)
      (.cons (num_spec (by have := h.bsn; omega)) .nil)))
  have h5 : Each (if b.block.clas = [] ∧ b.block.services = [] then [] else [Block false b.block])
      (if !b.block.isEmpty then [writeBlock b.block] else []) := by
    cases he : b.block.isEmpty with
    | true =>
      rw [if_pos ((isEmpty_iff b.block).mp he)]
      exact .nil
    | false =>
      rw [if_neg (by rw [← isEmpty_iff, he]; decide)]
      exact .cons (block_spec h.clas ⟨h.services.1, h.services.2.2⟩ he) .nil
  have h6 : Each (match b.period with
      | some ms => [Num (ms / 1000)]
      | none => []) (match b.period with
      | some ms => [num (ms / 1000)]
      | none => []) := by
    cases hp : b.period with
    | none => exact .nil
    | some ms => exact .cons (num_spec (h.period ms hp)) .nil
  refine seq_spec ((h4.append h5).append h6) ?_
  simp only [List.length_append, List.length_cons, List.length_nil]
  cases b.block.isEmpty <;> cases b.period <;> simp

end Dtn.Spec.Beacons
