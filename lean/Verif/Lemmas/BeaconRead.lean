import Verif.Lemmas.CborRead
/-! A beacon is read from whatever is laid out as one, not only from what the node writes itself. -/

namespace Dtn.Spec.Beacons
open Dtn.Discovery Dtn.Spec.Discovery Cbor
open Rd (bind_ok uint bytes fail)

theorem head_first {m n : Nat} (hm : m < 6) {bs : Bytes} (h : Head m n bs) : ∃ b ext, bs = b :: ext ∧ b ≠ 0xf6 := by
  obtain ⟨b, ext, rfl, hb, _⟩ := h
  refine ⟨b, ext, rfl, ?_⟩
  rintro rfl
  have : (0xf6 : UInt8).toNat / 32 = 7 := by decide
  omega

theorem read_cla {c : String × Option Nat} (hp : ∀ p, c.2 = some p → p < 2 ^ 16) {bs : Bytes} (h : Cla c bs) :
    Reads (readPair readText (option (readNum 65536))) bs c := by
  obtain ⟨name, port⟩ := c
  refine read_pair (fun x => read_text) ?_ h
  intro y hy
  cases port with
  | none => cases hy; exact option_none
  | some p =>
    obtain ⟨b, ext, rfl, hne⟩ := head_first (by omega) hy
    exact option_some hne (read_num (hp p rfl) hy)

theorem read_service {free : Bool} {kv : Nat × Bytes} (h1 : kv.1 < 2 ^ 8) {k v : Bytes} (hk : Num kv.1 k)
    (hv : Seq free (kv.2.map fun x => Num x.toNat) v) : Reads readService (k ++ v) kv := by
  unfold readService
  refine Reads.bind (read_num h1 hk) ?_
  refine Reads.bind0 (read_seq (r := readNum 256) (g := UInt8.toNat) (P := fun x : UInt8 => Num x.toNat)
    (fun x _ bs h => ⟨read_num x.toNat_lt h, starts_head (by omega) h⟩) hv) ?_
  have : (List.map UInt8.toNat kv.2).map UInt8.ofNat = kv.2 := by
    rw [List.map_map]
    have : UInt8.ofNat ∘ UInt8.toNat = id := by funext x; simp
    rw [this, List.map_id]
  rw [this]
  exact Reads.pure _

theorem read_block {b : ServiceBlock} (hc : ∀ c ∈ b.clas, ∀ p, c.2 = some p → p < 2 ^ 16)
    (hs : ∀ s ∈ b.services, s.1 < 2 ^ 8) {free : Bool} {bs : Bytes} (h : Block free b bs) :
    Reads readBlock bs { clas := b.clas, services := collect b.services } := by
  obtain ⟨hd, items, hh, he, rfl⟩ := h
  cases he with
  | cons hx he => cases he with
    | cons hy he =>
      cases he
      have h1 := read_seq (r := readPair readText (option (readNum 65536))) (g := id) (P := Cla) (l := b.clas)
        (fun c hm bs h => ⟨read_cla (hc c hm) h, starts_arr h⟩) hx
      have h2 := read_mapOf (r := readService) (g := id) (l := b.services)
        (P := fun kv : Nat × Bytes => (Num kv.1, Seq free (kv.2.map fun x => Num x.toNat)))
        (fun kv hm k v hk hv => ⟨read_service (hs kv hm) hk hv, starts_head (by omega) hk⟩) hy
      rw [List.map_id] at h1 h2
      unfold readBlock
      refine Reads.bind (read_head (by omega) hh) ?_
      show Reads (if (2 : Nat) = 0 then _ else if (2 : Nat) = 2 then _ else _) _ _
      rw [if_neg (by omega), if_pos rfl]
      simp only [List.flatten_cons, List.flatten_nil, List.append_nil]
      exact Reads.bind h1 (Reads.bind0 h2 (Reads.pure _))

theorem each_four {A B C D : Bytes → Prop} {Ps : List (Bytes → Prop)} {items : List Bytes}
    (h : Each ([A, B, C, D] ++ Ps) items) : ∃ a b c d rest, items = a :: b :: c :: d :: rest ∧ A a ∧ B b ∧ C c ∧ D d ∧
      Each Ps rest := by
  cases h with
  | cons ha h => cases h with
    | cons hb h => cases h with
      | cons hc h => cases h with
        | cons hd h => exact ⟨_, _, _, _, _, rfl, ha, hb, hc, hd, h⟩

theorem each_nil {items : List Bytes} (h : Each [] items) : items = [] := by
  cases h; rfl

theorem each_one {A : Bytes → Prop} {items : List Bytes} (h : Each [A] items) : ∃ a, items = [a] ∧ A a := by
  cases h with
  | cons ha h => cases h; exact ⟨_, rfl, ha⟩

theorem each_two {A B : Bytes → Prop} {items : List Bytes} (h : Each [A, B] items) :
    ∃ a b, items = [a, b] ∧ A a ∧ B b := by
  cases h with
  | cons ha h => cases h with
    | cons hb h => cases h; exact ⟨_, _, rfl, ha, hb⟩

theorem read_wire {b : Beacon} (h : Typed b)
    (hf : b.period = none → b.block.isEmpty = false → b.flags / 2 % 2 = 1)
    (hf2 : b.period ≠ none → b.block.isEmpty = true → b.flags / 2 % 2 ≠ 1) {free : Bool} {bs : Bytes} (hw : Wire free b bs) :
    Reads readBeacon bs (back b) := by
  obtain ⟨hd, items, hh, he, rfl⟩ := hw
  rw [List.append_assoc] at he
  obtain ⟨x1, x2, x3, x4, rest, rfl, h1, h2, h3, h4, he⟩ := each_four he
  have hv := h.version
  have hfl := h.flags
  have hb := h.bsn
  have hfields : Reads readFields (x1 ++ (x2 ++ (x3 ++ x4))) { b with block := {}, period := none } := by
    unfold readFields
    exact Reads.bind (read_num (by omega) h1) (Reads.bind (read_num (by omega) h2)
      (Reads.bind (read_eid h.eid h3) (Reads.bind0 (read_num hb h4) (Reads.pure _))))
  have hblock : ∀ x, Block free b.block x → Reads readBlock x _ := fun x hx =>
    read_block (fun c hm => (h.clas.2 c hm).2) (fun s hm => (h.services.2.2 s hm).1) hx
  have hemp : (b.block.clas = [] ∧ b.block.services = []) ↔ b.block.isEmpty = true := (isEmpty_iff b.block).symm
  have hcat : (x1 :: x2 :: x3 :: x4 :: rest).flatten = (x1 ++ (x2 ++ (x3 ++ x4))) ++ rest.flatten := by simp
  rw [hcat]
  unfold readBeacon
  cases hp : b.period with
  | none =>
    rw [hp] at hh he
    cases hem : b.block.isEmpty with
    | true =>
      have hbk : back b = { b with block := {}, period := none } := by simp [back, hem, hp]
      rw [hbk]
      rw [if_pos (hemp.mpr hem)] at hh he
      simp only [List.append_nil] at hh he
      obtain rfl := each_nil he
      refine Reads.bind (read_head (by omega) hh) ?_
      show Reads (if (4 : Nat) < 4 then _ else _) _ _
      rw [if_neg (by omega)]
      simp only [List.flatten_nil, List.append_nil]
      refine Reads.bind0 hfields ?_
      show Reads (if (4 : Nat) = 4 then _ else _) _ _
      rw [if_pos rfl]
      exact Reads.pure _
    | false =>
      have hbk : back b = { b with block := { clas := b.block.clas, services := collect b.block.services }, period := none } := by
        simp [back, hem, hp]
      rw [hbk]
      rw [if_neg (fun e => by rw [hemp.mp e] at hem; cases hem)] at hh he
      simp only [List.append_nil, List.cons_append, List.nil_append] at hh he
      obtain ⟨x5, rfl, hx⟩ := each_one he
      refine Reads.bind (read_head (by omega) hh) ?_
      show Reads (if (5 : Nat) < 4 then _ else _) _ _
      rw [if_neg (by omega)]
      refine Reads.bind hfields ?_
      show Reads (if (5 : Nat) = 4 then _ else if (5 : Nat) = 5 then _ else _) _ _
      rw [if_neg (by omega), if_pos rfl]
      rw [if_pos (hf hp hem), List.flatten_cons, List.flatten_nil, List.append_nil]
      exact Reads.bind0 (hblock _ hx) (Reads.pure _)
  | some ms =>
    have hms := h.period ms hp
    rw [hp] at hh he
    cases hem : b.block.isEmpty with
    | true =>
      have hbk : back b = { b with block := {}, period := some (ms / 1000 * 1000) } := by simp [back, hem, hp]
      rw [hbk]
      rw [if_pos (hemp.mpr hem)] at hh he
      simp only [List.append_nil, List.nil_append] at hh he
      obtain ⟨x5, rfl, hx⟩ := each_one he
      refine Reads.bind (read_head (by omega) hh) ?_
      show Reads (if (5 : Nat) < 4 then _ else _) _ _
      rw [if_neg (by omega)]
      refine Reads.bind hfields ?_
      show Reads (if (5 : Nat) = 4 then _ else if (5 : Nat) = 5 then _ else _) _ _
      rw [if_neg (by omega), if_pos rfl]
      rw [if_neg (hf2 (by rw [hp]; simp) hem), List.flatten_cons, List.flatten_nil, List.append_nil]
      exact Reads.bind0 (read_num hms hx) (Reads.pure _)
    | false =>
      have hbk : back b = { b with block := { clas := b.block.clas, services := collect b.block.services }, period := some (ms / 1000 * 1000) } := by
        simp [back, hem, hp]
      rw [hbk]
      rw [if_neg (fun e => by rw [hemp.mp e] at hem; cases hem)] at hh he
      simp only [List.cons_append, List.nil_append] at hh he
      obtain ⟨x5, x6, rfl, hx, hy⟩ := each_two he
      refine Reads.bind (read_head (by omega) hh) ?_
      show Reads (if (6 : Nat) < 4 then _ else _) _ _
      rw [if_neg (by omega)]
      refine Reads.bind hfields ?_
      show Reads (if (6 : Nat) = 4 then _ else if (6 : Nat) = 5 then _ else _) _ _
      rw [if_neg (by omega), if_neg (by omega), List.flatten_cons, List.flatten_cons, List.flatten_nil,
        List.append_nil]
      refine Reads.bind (hblock _ hx) (Reads.bind0 (read_num hms hy) ?_)
      show Reads (if (6 : Nat) = 6 then _ else _) _ _
      rw [if_pos rfl]
      exact Reads.pure _

end Dtn.Spec.Beacons
