import Verif.Spec.EclaJson
import Verif.Model.EclaJson
import Verif.Lemmas.SerdeSound
import Verif.Lemmas.EclaFrames
import Verif.Lemmas.Cbor
/-! Lemmas about the JSON text of packets. -/

namespace Dtn.EclaFrames
open Spec.EclaFrames

theorem value_stands {c : Char} {n : Nat} (h : value c = some n) : Stands c n := by
  have key : ∀ n : Fin 64, ∀ c, char n.1 = c → Stands c n.1 := by rintro n c rfl; exact stands_char n
  have hc : char n = c ∧ n < 64 := by
    unfold value at h
    simp only at h
    have e := Char.ofNat_toNat c
    split at h
    · injection h with h; subst h
      refine ⟨?_, by omega⟩
      unfold char; rw [if_pos (by omega)]; rw [← e]; congr 1; rw [e]; omega
    · split at h
      · injection h with h; subst h
        refine ⟨?_, by omega⟩
        unfold char; rw [if_neg (by omega), if_pos (by omega)]; rw [← e]; congr 1; rw [e]; omega
      · split at h
        · injection h with h; subst h
          refine ⟨?_, by omega⟩
          unfold char; rw [if_neg (by omega), if_neg (by omega), if_pos (by omega)]; rw [← e]; congr 1; rw [e]; omega
        · split at h
          · injection h with h; subst h; subst_vars; exact ⟨rfl, by omega⟩
          · split at h
            · injection h with h; subst h; subst_vars; exact ⟨rfl, by omega⟩
            · cases h
  exact key ⟨n, hc.2⟩ c hc.1

theorem value_lt {c : Char} {n : Nat} (h : value c = some n) : n < 64 := by
  have := value_stands h
  unfold Stands at this
  exact (List.getElem?_eq_some_iff.1 this).1

theorem stands_value {c : Char} {n : Nat} (h : Stands c n) : value c = some n ∧ n < 64 ∧ c ≠ '=' := by
  have lt : n < 64 := (List.getElem?_eq_some_iff.1 h).1
  have : char n = c := by have := stands lt; unfold Stands at this h; rw [h] at this; exact (Option.some.inj this).symm
  exact ⟨this ▸ value_char lt, lt, this ▸ char_ne lt⟩

/-- Only texts of RFC 4648 are read. -/
theorem decode64_sound (t : List Char) : ∀ d, decode64 t = some d → Encodes d t := by
  induction t using decode64.induct with
  | case1 => intro d h; simp only [decode64, Option.some.injEq] at h; subst h; exact .nil
  | case2 a b c d => 
    intro x h
    rw [decode64] at h
    unfold decodeLast at h
    split at h
    · rename_i hp
      obtain ⟨rfl, rfl⟩ := hp
      split at h
      · rename_i u v hu hv
        split at h
        · injection h with h; subst h
          have := value_lt hu; have := value_lt hv
          refine .one (value_stands hu) (value_stands hv) ?_
          rw [UInt8.toNat_ofNat']; omega
        · cases h
      · cases h
    · split at h
      · rename_i hd
        subst hd
        split at h
        · rename_i u v w hu hv hw
          split at h
          · injection h with h; subst h
            have := value_lt hu; have := value_lt hv; have := value_lt hw
            refine .two (value_stands hu) (value_stands hv) (value_stands hw) ?_
            rw [UInt8.toNat_ofNat', UInt8.toNat_ofNat']; omega
          · cases h
        · cases h
      · split at h
        · rename_i u v w k hu hv hw hk
          injection h with h; subst h
          have := value_lt hu; have := value_lt hv; have := value_lt hw; have := value_lt hk
          refine .three (value_stands hu) (value_stands hv) (value_stands hw) (value_stands hk) ?_ .nil
          rw [UInt8.toNat_ofNat', UInt8.toNat_ofNat', UInt8.toNat_ofNat']; omega
        · cases h
  | case3 a b c d r hr u v w k hk hw hv hu ih =>
    intro x h
    rw [decode64] at h
    · simp only [hu, hv, hw, hk, Option.map_eq_some_iff] at h
      obtain ⟨t, h1, rfl⟩ := h
      have := value_lt hu; have := value_lt hv; have := value_lt hw; have := value_lt hk
      refine .three (value_stands hu) (value_stands hv) (value_stands hw) (value_stands hk) ?_ (ih t h1)
      rw [UInt8.toNat_ofNat', UInt8.toNat_ofNat', UInt8.toNat_ofNat']; omega
    · exact hr
  | case4 a b c d r hr hno =>
    intro x h
    rw [decode64] at h
    · split at h
      · rename_i u v w k hu hv hw hk; exact (hno u v w k hu hv hw hk).elim
      · cases h
    · exact hr
  | case5 t h1 h2 h3 =>
    intro x h
    unfold decode64 at h
    split at h
    · exact (h1 rfl).elim
    · exact (h2 _ _ _ _ rfl).elim
    · exact (h3 _ _ _ _ _ rfl).elim
    · cases h

/-- All of them are. -/
theorem decode64_complete {d : Bytes} {t : List Char} (h : Encodes d t) : decode64 t = some d := by
  induction h with
  | nil => rfl
  | @three x y z r t a b c d u v w k ha hb hc hd e _ ih =>
    obtain ⟨ha, la, -⟩ := stands_value ha
    obtain ⟨hb, lb, -⟩ := stands_value hb
    obtain ⟨hc, lc, nc⟩ := stands_value hc
    obtain ⟨hd, ld, nd⟩ := stands_value hd
    have lx := x.toNat_lt; have ly := y.toNat_lt; have lz := z.toNat_lt
    have e1 : UInt8.ofNat (u * 4 + v / 16) = x := ofNat_of_eq (by omega)
    have e2 : UInt8.ofNat (v % 16 * 16 + w / 4) = y := ofNat_of_eq (by omega)
    have e3 : UInt8.ofNat (w % 4 * 64 + k) = z := ofNat_of_eq (by omega)
    cases t with
    | nil =>
      simp only [decode64, Option.some.injEq] at ih
      subst ih
      simp [decode64, decodeLast, nc, nd, ha, hb, hc, hd, e1, e2, e3]
    | cons p t =>
      rw [decode64]
      · simp [ha, hb, hc, hd, ih, e1, e2, e3]
      · simp
  | @one x a b u v ha hb e =>
    obtain ⟨ha, la, -⟩ := stands_value ha
    obtain ⟨hb, lb, -⟩ := stands_value hb
    have lx := x.toNat_lt
    have e1 : UInt8.ofNat (u * 4 + v / 16) = x := ofNat_of_eq (by omega)
    have e2 : v % 16 = 0 := by omega
    simp [decode64, decodeLast, ha, hb, e1, e2]
  | @two x y a b c u v w ha hb hc e =>
    obtain ⟨ha, la, -⟩ := stands_value ha
    obtain ⟨hb, lb, -⟩ := stands_value hb
    obtain ⟨hc, lc, nc⟩ := stands_value hc
    have lx := x.toNat_lt; have ly := y.toNat_lt
    have e1 : UInt8.ofNat (u * 4 + v / 16) = x := ofNat_of_eq (by omega)
    have e2 : UInt8.ofNat (v % 16 * 16 + w / 4) = y := ofNat_of_eq (by omega)
    have e3 : w % 4 = 0 := by omega
    simp [decode64, decodeLast, ha, hb, hc, nc, e1, e2, e3]

end Dtn.EclaFrames

namespace Dtn.EclaJson
open Serde ModuleClient Spec.EclaJson Spec.Rfc8259

theorem field_iff {l : List (String × Value)} {k : String} {v : Value} : field l k = some v ↔ Has l k v := by
  unfold field Has
  have e : (l.filter fun f => f.1 == k) = l.filter fun f => f.1 = k := by congr 1
  rw [e]
  cases h : l.filter fun f => f.1 = k with
  | nil => simp
  | cons f r =>
    have hf : f.1 = k := by
      have : f ∈ l.filter fun f => f.1 = k := by rw [h]; simp
      simpa using (List.mem_filter.1 this).2
    cases r with
    | nil => obtain ⟨a, b⟩ := f; simp only at hf; subst hf; simp
    | cons g r => simp

theorem textField_iff {l : List (String × Value)} {k s : String} : textField l k = some s ↔ Has l k (.str s) := by
  rw [← field_iff]; unfold textField
  constructor
  · intro h; split at h
    · cases h; assumption
    · cases h
  · intro h; simp [h]

theorem boolField_iff {l : List (String × Value)} {k : String} {b : Bool} : boolField l k = some b ↔ Has l k (.bool b) := by
  rw [← field_iff]; unfold boolField
  constructor
  · intro h; split at h
    · cases h; assumption
    · cases h
  · intro h; simp [h]

theorem bytesField_iff {l : List (String × Value)} {k : String} {d : Bytes} : bytesField l k = some d ↔ HasBytes l k d := by
  unfold bytesField HasBytes
  rw [Option.bind_eq_some_iff]
  constructor
  · rintro ⟨s, h1, h2⟩
    exact ⟨s.toList, EclaFrames.decode64_sound _ _ h2, by simpa using textField_iff.1 h1⟩
  · rintro ⟨t, h1, h2⟩
    exact ⟨_, textField_iff.2 h2, by simpa using EclaFrames.decode64_complete h1⟩

theorem portField_iff {l : List (String × Value)} {k : String} {p : Option Nat} : portField l k = some p ↔
    match p with
    | some p => p < 65536 ∧ Has l k (.num p)
    | none => Has l k .null ∨ ∀ f ∈ l, f.1 ≠ k := by
  unfold portField Has
  have e : (l.filter fun f => f.1 == k) = l.filter fun f => f.1 = k := by congr 1
  have e2 : (∀ f ∈ l, f.1 ≠ k) ↔ (l.filter fun f => f.1 = k) = [] := by simp [List.filter_eq_nil_iff]
  rw [e, e2]
  cases h : l.filter fun f => f.1 = k with
  | nil => cases p <;> simp
  | cons f r =>
    have hf : f.1 = k := by
      have : f ∈ l.filter fun f => f.1 = k := by rw [h]; simp
      simpa using (List.mem_filter.1 this).2
    cases r with
    | nil =>
      obtain ⟨a, b⟩ := f
      simp only at hf; subst hf
      cases b <;> cases p <;> simp
      rintro rfl; rfl
    | cons g r => cases p <;> simp

theorem has_unique {l : List (String × Value)} {k : String} {v w : Value} (h : Has l k v) (h2 : Has l k w) : v = w := by
  unfold Has at h h2; rw [h] at h2; simpa using h2

/-- An object is read exactly if it is a packet. -/
theorem fromValue_iff (eid : Value → Option EID) (l : List (String × Value)) (p : EclaPacket) :
    fromValue eid (.obj l) = some p ↔ Means (fun e v => eid v = some e) l p := by
  have eidf : ∀ e, (field l "eid").bind eid = some e ↔ ∃ v, eid v = some e ∧ Has l "eid" v := by
    intro e
    rw [Option.bind_eq_some_iff]
    constructor
    · rintro ⟨v, h1, h2⟩; exact ⟨v, h2, field_iff.1 h1⟩
    · rintro ⟨v, h1, h2⟩; exact ⟨v, field_iff.2 h2, h1⟩
  constructor
  · intro h
    unfold fromValue at h
    simp only at h
    cases ht : textField l "type" with
    | none => rw [ht] at h; cases h
    | some t =>
      rw [ht] at h
      have ht := textField_iff.1 ht
      simp only at h
      split at h
      · subst_vars
        simp only [Option.bind_eq_bind, Option.bind_eq_some_iff, Option.pure_def, Option.some.injEq] at h
        obtain ⟨name, h1, b, h2, port, h3, rfl⟩ := h
        exact ⟨ht, textField_iff.1 h1, boolField_iff.1 h2, portField_iff.1 h3⟩
      · split at h
        · subst_vars
          simp only [Option.bind_eq_bind, Option.bind_eq_some_iff (f := fun e => Option.bind _ _), Option.bind_eq_some_iff, Option.pure_def, Option.some.injEq] at h
          obtain ⟨e, h1, addr, h2, block, h3, rfl⟩ := h
          exact ⟨ht, (eidf e).1 (by rw [Option.bind_eq_some_iff]; exact h1), textField_iff.1 h2, bytesField_iff.1 h3⟩
        · split at h
          · subst_vars
            simp only [Option.bind_eq_bind, Option.bind_eq_some_iff, Option.pure_def, Option.some.injEq] at h
            obtain ⟨src, h1, dst, h2, bid, h3, d, h4, rfl⟩ := h
            exact ⟨ht, textField_iff.1 h1, textField_iff.1 h2, textField_iff.1 h3, bytesField_iff.1 h4⟩
          · split at h
            · subst_vars
              simp only [Option.bind_eq_bind, Option.bind_eq_some_iff, Option.pure_def, Option.some.injEq] at h
              obtain ⟨e, h1, n, h2, rfl⟩ := h
              exact ⟨ht, (eidf e).1 (by rw [Option.bind_eq_some_iff]; exact h1), textField_iff.1 h2⟩
            · split at h
              · subst_vars
                simp only [Option.bind_eq_bind, Option.bind_eq_some_iff, Option.pure_def, Option.some.injEq] at h
                obtain ⟨r, h1, rfl⟩ := h
                exact ⟨ht, textField_iff.1 h1⟩
              · cases h
  · intro h
    cases p with
    | register name b port =>
      obtain ⟨h0, h1, h2, h3⟩ := h
      have h3 := (portField_iff (p := port)).2 h3
      simp [fromValue, textField_iff.2 h0, textField_iff.2 h1, boolField_iff.2 h2, h3]
    | beacon e addr block =>
      obtain ⟨h0, h1, h2, h3⟩ := h
      simp [fromValue, textField_iff.2 h0, (eidf e).2 h1, textField_iff.2 h2, bytesField_iff.2 h3]
    | data src dst bid d =>
      obtain ⟨h0, h1, h2, h3, h4⟩ := h
      simp [fromValue, textField_iff.2 h0, textField_iff.2 h1, textField_iff.2 h2, textField_iff.2 h3, bytesField_iff.2 h4]
    | registered e n =>
      obtain ⟨h0, h1, h2⟩ := h
      simp [fromValue, textField_iff.2 h0, (eidf e).2 h1, textField_iff.2 h2]
    | error r =>
      obtain ⟨h0, h1⟩ := h
      simp [fromValue, textField_iff.2 h0, textField_iff.2 h1]

/-- A list is read exactly if it is a packet. -/
theorem fromValue_list (eid : Value → Option EID) (l : List Value) (p : EclaPacket) :
    fromValue eid (.list l) = some p ↔ InOrder (fun e v => eid v = some e) l p := by
  constructor
  · intro h
    unfold fromValue at h
    split at h
    · rename_i e; cases e
    · rename_i e; cases e; cases h; exact ⟨_, rfl, rfl⟩
    · rename_i e; cases e
      split at h
      · cases h; exact ⟨_, rfl, by assumption, rfl⟩
      · cases h
    · rename_i e; cases e
      simp only [Option.bind_eq_bind, Option.bind_eq_some_iff, Option.pure_def, Option.some.injEq] at h
      obtain ⟨e, h1, b, h2, rfl⟩ := h
      exact ⟨_, _, by simp, h1, EclaFrames.decode64_sound _ _ h2⟩
    · rename_i e; cases e
      simp only [Option.map_eq_some_iff] at h
      obtain ⟨b, h2, rfl⟩ := h
      exact ⟨_, by simp, EclaFrames.decode64_sound _ _ h2⟩
    · rename_i e; cases e
      simp only [Option.map_eq_some_iff] at h
      obtain ⟨e, h1, rfl⟩ := h
      exact ⟨_, rfl, h1⟩
    · rename_i e; cases e; cases h; rfl
    · cases h
  · intro h
    cases p with
    | register name b port =>
      obtain ⟨v, rfl, h⟩ := h
      cases port with
      | none => have h : v = .null := h; subst h; rfl
      | some q => obtain ⟨h1, rfl⟩ := h; simp [fromValue, h1]
    | beacon e addr block =>
      obtain ⟨v, t, rfl, h1, h2⟩ := h
      simp [fromValue, h1, EclaFrames.decode64_complete h2]
    | data src dst bid d =>
      obtain ⟨t, rfl, h2⟩ := h
      simp [fromValue, EclaFrames.decode64_complete h2]
    | registered e n =>
      obtain ⟨v, rfl, h1⟩ := h
      simp [fromValue, h1]
    | error r => cases h; rfl

/-- Packets have no other numbers. -/
theorem no_others (p : EclaPacket) (t : List Char) : ¬ Other (toValue p) t := by
  rw [← others_iff]
  have he : ∀ e, others (eidValue e) = [] := by intro e; cases e <;> simp [eidValue, others, othersOfItems]
  cases p with
  | register n b port => cases port <;> simp [toValue, others, othersOfFields]
  | _ => simp [toValue, others, othersOfFields, he, base64]

theorem eid_spec (e : EID) : Eid e (eidValue e) := by cases e <;> rfl

theorem eid_gram {e : EID} (h : ∀ n s, e = .ipn n s → n < 2 ^ 64 ∧ s < 2 ^ 64) (n : Nat) : Gram (n + 2) (.value (eidValue e)) (chars (eidValue e)) := by
  cases e with
  | none =>
    refine gram_list fun x hx => ?_
    simp only [List.mem_cons, List.not_mem_nil, or_false] at hx
    rcases hx with rfl | rfl <;> exact gram_num _ (by decide)
  | dtn a b =>
    refine gram_list fun x hx => ?_
    simp only [List.mem_cons, List.not_mem_nil, or_false] at hx
    rcases hx with rfl | rfl
    · exact gram_num _ (by decide)
    · exact gram_str _ _
  | ipn a b =>
    have := h a b rfl
    refine gram_list fun x hx => ?_
    simp only [List.mem_cons, List.not_mem_nil, or_false] at hx
    rcases hx with rfl | rfl
    · exact gram_num _ (by decide)
    · refine gram_list fun x hx => ?_
      simp only [List.mem_cons, List.not_mem_nil, or_false] at hx
      rcases hx with rfl | rfl
      · exact gram_num _ this.1
      · exact gram_num _ this.2

theorem bytes_spec (d : Bytes) : Spec.EclaFrames.Encodes d (EclaFrames.encode64 d) := EclaFrames.encode64_encodes d

/-- What is written is the object that means the packet. -/
theorem write_spec {p : EclaPacket} (h : Sized p) (E : EID → Value → Prop) (hE : ∀ e, Names p e → E e (eidValue e)) :
    ∃ l, toValue p = .obj l ∧ Text 3 (.obj l) (write p) ∧ Means E l p := by
  cases p with
  | register name b port =>
    refine ⟨_, rfl, text_gram (gram_obj (n := 2) ?_), ?_⟩
    · intro x hx
      simp only [List.mem_cons, List.not_mem_nil, or_false] at hx
      rcases hx with rfl | rfl | rfl | rfl
      · exact gram_str _ _
      · exact gram_str _ _
      · exact gram_bool _ _
      · cases port with
        | none => exact gram_null _
        | some q => exact gram_num _ (Nat.lt_trans (h q rfl) (by decide))
    · refine ⟨rfl, rfl, rfl, ?_⟩
      cases port with
      | none => exact .inl rfl
      | some q => exact ⟨h q rfl, rfl⟩
  | beacon e addr block =>
    refine ⟨_, rfl, text_gram (gram_obj (n := 2) ?_), rfl, ⟨_, hE e rfl, rfl⟩, rfl, _, bytes_spec block, rfl⟩
    intro x hx
    simp only [List.mem_cons, List.not_mem_nil, or_false] at hx
    rcases hx with rfl | rfl | rfl | rfl
    · exact gram_str _ _
    · refine eid_gram ?_ 0
      rintro n s rfl; exact h
    · exact gram_str _ _
    · exact gram_str _ _
  | data src dst bid d =>
    refine ⟨_, rfl, text_gram (gram_obj (n := 2) ?_), rfl, rfl, rfl, rfl, _, bytes_spec d, rfl⟩
    intro x hx
    simp only [List.mem_cons, List.not_mem_nil, or_false] at hx
    rcases hx with rfl | rfl | rfl | rfl | rfl <;> exact gram_str _ _
  | registered e n =>
    refine ⟨_, rfl, text_gram (gram_obj (n := 2) ?_), rfl, ⟨_, hE e rfl, rfl⟩, rfl⟩
    intro x hx
    simp only [List.mem_cons, List.not_mem_nil, or_false] at hx
    rcases hx with rfl | rfl | rfl
    · exact gram_str _ _
    · refine eid_gram ?_ 0
      rintro n s rfl; exact h
    · exact gram_str _ _
  | error r =>
    refine ⟨_, rfl, text_gram (gram_obj (n := 2) ?_), rfl, rfl⟩
    intro x hx
    simp only [List.mem_cons, List.not_mem_nil, or_false] at hx
    rcases hx with rfl | rfl <;> exact gram_str _ _

theorem text_le {n m : Nat} {v : Value} {cs : List Char} (h : Text n v cs) (hm : n ≤ m) : Text m v cs := by
  obtain ⟨a, c, b, ha, hc, hb, e⟩ := h
  exact ⟨a, c, b, ha, gram_le hc hm, hb, e⟩

end Dtn.EclaJson
