import Verif.Lemmas.BeaconLayout
/-! Whatever is laid out as CBOR is read, not only what the node writes itself. -/

namespace Dtn.Spec.Beacons
open Dtn.Discovery Dtn.Spec.Discovery Cbor
open Rd (bind_ok uint bytes fail)

theorem number_beVal (bs : Bytes) : number bs = Rd.beVal bs := by
  induction bs with
  | nil => rfl
  | cons b bs ih => rw [beVal_cons, number, ih]

theorem uint_number (ext : Bytes) : Reads (uint ext.length) ext (number ext) := by
  intro rest
  unfold Rd.uint
  have := Rd.bytes_append ext rest
  show (Rd.bind (bytes ext.length) _) _ = _
  unfold Rd.bind
  rw [this, number_beVal]
  rfl

theorem argument_ext {i : Nat} (hi : i < 4) {ext : Bytes} (hl : ext.length = 2 ^ i) :
    Reads (argument (24 + i)) ext (number ext) := by
  have h := uint_number ext
  rw [hl] at h
  have : i = 0 ∨ i = 1 ∨ i = 2 ∨ i = 3 := by omega
  rcases this with rfl | rfl | rfl | rfl <;> exact h

theorem read_head {m n : Nat} (hm : m < 6) {bs : Bytes} (h : Head m n bs) : Reads (readHead limit) bs (.val m n) := by
  obtain ⟨b, ext, rfl, hb, hc⟩ := h
  have hlt := b.toNat_lt
  have h1 : Reads (uint 1) [b] b.toNat := by
    have := uint1 (n := b.toNat) hlt
    rwa [UInt8.ofNat_toNat] at this
  have fin : b.toNat % 32 < 28 → Reads (argument (b.toNat % 32)) ext n →
      Reads (readHead (127 + 1)) ([b] ++ ext) (.val m n) := by
    intro hi ht
    unfold readHead
    refine Reads.bind h1 ?_
    rw [if_neg (by omega), if_neg (by omega)]
    refine Reads.bind0 ht ?_
    rw [if_neg (by omega), hb]
    exact Reads.pure _
  rcases hc with ⟨hs, rfl, rfl⟩ | ⟨i, hi, hbi, hl, rfl⟩
  · refine fin (by omega) ?_
    unfold argument
    rw [if_pos hs]
    exact Reads.pure _
  · refine fin (by omega) ?_
    rw [hbi]
    exact argument_ext hi hl

theorem read_num {n bound : Nat} (hb : n < bound) {bs : Bytes} (h : Num n bs) : Reads (readNum bound) bs n := by
  unfold readNum
  refine Reads.bind0 (read_head (by omega) h) ?_
  show Reads (if n < bound then Pure.pure n else fail) [] n
  rw [if_pos hb]
  exact Reads.pure _

theorem read_text {s : String} {bs : Bytes} (h : Text s bs) : Reads readText bs s := by
  obtain ⟨hd, hh, rfl⟩ := h
  unfold readText
  refine Reads.bind (read_head (by omega) hh) ?_
  dsimp only
  rw [if_pos (by omega)]
  refine Reads.bind0 (fun rest => Rd.bytes_append _ rest) ?_
  have := ofUtf8_utf8 s
  unfold utf8 at this
  rw [this]
  exact Reads.pure _

/-- The bytes of a text do not start a number. -/
theorem num_text {bound : Nat} {s : String} {bs : Bytes} (h : Text s bs) (rest : Bytes) :
    readNum bound (bs ++ rest) = .err := by
  obtain ⟨hd, hh, rfl⟩ := h
  unfold readNum
  rw [List.append_assoc, bind_ok (read_head (by omega) hh _)]
  rfl

theorem read_each {α : Type} {P : α → Bytes → Prop} {β : Type} {r : Rd β} {g : α → β} : ∀ (l : List α) {items : List Bytes},
    (∀ x ∈ l, ∀ bs, P x bs → Reads r bs (g x)) → Each (l.map P) items →
    Reads (times l.length r) items.flatten (l.map g) := by
  intro l
  induction l with
  | nil => intro items _ h; cases h; exact Reads.pure _
  | cons x l ih =>
    intro items hr h
    cases h with
    | cons hx hl =>
      refine Reads.bind (hr x (by simp) _ hx) (Reads.bind0 (ih (fun y hy => hr y (by simp [hy])) hl) ?_)
      exact Reads.pure _

theorem read_arr {α : Type} {P : α → Bytes → Prop} {β : Type} {r : Rd β} {g : α → β} {l : List α} {bs : Bytes}
    (hr : ∀ x ∈ l, ∀ bs, P x bs → Reads r bs (g x)) (h : Arr (l.map P) bs) : Reads (readSeq r) bs (l.map g) := by
  obtain ⟨hd, items, hh, he, rfl⟩ := h
  rw [List.length_map] at hh
  unfold readSeq
  refine Reads.bind (read_head (by omega) hh) ?_
  exact read_each l hr he

/-- The bytes start with something other than a break. -/
def Starts (bs : Bytes) : Prop := ∃ b ext, bs = b :: ext ∧ b ≠ 0xff

theorem Starts.append {a b : Bytes} (h : Starts a) : Starts (a ++ b) := by
  obtain ⟨x, e, rfl, hx⟩ := h
  exact ⟨x, e ++ b, rfl, hx⟩

theorem starts_head {m n : Nat} (hm : m < 6) {bs : Bytes} (h : Head m n bs) : Starts bs := by
  obtain ⟨b, ext, rfl, hb, _⟩ := h
  refine ⟨b, ext, rfl, ?_⟩
  rintro rfl
  have : (0xff : UInt8).toNat / 32 = 7 := by decide
  omega

theorem starts_text {s : String} {bs : Bytes} (h : Text s bs) : Starts bs := by
  obtain ⟨hd, hh, rfl⟩ := h
  exact (starts_head (by omega) hh).append

theorem starts_arr {Ps : List (Bytes → Prop)} {bs : Bytes} (h : Arr Ps bs) : Starts bs := by
  obtain ⟨hd, items, hh, -, rfl⟩ := h
  exact (starts_head (by omega) hh).append

theorem untilBreak_each {α : Type} {P : α → Bytes → Prop} {β : Type} {r : Rd β} {g : α → β} : ∀ (l : List α) {items : List Bytes} (k : Nat) (rest : Bytes),
    (∀ x ∈ l, ∀ bs, P x bs → Reads r bs (g x) ∧ Starts bs) → Each (l.map P) items → items.flatten.length < k →
    untilBreak k r (items.flatten ++ 0xff :: rest) = .ok (l.map g) rest := by
  intro l
  induction l with
  | nil =>
    intro items k rest _ h hk
    cases h
    cases k with
    | zero => omega
    | succ k => rfl
  | cons x l ih =>
    intro items k rest hr h hk
    cases h with
    | @cons _ _ b bs hx hl =>
      obtain ⟨h1, b0, ext, rfl, hne⟩ := hr x (by simp) _ hx
      cases k with
      | zero => omega
      | succ k =>
        have h2 := ih k rest (fun y hy => hr y (by simp [hy])) hl (by simp only [List.flatten_cons, List.length_append, List.length_cons] at hk; omega)
        unfold untilBreak
        split
        · rename_i heq
          simp only [List.flatten_cons, List.cons_append, List.cons.injEq] at heq
          exact absurd heq.1 hne
        · rw [List.flatten_cons, List.append_assoc, bind_ok (h1 _), bind_ok h2]
          rfl

theorem read_toBreak {α : Type} {P : α → Bytes → Prop} {β : Type} {r : Rd β} {g : α → β} (l : List α) {items : List Bytes}
    (hr : ∀ x ∈ l, ∀ bs, P x bs → Reads r bs (g x) ∧ Starts bs) (h : Each (l.map P) items) :
    Reads (toBreak r) (items.flatten ++ [0xff]) (l.map g) := by
  intro rest
  have e : items.flatten ++ [0xff] ++ rest = items.flatten ++ 0xff :: rest := by simp
  unfold toBreak
  rw [e]
  exact untilBreak_each l _ rest hr h (by rw [List.length_append]; omega)

theorem readHead_open (b : UInt8) (m : Nat) (hm : m = 4 ∨ m = 5) (h1 : b.toNat / 32 = m) (h2 : b.toNat % 32 = 31) :
    Reads (readHead limit) [b] (.indef m) := by
  have h0 : Reads (uint 1) [b] b.toNat := by
    have := uint1 (n := b.toNat) b.toNat_lt
    rwa [UInt8.ofNat_toNat] at this
  show Reads (readHead (127 + 1)) _ _
  unfold readHead
  refine Reads.bind0 h0 ?_
  rw [if_neg (by omega), if_pos h2, if_pos (by omega), h1]
  exact Reads.pure _

theorem read_seq {α : Type} {P : α → Bytes → Prop} {β : Type} {r : Rd β} {g : α → β} {l : List α} {bs : Bytes} {free : Bool}
    (hr : ∀ x ∈ l, ∀ bs, P x bs → Reads r bs (g x) ∧ Starts bs) (h : Seq free (l.map P) bs) : Reads (readSeq r) bs (l.map g) := by
  rcases h with h | ⟨-, items, he, rfl⟩
  · exact read_arr (fun x hx bs hb => (hr x hx bs hb).1) h
  · unfold readSeq
    refine Reads.bind (bs := [0x9f]) (cs := items.flatten ++ [0xff]) (readHead_open _ 4 (.inl rfl) (by decide) (by decide)) ?_
    exact read_toBreak l hr he

theorem read_mapOf {α : Type} {P : α → (Bytes → Prop) × (Bytes → Prop)} {β : Type} {r : Rd β} {g : α → β} {l : List α}
    {bs : Bytes} {free : Bool} (hr : ∀ x ∈ l, ∀ k v, (P x).1 k → (P x).2 v → Reads r (k ++ v) (g x) ∧ Starts k) (h : MapOf free (l.map P) bs) :
    Reads (readMap r) bs (l.map g) := by
  unfold readMap
  rcases h with ⟨hd, items, hh, he, rfl⟩ | ⟨-, items, he, rfl⟩
  · rw [List.length_map] at hh
    rw [List.map_map] at he
    refine Reads.bind (read_head (by omega) hh) ?_
    refine read_each (P := Two ∘ P) l ?_ he
    intro x hx bs h
    obtain ⟨k, v, hk, hv, rfl⟩ := h
    exact (hr x hx k v hk hv).1
  · rw [List.map_map] at he
    refine Reads.bind (bs := [0xbf]) (cs := items.flatten ++ [0xff]) (readHead_open _ 5 (.inr rfl) (by decide) (by decide)) ?_
    refine read_toBreak (P := Two ∘ P) l ?_ he
    intro x hx bs h
    obtain ⟨k, v, hk, hv, rfl⟩ := h
    exact ⟨(hr x hx k v hk hv).1, (hr x hx k v hk hv).2.append⟩

theorem read_pair {P Q : Bytes → Prop} {α β : Type} {r : Rd α} {q : Rd β} {a : α} {b : β} {bs : Bytes}
    (hr : ∀ x, P x → Reads r x a) (hq : ∀ y, Q y → Reads q y b) (h : Arr [P, Q] bs) : Reads (readPair r q) bs (a, b) := by
  obtain ⟨hd, items, hh, he, rfl⟩ := h
  cases he with
  | cons hx he =>
    cases he with
    | cons hy he =>
      cases he
      unfold readPair
      refine Reads.bind (read_head (by omega) hh) ?_
      simp only [List.length_cons, List.length_nil, Nat.zero_add, Nat.reduceAdd, if_true, List.flatten_cons,
        List.flatten_nil, List.append_nil]
      exact Reads.bind (hr _ hx) (Reads.bind0 (hq _ hy) (Reads.pure _))

theorem read_eid {e : EID} (hg : GoodEid e) {bs : Bytes} (h : Eid e bs) : Reads readEid bs e := by
  cases e with
  | none =>
    obtain ⟨hd, items, hh, he, rfl⟩ := h
    cases he with
    | cons hx he => cases he with
      | cons hy he =>
        cases he
        unfold readEid
        refine Reads.bind (read_head (by omega) hh) ?_
        simp only [List.length_cons, List.length_nil, Nat.zero_add, Nat.reduceAdd, if_true, List.flatten_cons,
          List.flatten_nil, List.append_nil]
        refine Reads.bind (read_num (by omega) hx) ?_
        rw [if_pos rfl]
        intro rest
        unfold readDtn
        rw [read_num (bound := 1) (by omega) hy rest]
  | dtn n s =>
    obtain ⟨hd, items, hh, he, rfl⟩ := h
    cases he with
    | cons hx he => cases he with
      | cons hy he =>
        cases he
        rw [dtnText] at hy
        unfold readEid
        refine Reads.bind (read_head (by omega) hh) ?_
        simp only [List.length_cons, List.length_nil, Nat.zero_add, Nat.reduceAdd, if_true, List.flatten_cons,
          List.flatten_nil, List.append_nil]
        refine Reads.bind (read_num (by omega) hx) ?_
        rw [if_pos rfl]
        intro rest
        unfold readDtn
        rw [num_text hy rest]
        dsimp only
        rw [bind_ok (read_text hy rest)]
        have e2 : parseDtn (String.ofList ('/' :: '/' :: n.toList ++ '/' :: s.toList)).toList = some (.dtn n s) := by
          rw [String.toList_ofList]
          show (splitNode [] (n.toList ++ '/' :: s.toList)).map _ = _
          rw [splitNode_spec _ _ _ hg.1]
          simp
        rw [e2]
        rfl
  | ipn n s =>
    obtain ⟨hd, items, hh, he, rfl⟩ := h
    cases he with
    | cons hx he => cases he with
      | cons hy he =>
        cases he
        unfold readEid
        refine Reads.bind (read_head (by omega) hh) ?_
        simp only [List.length_cons, List.length_nil, Nat.zero_add, Nat.reduceAdd, if_true, List.flatten_cons,
          List.flatten_nil, List.append_nil]
        refine Reads.bind (read_num (by omega) hx) ?_
        rw [if_neg (by omega), if_pos rfl]
        exact Reads.bind0 (read_pair (fun x => read_num hg.1) (fun y => read_num hg.2) hy) (Reads.pure _)

end Dtn.Spec.Beacons
