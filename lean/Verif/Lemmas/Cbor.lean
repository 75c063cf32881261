import Verif.Model.Cbor
import Verif.Lemmas.Reader
/-! Lemmas about CBOR: what is written is read back. -/

namespace Dtn.Cbor
open Rd (uint bytes fail abort bind_ok)

/-- Reading `bs` yields `a`, whatever follows. -/
def Reads {α : Type} (r : Rd α) (bs : Bytes) (a : α) : Prop := ∀ rest, r (bs ++ rest) = .ok a rest

theorem Reads.pure {α : Type} (a : α) : Reads (Pure.pure a : Rd α) [] a := fun _ => rfl

theorem Reads.bind {α β : Type} {r : Rd α} {f : α → Rd β} {bs cs : Bytes} {a : α} {b : β} (h : Reads r bs a)
    (h2 : Reads (f a) cs b) : Reads (r >>= f) (bs ++ cs) b := by
  intro rest
  rw [List.append_assoc, bind_ok (h _), h2]

/-- A last step that reads nothing. -/
theorem Reads.bind0 {α β : Type} {r : Rd α} {f : α → Rd β} {bs : Bytes} {a : α} {b : β} (h : Reads r bs a)
    (h2 : Reads (f a) [] b) : Reads (r >>= f) bs b := by
  have := Reads.bind h h2
  rwa [List.append_nil] at this

theorem ofNat_toNat {n : Nat} (h : n < 256) : (UInt8.ofNat n).toNat = n := by simp; omega

theorem uint1 {n : Nat} (h : n < 256) : Reads (uint 1) [UInt8.ofNat n] n := by
  intro rest
  have h1 : putUint 1 n = [UInt8.ofNat n] := by simp [putUint]
  rw [← h1]
  exact Rd.uint_put rest (by omega)

theorem readHead_head {m n : Nat} (hm : m < 6) (hn : n < 2 ^ 64) (k : Nat) :
    Reads (readHead (k + 1)) (head m n) (.val m n) := by
  have fin : ∀ (info : Nat) (tail : Bytes), info < 28 → Reads (argument info) tail n →
      Reads (readHead (k + 1)) (UInt8.ofNat (m * 32 + info) :: tail) (.val m n) := by
    intro info tail hi ht
    have h1 := uint1 (n := m * 32 + info) (by omega)
    have hd : (m * 32 + info) / 32 = m := by omega
    have hr : (m * 32 + info) % 32 = info := by omega
    show Reads _ ([UInt8.ofNat (m * 32 + info)] ++ tail) _
    unfold readHead
    refine Reads.bind h1 ?_
    simp only [hd, hr]
    rw [if_neg (by omega), if_neg (by omega)]
    refine Reads.bind0 ht ?_
    rw [if_neg (by omega)]
    exact Reads.pure _
  unfold head
  split
  · exact fin n [] (by omega) (by unfold argument; rw [if_pos (by omega)]; exact Reads.pure _)
  · split
    · exact fin 24 _ (by omega) (by
        unfold argument; rw [if_neg (by omega), if_pos rfl]; exact fun rest => Rd.uint_put rest (by omega))
    · split
      · exact fin 25 _ (by omega) (by
          unfold argument; rw [if_neg (by omega), if_neg (by omega), if_pos rfl]
          exact fun rest => Rd.uint_put rest (by omega))
      · split
        · exact fin 26 _ (by omega) (by
            unfold argument; rw [if_neg (by omega), if_neg (by omega), if_neg (by omega), if_pos rfl]
            exact fun rest => Rd.uint_put rest (by omega))
        · exact fin 27 _ (by omega) (by
            unfold argument
            rw [if_neg (by omega), if_neg (by omega), if_neg (by omega), if_neg (by omega), if_pos rfl]
            exact fun rest => Rd.uint_put rest (by omega))

theorem readHead_limit {m n : Nat} (hm : m < 6) (hn : n < 2 ^ 64) : Reads (readHead limit) (head m n) (.val m n) :=
  readHead_head hm hn 127

theorem readNum_num {n bound : Nat} (h : n < bound) (hb : n < 2 ^ 64) : Reads (readNum bound) (num n) n := by
  unfold readNum num
  refine Reads.bind0 (readHead_limit (by omega) hb) ?_
  show Reads (if n < bound then Pure.pure n else fail) [] n
  rw [if_pos h]
  exact Reads.pure _

/-- Reading a number fails in front of something else. -/
theorem readNum_head {m n bound : Nat} (hm : m < 6) (h0 : m ≠ 0) (hn : n < 2 ^ 64) (rest : Bytes) :
    readNum bound (head m n ++ rest) = .err := by
  have := bind_ok (f := fun h => match h with
    | .val 0 n => if n < bound then Pure.pure n else fail
    | _ => fail) (readHead_limit hm hn rest)
  refine this.trans ?_
  cases m with
  | zero => exact absurd rfl h0
  | succ m => rfl

theorem ofUtf8_utf8 (s : String) : ofUtf8 (utf8 s) = some s := by
  unfold ofUtf8 utf8
  have h : (⟨s.toUTF8.data.toList.toArray⟩ : ByteArray) = s.toUTF8 := by
    cases h : s.toUTF8
    simp
  rw [h]
  unfold String.fromUTF8?
  rw [dif_pos (by rw [String.toUTF8_eq_toByteArray]; exact s.isValidUTF8)]
  rfl

theorem readText_text {s : String} (h : (utf8 s).length < 2 ^ 64) : Reads readText (text s) s := by
  unfold readText text
  refine Reads.bind (readHead_limit (by omega) h) ?_
  dsimp only
  rw [if_pos (by omega)]
  refine Reads.bind0 (r := bytes _) (a := utf8 s) (fun rest => Rd.bytes_append _ rest) ?_
  rw [ofUtf8_utf8]
  exact Reads.pure _

theorem times_reads {α β : Type} {r : Rd β} {w : α → Bytes} {g : α → β} : ∀ (l : List α),
    (∀ x ∈ l, Reads r (w x) (g x)) → Reads (times l.length r) (l.map w).flatten (l.map g) := by
  intro l
  induction l with
  | nil => intro _; exact Reads.pure _
  | cons x l ih =>
    intro h
    simp only [List.length_cons, List.map_cons, List.flatten_cons]
    unfold times
    refine Reads.bind (h x (by simp)) ?_
    exact Reads.bind0 (ih fun y hy => h y (by simp [hy])) (Reads.pure _)

theorem readSeq_seq {α β : Type} {r : Rd β} {w : α → Bytes} {g : α → β} (l : List α) (hl : l.length < 2 ^ 64)
    (h : ∀ x ∈ l, Reads r (w x) (g x)) : Reads (readSeq r) (seq (l.map w)) (l.map g) := by
  unfold readSeq seq
  rw [List.length_map]
  refine Reads.bind (readHead_limit (by omega) hl) ?_
  exact times_reads l h

theorem readMap_map {α β : Type} {r : Rd β} {w : α → Bytes × Bytes} {g : α → β} (l : List α) (hl : l.length < 2 ^ 64)
    (h : ∀ x ∈ l, Reads r ((w x).1 ++ (w x).2) (g x)) : Reads (readMap r) (map (l.map w)) (l.map g) := by
  unfold readMap map
  rw [List.length_map, List.map_map]
  refine Reads.bind (readHead_limit (by omega) hl) ?_
  exact times_reads (w := (fun kv : Bytes × Bytes => kv.1 ++ kv.2) ∘ w) l h

theorem readPair_seq {α β : Type} {r : Rd α} {q : Rd β} {x y : Bytes} {a : α} {b : β} (hr : Reads r x a)
    (hq : Reads q y b) : Reads (readPair r q) (seq [x, y]) (a, b) := by
  unfold readPair seq
  refine Reads.bind (readHead_limit (by omega) (by simp)) ?_
  simp only [List.length_cons, List.length_nil, Nat.zero_add, Nat.reduceAdd, if_true, List.flatten_cons,
    List.flatten_nil, List.append_nil]
  exact Reads.bind hr (Reads.bind0 hq (Reads.pure _))

theorem option_none {α : Type} {r : Rd α} : Reads (option r) [0xf6] none := fun _ => rfl

theorem option_some {α : Type} {r : Rd α} {b : UInt8} {bs : Bytes} {a : α} (hb : b ≠ 0xf6) (h : Reads r (b :: bs) a) :
    Reads (option r) (b :: bs) (some a) := by
  intro rest
  unfold option
  split
  · next h' => cases h'; exact absurd rfl hb
  · rw [bind_ok (h rest)]; rfl

theorem head_ne {m n : Nat} (hm : m < 6) : ∃ b bs, head m n = b :: bs ∧ b ≠ 0xf6 := by
  have key : ∀ i, i < 28 → UInt8.ofNat (m * 32 + i) ≠ 0xf6 := by
    intro i hi h
    have := congrArg UInt8.toNat h
    rw [ofNat_toNat (by omega)] at this
    have : (0xf6 : UInt8).toNat = 246 := rfl
    omega
  unfold head
  split
  · exact ⟨_, _, rfl, key n (by omega)⟩
  · split
    · exact ⟨_, _, rfl, key 24 (by omega)⟩
    · split
      · exact ⟨_, _, rfl, key 25 (by omega)⟩
      · split
        · exact ⟨_, _, rfl, key 26 (by omega)⟩
        · exact ⟨_, _, rfl, key 27 (by omega)⟩

/-- What follows after reading is the end of what was there, and a panic needs the byte that starts an array of
indefinite length. -/
def Safe {α : Type} (r : Rd α) : Prop :=
  ∀ bs, (r bs = .panic → (0x9f : UInt8) ∈ bs) ∧ ∀ a rest, r bs = .ok a rest → rest <:+ bs

theorem Safe.pure {α : Type} (a : α) : Safe (Pure.pure a : Rd α) := by
  intro bs
  refine ⟨fun h => (by cases h), ?_⟩
  intro a' rest h
  cases h
  exact List.suffix_refl _

theorem Safe.fail {α : Type} : Safe (fail : Rd α) := fun _ => ⟨fun h => (by cases h), fun _ _ h => (by cases h)⟩

theorem Safe.bind {α β : Type} {r : Rd α} {f : α → Rd β} (h : Safe r) (h2 : ∀ a, Safe (f a)) : Safe (r >>= f) := by
  intro bs
  have hb : (r >>= f) bs = Rd.bind r f bs := rfl
  rw [hb]
  unfold Rd.bind
  cases hr : r bs with
  | ok a mid =>
    have hs := (h bs).2 a mid hr
    refine ⟨?_, ?_⟩
    · intro hp
      exact hs.subset ((h2 a mid).1 hp)
    · intro b rest hok
      exact ((h2 a mid).2 b rest hok).trans hs
  | eof => exact ⟨fun h => (by cases h), fun _ _ h => (by cases h)⟩
  | err => exact ⟨fun h => (by cases h), fun _ _ h => (by cases h)⟩
  | panic => exact ⟨fun _ => (h bs).1 hr, fun _ _ h => (by cases h)⟩

theorem Safe.bytes (n : Nat) : Safe (bytes n) := by
  intro bs
  unfold Rd.bytes
  split
  · refine ⟨fun h => (by cases h), ?_⟩
    intro a rest h
    cases h
    exact List.drop_suffix _ _
  · exact ⟨fun h => (by cases h), fun _ _ h => (by cases h)⟩

theorem Safe.uint (n : Nat) : Safe (uint n) := Safe.bind (Safe.bytes n) fun _ => Safe.pure _

theorem Safe.ite {α : Type} {p : Prop} [Decidable p] {r q : Rd α} (hr : Safe r) (hq : Safe q) : Safe (if p then r else q) := by
  split
  · exact hr
  · exact hq

theorem Safe.argument (i : Nat) : Safe (argument i) := by
  unfold Cbor.argument
  exact .ite (.pure _) (.ite (.uint _) (.ite (.uint _) (.ite (.uint _) (.ite (.uint _) .fail))))

theorem Safe.readHead : ∀ k, Safe (readHead k) := by
  intro k
  induction k with
  | zero => exact .fail
  | succ k ih =>
    unfold Cbor.readHead
    exact .bind (.uint 1) fun b => .ite .fail (.ite (.ite (.pure _) .fail) (.bind (.argument _) fun n => .ite ih (.pure _)))

theorem Safe.readNum (n : Nat) : Safe (readNum n) := by
  unfold Cbor.readNum
  refine .bind (.readHead _) fun a => ?_
  split
  · exact .ite (.pure _) .fail
  · exact .fail

theorem Safe.readText : Safe readText := by
  unfold Cbor.readText
  refine .bind (.readHead _) fun a => ?_
  split
  · refine .ite (.bind (.bytes _) fun bs => ?_) .fail
    split
    · exact .pure _
    · exact .fail
  · exact .fail

theorem Safe.option {α : Type} {r : Rd α} (h : Safe r) : Safe (option r) := by
  have h2 : Safe (do let a ← r; Pure.pure (some a) : Rd (Option α)) := .bind h fun a => .pure _
  intro bs
  unfold Cbor.option
  split
  · refine ⟨fun h => (by cases h), ?_⟩
    intro a rest h
    cases h
    exact List.suffix_cons _ _
  · exact h2 _

theorem Safe.times {α : Type} {r : Rd α} (h : Safe r) : ∀ n, Safe (times n r) := by
  intro n
  induction n with
  | zero => exact .pure _
  | succ n ih =>
    unfold Cbor.times
    exact .bind h fun a => .bind ih fun l => .pure _

theorem Safe.untilBreak {α : Type} {r : Rd α} (h : Safe r) : ∀ n, Safe (untilBreak n r) := by
  intro n
  induction n with
  | zero => exact .fail
  | succ n ih =>
    have h2 : Safe (do
      let a ← r
      let l ← Cbor.untilBreak n r
      Pure.pure (a :: l) : Rd (List α)) := .bind h fun a => .bind ih fun l => .pure _
    intro bs
    unfold Cbor.untilBreak
    split
    · refine ⟨fun h => (by cases h), ?_⟩
      intro a rest h
      cases h
      exact List.suffix_cons _ _
    · exact h2 _

theorem Safe.readSeq {α : Type} {r : Rd α} (h : Safe r) : Safe (readSeq r) := by
  unfold Cbor.readSeq
  refine .bind (.readHead _) fun a => ?_
  split
  · exact .times h _
  · exact fun bs => Safe.untilBreak h _ bs
  · exact Safe.fail

theorem Safe.readMap {α : Type} {r : Rd α} (h : Safe r) : Safe (readMap r) := by
  unfold Cbor.readMap
  refine .bind (.readHead _) fun a => ?_
  split
  · exact .times h _
  · exact fun bs => Safe.untilBreak h _ bs
  · exact Safe.fail

theorem Safe.readBreak : Safe readBreak := by
  unfold Cbor.readBreak
  exact .bind (.uint 1) fun b => .ite (.pure _) .fail

theorem Safe.readPair {α β : Type} {r : Rd α} {q : Rd β} (h : Safe r) (h2 : Safe q) : Safe (readPair r q) := by
  unfold Cbor.readPair
  refine .bind (.readHead _) fun a => ?_
  split
  · exact .ite (.bind h fun a => .bind h2 fun b => .pure _) .fail
  · exact .bind h fun a => .bind h2 fun b => .bind .readBreak fun _ => .pure _
  · exact .fail

/-- After the head of an array of indefinite length anything may panic. -/
theorem readHead_indef : ∀ (k : Nat) (bs rest : Bytes), readHead k bs = .ok (.indef 4) rest → (0x9f : UInt8) ∈ bs := by
  intro k
  induction k with
  | zero => intro bs rest h; cases h
  | succ k ih =>
    intro bs rest h
    unfold Cbor.readHead at h
    obtain ⟨b, mid, h1, h2⟩ := Rd.bind_inv h
    have hbs : ∃ c, bs = c :: mid ∧ c.toNat = b := by
      unfold Rd.uint Rd.bind Rd.bytes at h1
      cases bs with
      | nil => simp at h1
      | cons c t =>
        simp [Rd.pure, Rd.beVal] at h1
        exact ⟨c, by rw [h1.2], h1.1⟩
    obtain ⟨c, hc, hcb⟩ := hbs
    have hlt : b < 256 := by rw [← hcb]; exact c.toNat_lt
    rw [hc]
    by_cases h7 : b / 32 = 7
    · rw [if_pos h7] at h2; cases h2
    · rw [if_neg h7] at h2
      by_cases h31 : b % 32 = 31
      · rw [if_pos h31] at h2
        by_cases h45 : b / 32 = 4 ∨ b / 32 = 5
        · rw [if_pos h45] at h2
          have h4 : b / 32 = 4 := by
            have h5 : (Res.ok (Head.indef (b / 32)) mid : Res Head) = .ok (.indef 4) rest := h2
            injection h5 with h6 h7
            injection h6
          have : c = 0x9f := by
            apply UInt8.toNat_inj.mp
            have : (0x9f : UInt8).toNat = 159 := rfl
            omega
          rw [this]; simp
        · rw [if_neg h45] at h2; cases h2
      · rw [if_neg h31] at h2
        obtain ⟨n, mid2, h3, h4⟩ := Rd.bind_inv h2
        have hs := (Safe.argument _ mid).2 n mid2 h3
        by_cases h6 : b / 32 = 6
        · rw [if_pos h6] at h4
          exact List.mem_cons_of_mem _ (hs.subset (ih _ _ h4))
        · rw [if_neg h6] at h4; cases h4

end Dtn.Cbor
