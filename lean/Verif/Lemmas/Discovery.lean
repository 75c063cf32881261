import Verif.Spec.Discovery
import Verif.Lemmas.Cbor
import Verif.Lemmas.AList
/-! Lemmas about beacons and services. -/

namespace Dtn.Discovery
open Cbor Spec.Discovery
open Rd (fail abort bind_ok)

/-! ### Endpoints -/

theorem splitNode_spec (n s : List Char) : ∀ acc, '/' ∉ n → splitNode acc (n ++ '/' :: s) = some (acc.reverse ++ n, s) := by
  induction n with
  | nil => intro acc _; simp [splitNode]
  | cons c n ih =>
    intro acc h
    simp only [List.mem_cons, not_or] at h
    simp only [List.cons_append, splitNode]
    rw [if_neg (fun e => h.1 e.symm), ih _ h.2]
    simp

theorem readEid_writeEid {e : EID} (h : GoodEid e) : Reads readEid (writeEid e) e := by
  cases e with
  | none =>
    unfold writeEid readEid seq
    refine Reads.bind (readHead_limit (by omega) (by simp)) ?_
    show Reads (if (2 : Nat) = 2 then _ else _) _ _
    rw [if_pos rfl]
    simp only [List.flatten_cons, List.flatten_nil, List.append_nil]
    refine Reads.bind (readNum_num (by omega) (by omega)) ?_
    rw [if_pos rfl]
    intro rest
    unfold readDtn
    rw [readNum_num (n := 0) (by omega) (by omega) rest]
  | dtn n s =>
    obtain ⟨h1, h2⟩ := h
    unfold writeEid readEid seq
    refine Reads.bind (readHead_limit (by omega) (by simp)) ?_
    show Reads (if (2 : Nat) = 2 then _ else _) _ _
    rw [if_pos rfl]
    simp only [List.flatten_cons, List.flatten_nil, List.append_nil]
    refine Reads.bind (readNum_num (by omega) (by omega)) ?_
    rw [if_pos rfl]
    intro rest
    have e1 : readNum 1 (text (String.ofList ('/' :: '/' :: n.toList ++ '/' :: s.toList)) ++ rest) = .err := by
      unfold text
      rw [List.append_assoc]
      exact readNum_head (by omega) (by omega) h2 _
    unfold readDtn
    rw [e1]
    dsimp only
    rw [bind_ok (readText_text h2 rest)]
    have e2 : parseDtn (String.ofList ('/' :: '/' :: n.toList ++ '/' :: s.toList)).toList = some (.dtn n s) := by
      rw [String.toList_ofList]
      show (splitNode [] (n.toList ++ '/' :: s.toList)).map _ = _
      rw [splitNode_spec _ _ _ h1]
      simp
    rw [e2]
    rfl
  | ipn n s =>
    unfold writeEid readEid
    rw [seq]
    refine Reads.bind (readHead_limit (by omega) (by simp)) ?_
    show Reads (if (2 : Nat) = 2 then _ else _) _ _
    rw [if_pos rfl]
    simp only [List.flatten_cons, List.flatten_nil, List.append_nil]
    refine Reads.bind (readNum_num (by omega) (by omega)) ?_
    rw [if_neg (by omega), if_pos rfl]
    exact Reads.bind0 (readPair_seq (readNum_num h.1 h.1) (readNum_num h.2 h.2)) (Reads.pure _)

/-! ### Service blocks -/

theorem readCla_writeCla {c : String × Option Nat} (h1 : Sized (utf8 c.1).length) (h2 : ∀ p, c.2 = some p → p < 2 ^ 16) :
    Reads (readPair readText (option (readNum 65536))) (writeCla c) c := by
  obtain ⟨name, port⟩ := c
  refine readPair_seq (readText_text h1) ?_
  cases port with
  | none => exact option_none
  | some p =>
    have hp := h2 p rfl
    obtain ⟨b, bs, hb, hne⟩ := head_ne (m := 0) (n := p) (by omega)
    show Reads _ (num p) _
    have hn : Reads (readNum 65536) (num p) p := readNum_num (by omega) (by omega)
    unfold num at hn ⊢
    rw [hb] at hn ⊢
    exact option_some hne hn

theorem readService_write {kv : Nat × Bytes} (h1 : kv.1 < 2 ^ 8) (h2 : Sized kv.2.length) :
    Reads readService ((writeService kv).1 ++ (writeService kv).2) kv := by
  unfold writeService
  dsimp only
  unfold readService
  refine Reads.bind (readNum_num h1 (by omega)) ?_
  refine Reads.bind0 (readSeq_seq (g := UInt8.toNat) kv.2 h2 fun x _ => readNum_num x.toNat_lt (by have := x.toNat_lt; omega)) ?_
  have : (List.map UInt8.toNat kv.2).map UInt8.ofNat = kv.2 := by
    rw [List.map_map]
    have : UInt8.ofNat ∘ UInt8.toNat = id := by funext x; simp
    rw [this, List.map_id]
  rw [this]
  exact Reads.pure _

theorem get?_foldl_insert (l : List (Nat × Bytes)) : ∀ (m : AList Nat Bytes) (tag : Nat), (l.map (·.1)).Nodup →
    AList.get? (l.foldl (fun m kv => AList.insert m kv.1 kv.2) m) tag = (AList.get? l tag).or (AList.get? m tag) := by
  induction l with
  | nil => intro m tag _; simp
  | cons kv l ih =>
    intro m tag h
    simp only [List.map_cons, List.nodup_cons] at h
    simp only [List.foldl_cons]
    rw [ih _ _ h.2, AList.get?_insert]
    obtain ⟨k, v⟩ := kv
    rw [AList.get?_cons]
    by_cases hk : k = tag
    · subst hk
      have : AList.get? l k = none := (AList.get?_eq_none_iff l k).mpr h.1
      simp [this]
    · rw [if_neg hk, if_neg (Ne.symm hk)]

theorem get?_collect {l : List (Nat × Bytes)} (h : (l.map (·.1)).Nodup) (tag : Nat) :
    AList.get? (collect l) tag = AList.get? l tag := by
  unfold collect
  rw [get?_foldl_insert l [] tag h]
  simp

theorem readBlock_write {b : ServiceBlock}
    (hc : Sized b.clas.length ∧ ∀ c ∈ b.clas, Sized (utf8 c.1).length ∧ ∀ p, c.2 = some p → p < 2 ^ 16)
    (hs : Sized b.services.length ∧ ∀ s ∈ b.services, s.1 < 2 ^ 8 ∧ Sized s.2.length) (hne : b.isEmpty = false) :
    Reads readBlock (writeBlock b) { clas := b.clas, services := collect b.services } := by
  have h1 : Reads (readSeq (readPair readText (option (readNum 65536)))) (seq (b.clas.map writeCla)) b.clas := by
    have hr : ∀ c ∈ b.clas, Reads (readPair readText (option (readNum 65536))) (writeCla c) (id c) :=
      fun c hm => readCla_writeCla (hc.2 c hm).1 (hc.2 c hm).2
    have := readSeq_seq b.clas hc.1 hr
    rwa [List.map_id] at this
  have h2 : Reads (readMap readService) (map (b.services.map writeService)) b.services := by
    have hr : ∀ kv ∈ b.services, Reads readService ((writeService kv).1 ++ (writeService kv).2) (id kv) :=
      fun s hm => readService_write (hs.2 s hm).1 (hs.2 s hm).2
    have := readMap_map (g := id) b.services hs.1 hr
    rwa [List.map_id] at this
  unfold writeBlock readBlock
  rw [hne]
  simp only [Bool.false_eq_true, if_false]
  rw [seq]
  refine Reads.bind (readHead_limit (by omega) (by simp)) ?_
  show Reads (if (2 : Nat) = 0 then _ else if (2 : Nat) = 2 then _ else _) _ _
  rw [if_neg (by omega), if_pos rfl]
  simp only [List.flatten_cons, List.flatten_nil, List.append_nil]
  exact Reads.bind h1 (Reads.bind0 h2 (Reads.pure _))

theorem isEmpty_iff (b : ServiceBlock) : b.isEmpty = true ↔ b.clas = [] ∧ b.services = [] := by
  unfold ServiceBlock.isEmpty
  simp [Nat.add_eq_zero_iff]

/-! ### Beacons -/

theorem readFields_write {b : Beacon} (h : Typed b) :
    Reads readFields (num b.version ++ (num b.flags ++ (writeEid b.eid ++ num b.bsn)))
      { b with block := {}, period := none } := by
  have hv := h.version
  have hf := h.flags
  have hb := h.bsn
  unfold readFields
  exact Reads.bind (readNum_num (by omega) (by omega)) (Reads.bind (readNum_num (by omega) (by omega))
    (Reads.bind (readEid_writeEid h.eid) (Reads.bind0 (readNum_num hb (by omega)) (Reads.pure _))))

/-- The beacon that is read back. -/
def back (b : Beacon) : Beacon :=
  { b with block := if b.block.isEmpty then {} else { clas := b.block.clas, services := collect b.block.services }
           period := b.period.map fun ms => ms / 1000 * 1000 }

theorem readBeacon_write {b : Beacon} (h : Typed b)
    (hf : b.period = none → b.block.isEmpty = false → b.flags / 2 % 2 = 1)
    (hf2 : b.period ≠ none → b.block.isEmpty = true → b.flags / 2 % 2 ≠ 1) :
    Reads readBeacon (writeBeacon b) (back b) := by
  have hfields := readFields_write h
  have hblock := readBlock_write h.clas ⟨h.services.1, h.services.2.2⟩
  unfold writeBeacon
  cases hp : b.period with
  | none =>
    cases he : b.block.isEmpty with
    | true =>
      have hb : back b = { b with block := {}, period := none } := by simp [back, he, hp]
      rw [hb]
      simp only [Bool.not_true, Bool.false_eq_true, if_false, List.append_nil]
      unfold seq readBeacon
      refine Reads.bind (readHead_limit (by omega) (by simp)) ?_
      show Reads (if (4 : Nat) < 4 then _ else _) _ _
      rw [if_neg (by omega)]
      simp only [List.flatten_cons, List.flatten_nil, List.append_nil]
      refine Reads.bind0 hfields ?_
      show Reads (if (4 : Nat) = 4 then _ else _) _ _
      rw [if_pos rfl]
      exact Reads.pure _
    | false =>
      have hb : back b = { b with block := { clas := b.block.clas, services := collect b.block.services }, period := none } := by
        simp [back, he, hp]
      rw [hb]
      simp only [Bool.not_false, if_true, List.append_nil, List.cons_append, List.nil_append]
      unfold seq readBeacon
      refine Reads.bind (readHead_limit (by omega) (by simp)) ?_
      show Reads (if (5 : Nat) < 4 then _ else _) _ _
      rw [if_neg (by omega)]
      have hfl : [num b.version, num b.flags, writeEid b.eid, num b.bsn, writeBlock b.block].flatten =
          (num b.version ++ (num b.flags ++ (writeEid b.eid ++ num b.bsn))) ++ writeBlock b.block := by simp
      rw [hfl]
      refine Reads.bind hfields ?_
      show Reads (if (5 : Nat) = 4 then _ else if (5 : Nat) = 5 then _ else _) _ _
      rw [if_neg (by omega), if_pos rfl]
      rw [if_pos (hf hp he)]
      exact Reads.bind0 (hblock he) (Reads.pure _)
  | some ms =>
    have hms := h.period ms hp
    cases he : b.block.isEmpty with
    | true =>
      have hb : back b = { b with block := {}, period := some (ms / 1000 * 1000) } := by simp [back, he, hp]
      rw [hb]
      simp only [Bool.not_true, Bool.false_eq_true, if_false, List.append_nil, List.cons_append, List.nil_append]
      unfold seq readBeacon
      refine Reads.bind (readHead_limit (by omega) (by simp)) ?_
      show Reads (if (5 : Nat) < 4 then _ else _) _ _
      rw [if_neg (by omega)]
      have hfl : [num b.version, num b.flags, writeEid b.eid, num b.bsn, num (ms / 1000)].flatten =
          (num b.version ++ (num b.flags ++ (writeEid b.eid ++ num b.bsn))) ++ num (ms / 1000) := by simp
      rw [hfl]
      refine Reads.bind hfields ?_
      show Reads (if (5 : Nat) = 4 then _ else if (5 : Nat) = 5 then _ else _) _ _
      rw [if_neg (by omega), if_pos rfl]
      rw [if_neg (hf2 (by rw [hp]; simp) he)]
      exact Reads.bind0 (readNum_num hms hms) (Reads.pure _)
    | false =>
      have hb : back b = { b with block := { clas := b.block.clas, services := collect b.block.services }, period := some (ms / 1000 * 1000) } := by
        simp [back, he, hp]
      rw [hb]
      simp only [Bool.not_false, if_true, List.cons_append, List.nil_append]
      unfold seq readBeacon
      refine Reads.bind (readHead_limit (by omega) (by simp)) ?_
      show Reads (if (6 : Nat) < 4 then _ else _) _ _
      rw [if_neg (by omega)]
      have hfl : [num b.version, num b.flags, writeEid b.eid, num b.bsn, writeBlock b.block, num (ms / 1000)].flatten =
          (num b.version ++ (num b.flags ++ (writeEid b.eid ++ num b.bsn))) ++ (writeBlock b.block ++ num (ms / 1000)) := by simp
      rw [hfl]
      refine Reads.bind hfields ?_
      show Reads (if (6 : Nat) = 4 then _ else if (6 : Nat) = 5 then _ else _) _ _
      rw [if_neg (by omega), if_neg (by omega)]
      refine Reads.bind (hblock he) (Reads.bind0 (readNum_num hms hms) ?_)
      show Reads (if (6 : Nat) = 6 then _ else _) _ _
      rw [if_pos rfl]
      exact Reads.pure _

theorem fromSlice_write {b : Beacon} (h : Typed b)
    (hf : b.period = none → b.block.isEmpty = false → b.flags / 2 % 2 = 1)
    (hf2 : b.period ≠ none → b.block.isEmpty = true → b.flags / 2 % 2 ≠ 1) :
    fromSlice (writeBeacon b) = .ok (back b) := by
  have := readBeacon_write h hf hf2 []
  rw [List.append_nil] at this
  unfold fromSlice
  rw [this]

/-! ### Flags -/

theorem flags_cases {f : Nat} (h : f < 8) (h1 : f % 2 = 1) : f = 1 ∨ f = 3 ∨ f = 5 ∨ f = 7 := by omega

theorem built_flags {parseF32 b} (h : Built parseF32 b) : FlagsTell b := by
  have add2 : ∀ {b c : Beacon}, FlagsTell b → (c.block.clas ≠ [] ∨ c.block.services ≠ []) → c.period = b.period →
      c.flags = b.flags ||| 2 → FlagsTell c := by
    intro b c ⟨h8, h1, h2, h4⟩ hne hp hfl
    unfold FlagsTell
    rw [hfl, hp]
    rcases flags_cases h8 h1 with hf | hf | hf | hf <;> rw [hf] at h4 ⊢ <;>
      refine ⟨by decide, by decide, ⟨fun _ => hne, fun _ => by decide⟩, ?_⟩ <;> simpa using h4
  induction h with
  | new eid => simp [FlagsTell, Beacon.new]
  | withConfig eid block period =>
    cases he : block.isEmpty with
    | true =>
      have := (isEmpty_iff block).mp he
      cases period <;> simp [FlagsTell, Beacon.withConfig, he, this]
    | false =>
      have hne : block.clas ≠ [] ∨ block.services ≠ [] := by
        have : ¬block.isEmpty = true := by rw [he]; decide
        rw [isEmpty_iff] at this
        by_cases hc : block.clas = []
        · exact .inr fun hs => this ⟨hc, hs⟩
        · exact .inl hc
      cases period <;> simp [FlagsTell, Beacon.withConfig, he, hne]
  | setBsn n _ ih => exact ih
  | addCla name port _ ih => exact add2 ih (.inl (by simp [Beacon.addCla, ServiceBlock.addCla])) rfl rfl
  | addService tag s _ hc ih =>
    unfold Beacon.addService at hc
    split at hc
    · cases hc
      exact add2 ih (.inr (by simp [ServiceBlock.addService, AList.insert])) rfl rfl
    · cases hc

/-! ### Services -/

theorem f32_round (f : F32) (rest : Bytes) : f32Of ((f32Bytes f ++ rest).take 4) = f := by
  have hl : (f32Bytes f).length = 4 := by simp [f32Bytes]
  rw [List.take_append_of_le_length (by omega), List.take_of_length_le (by omega)]
  unfold f32Of f32Bytes
  rw [beVal_putUint_of_lt (by have := f.toNat_lt; omega)]
  simp

theorem i8_round {i : Int} (h0 : 0 ≤ i) (h1 : i ≤ 100) : i8Of (UInt8.ofNat i.toNat) = i := by
  unfold i8Of
  rw [ofNat_toNat (by omega), if_pos (by omega)]
  omega

theorem convertOne_readable {tag payload} (h : Readable tag payload) : ∃ o, convertOne tag payload = .ok o := by
  obtain ⟨h1, h2, h3⟩ := h
  unfold convertOne
  split
  · next ht =>
    obtain ⟨s, hs⟩ := h1 (.inl ht)
    rw [hs, ofUtf8_utf8]
    exact ⟨_, rfl⟩
  · split
    · next ht =>
      have := h2 ht
      rw [if_neg (by omega)]
      exact ⟨_, rfl⟩
    · split
      · next ht =>
        have := h3 ht
        split
        · contradiction
        · exact ⟨_, rfl⟩
      · split
        · next ht =>
          obtain ⟨s, hs⟩ := h1 (.inr ht)
          rw [hs, ofUtf8_utf8]
          exact ⟨_, rfl⟩
        · exact ⟨_, rfl⟩

theorem ofUtf8_some {bs s} (h : ofUtf8 bs = some s) : bs = utf8 s := by
  unfold ofUtf8 String.fromUTF8? at h
  split at h
  · cases h
    unfold utf8
    rw [String.toUTF8_eq_toByteArray]
    simp [String.fromUTF8]
  · cases h

theorem f32Of_eq {a b c d : UInt8} {x : F32} : f32Of [a, b, c, d] = x ↔
    x.toNat = a.toNat * 2 ^ 24 + b.toNat * 2 ^ 16 + c.toNat * 2 ^ 8 + d.toNat := by
  have ha := a.toNat_lt; have hb := b.toNat_lt; have hc := c.toNat_lt; have hd := d.toNat_lt
  have he : Rd.beVal [a, b, c, d] = a.toNat * 2 ^ 24 + b.toNat * 2 ^ 16 + c.toNat * 2 ^ 8 + d.toNat := by
    simp only [Rd.beVal, List.foldl_cons, List.foldl_nil]
    omega
  unfold f32Of
  rw [he, ← UInt32.toNat_inj, UInt32.toNat_ofNat_of_lt' (by show _ < 2 ^ 32; omega)]
  exact eq_comm

theorem i8Of_eq {b : UInt8} {i : Int} : i8Of b = i ↔ -128 ≤ i ∧ i ≤ 127 ∧ i % 256 = b.toNat := by
  have hb := b.toNat_lt
  unfold i8Of
  split <;> omega

/-- Decoding a service yields what its payload carries. -/
theorem carries_iff {tag : Nat} {p : Bytes} {v : Service} : convertOne tag p = .ok (some v) ↔ Carries tag p v := by
  unfold convertOne
  constructor
  · intro h
    by_cases h1 : tag = CUSTOM_STRING
    · rw [if_pos h1] at h
      split at h
      · next s hs => cases h; rw [ofUtf8_some hs, h1]; exact .str
      · cases h
    · rw [if_neg h1] at h
      by_cases h2 : tag = GEO_LOCATION
      · rw [if_pos h2] at h
        split at h
        · cases h
        · next hl =>
          cases h
          rw [h2]
          match p, hl with
          | a :: b :: c :: d :: e :: f :: g :: h :: rest, _ =>
            exact .geo (f32Of_eq.mp rfl) (f32Of_eq.mp rfl)
          | [], hl | [_], hl | [_, _], hl | [_, _, _], hl | [_, _, _, _], hl | [_, _, _, _, _], hl | [_, _, _, _, _, _], hl
          | [_, _, _, _, _, _, _], hl => simp at hl
      · rw [if_neg h2] at h
        by_cases h3 : tag = BATTERY
        · rw [if_pos h3] at h
          split at h
          · cases h
          · next b rest =>
            cases h
            rw [h3]
            obtain ⟨g1, g2, g3⟩ := i8Of_eq (b := b).mp rfl
            exact .battery g1 g2 g3
        · rw [if_neg h3] at h
          by_cases h4 : tag = ADDRESS
          · rw [if_pos h4] at h
            split at h
            · next s hs => cases h; rw [ofUtf8_some hs, h4]; exact .address
            · cases h
          · rw [if_neg h4] at h
            cases h
  · intro h
    cases h with
    | str => rw [if_pos (by decide), ofUtf8_utf8]
    | geo hx hy =>
      rw [if_neg (by decide), if_pos (by decide), if_neg (by simp)]
      rw [← f32Of_eq] at hx hy
      simp [hx, hy]
    | battery g1 g2 g3 =>
      rw [if_neg (by decide), if_neg (by decide), if_pos (by decide)]
      simp [i8Of_eq.mpr ⟨g1, g2, g3⟩]
    | address => rw [if_neg (by decide), if_neg (by decide), if_neg (by decide), if_pos (by decide), ofUtf8_utf8]

theorem carries_unique {tag : Nat} {p : Bytes} {v w : Service} (h : Carries tag p v) (g : Carries tag p w) : v = w := by
  rw [← carries_iff] at h g
  rw [h] at g
  cases g
  rfl

theorem convertOne_not_readable {tag payload} (h : ¬Readable tag payload) : convertOne tag payload = .panic := by
  have hut : ∀ p : Bytes, (¬∃ s, p = utf8 s) → ofUtf8 p = none := by
    intro p hp
    cases ho : ofUtf8 p with
    | none => rfl
    | some s => exact absurd ⟨s, ofUtf8_some ho⟩ hp
  unfold convertOne
  unfold CUSTOM_STRING GEO_LOCATION BATTERY ADDRESS
  split
  · next ht =>
    subst ht
    rw [hut]
    intro hs
    exact h ⟨fun _ => hs, fun h => by omega, fun h => by omega⟩
  · split
    · next _ ht =>
      subst ht
      rw [if_pos]
      by_cases hl : payload.length < 8
      · exact hl
      · exact absurd ⟨fun h => by omega, fun _ => by omega, fun h => by omega⟩ h
    · split
      · next _ _ ht =>
        subst ht
        split
        · rfl
        · exact absurd ⟨fun h => by omega, fun h => by omega, fun _ => by simp⟩ h
      · split
        · next _ _ _ ht =>
          subst ht
          rw [hut]
          intro hs
          exact h ⟨fun _ => hs, fun h => by omega, fun h => by omega⟩
        · next h63 h127 h191 h255 =>
          exact absurd ⟨fun h => by omega, fun h => by omega, fun h => by omega⟩ h

theorem convert_ok {l : AList Nat Bytes} (h : ∀ s ∈ l, Readable s.1 s.2) : ∃ r, convert l = .ok r := by
  induction l with
  | nil => exact ⟨[], rfl⟩
  | cons kv l ih =>
    obtain ⟨tag, payload⟩ := kv
    obtain ⟨o, ho⟩ := convertOne_readable (h (tag, payload) (by simp))
    obtain ⟨r, hr⟩ := ih fun s hs => h s (by simp [hs])
    unfold convert
    rw [ho]
    cases o with
    | none => exact ⟨r, hr⟩
    | some s => dsimp only; rw [hr]; exact ⟨_, rfl⟩

theorem convert_panic {l : AList Nat Bytes} (h : ∃ s ∈ l, ¬Readable s.1 s.2) : convert l = .panic := by
  induction l with
  | nil => simp at h
  | cons kv l ih =>
    obtain ⟨tag, payload⟩ := kv
    unfold convert
    by_cases hr : Readable tag payload
    · obtain ⟨o, ho⟩ := convertOne_readable hr
      have hl : convert l = .panic := by
        apply ih
        obtain ⟨s, hs, hn⟩ := h
        rcases List.mem_cons.mp hs with rfl | hs
        · exact absurd hr hn
        · exact ⟨s, hs, hn⟩
      rw [ho]
      cases o with
      | none => exact hl
      | some s => dsimp only; rw [hl]
    · rw [convertOne_not_readable hr]

/-! ### Panics -/

theorem Safe.readDtn : Safe readDtn := by
  have h1 := Cbor.Safe.readNum 1
  have h2 : Safe (do
    let s ← readText
    match parseDtn s.toList with
    | some e => pure e
    | none => fail : Rd EID) := by
    refine .bind .readText fun s => ?_
    split
    · exact .pure _
    · exact .fail
  intro bs
  unfold Discovery.readDtn
  split
  · next rest h =>
    refine ⟨fun h => (by cases h), ?_⟩
    intro a rest' h'
    cases h'
    exact (h1 bs).2 _ _ h
  · exact h2 bs

theorem Safe.readEid : Safe readEid := by
  unfold Discovery.readEid
  refine .bind (.readHead _) fun a => ?_
  split
  · refine .ite (.bind (.readNum _) fun s => .ite Safe.readDtn (.ite ?_ .fail)) .fail
    exact .bind (.readPair (.readNum _) (.readNum _)) fun a => .pure _
  · exact .fail

theorem Safe.readService : Safe readService := by
  unfold Discovery.readService
  exact .bind (.readNum _) fun t => .bind (.readSeq (.readNum _)) fun p => .pure _

/-- Dispatching on a head keeps safety even if the branch for indefinite arrays panics. -/
theorem safe_head {α : Type} {f : Head → Rd α} (h : ∀ a, a ≠ .indef 4 → Safe (f a))
    (h4 : ∀ bs a rest, f (.indef 4) bs = .ok a rest → rest <:+ bs) : Safe (readHead limit >>= f) := by
  intro bs
  have hb : (readHead limit >>= f) bs = Rd.bind (readHead limit) f bs := rfl
  rw [hb]
  unfold Rd.bind
  cases hr : readHead limit bs with
  | ok a mid =>
    have hs := (Cbor.Safe.readHead limit bs).2 a mid hr
    dsimp only
    by_cases ha : a = .indef 4
    · subst ha
      exact ⟨fun _ => readHead_indef _ _ _ hr, fun b rest hok => (h4 mid b rest hok).trans hs⟩
    · exact ⟨fun hp => hs.subset ((h a ha mid).1 hp), fun b rest hok => ((h a ha mid).2 b rest hok).trans hs⟩
  | eof => exact ⟨fun h => (by cases h), fun _ _ h => (by cases h)⟩
  | err => exact ⟨fun h => (by cases h), fun _ _ h => (by cases h)⟩
  | panic => exact ⟨fun _ => (Cbor.Safe.readHead limit bs).1 hr, fun _ _ h => (by cases h)⟩

theorem Safe.readBlock : Safe readBlock := by
  unfold Discovery.readBlock
  refine safe_head ?_ ?_
  · intro a ha
    split
    · exact .ite (.pure _) (.ite (.bind (.readSeq (.readPair .readText (.option (.readNum _)))) fun c =>
        .bind (.readMap Safe.readService) fun s => .pure _) .fail)
    · exact absurd rfl ha
    · exact .fail
  · intro bs a rest h; cases h

theorem Safe.readFields : Safe readFields := by
  unfold Discovery.readFields
  exact .bind (.readNum _) fun _ => .bind (.readNum _) fun _ => .bind Safe.readEid fun _ => .bind (.readNum _) fun _ => .pure _

theorem Safe.readBeacon : Safe readBeacon := by
  unfold Discovery.readBeacon
  refine safe_head ?_ ?_
  · intro a ha
    split
    · refine .ite .fail (.bind Safe.readFields fun b => .ite (.pure _) (.ite (.ite ?_ ?_) ?_))
      · exact .bind Safe.readBlock fun _ => .pure _
      · exact .bind (.readNum _) fun _ => .pure _
      · exact .bind Safe.readBlock fun _ => .bind (.readNum _) fun _ => .ite (.pure _) .fail
    · exact absurd rfl ha
    · exact .fail
  · intro bs a rest h
    obtain ⟨_, _, _, h⟩ := Rd.bind_inv h
    cases h

theorem fromSlice_panic {bs : Bytes} (h : fromSlice bs = .panic) : (0x9f : UInt8) ∈ bs := by
  unfold fromSlice at h
  split at h
  · cases h
  · next hp => exact (Safe.readBeacon bs).1 hp
  · cases h

end Dtn.Discovery
