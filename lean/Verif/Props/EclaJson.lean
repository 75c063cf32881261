import Verif.Lemmas.EclaJson
import Verif.Props.EclaFrames
/-!
C142: the JSON text of the packets between a node and external convergence layers.
-/

namespace Dtn.Props
open Spec.EclaJson Spec.Rfc8259 ModuleClient EclaJson
open Serde (Value)

/-- A packet of each kind, with characters that JSON escapes. -/
def exPackets : List EclaPacket :=
  [.register "a\"b" true (some 4556), .register "x" false none, .beacon (.dtn "n1" "") "10.0.0.1\n" [130, 128, 160], .data "a" "b" "dtn://x/y-1-0" [255, 0],
   .registered (.ipn 5 0) "5", .error "no"]

/-- A reader of endpoint ids for the examples. -/
def exReadEid : Value → Option EID
  | .list [.num 1, .num 0] => some .none
  | .list [.num 1, .str s] => Discovery.parseDtn s.toList
  | .list [.num 2, .list [.num n, .num s]] => some (.ipn n s)
  | _ => none

/-- The numbers in range for the examples. -/
def exFinite (t : List Char) : Bool := t ≠ "1e999".toList

/-- C142: a packet is written as the JSON object of the documentation. -/
theorem C142_written (p : EclaPacket) (sized : Sized p) : ∃ l, Text 3 (.obj l) (write p) ∧ Means Eid l p := by
  obtain ⟨l, -, h1, h2⟩ := write_spec sized Eid fun e _ => eid_spec e
  exact ⟨l, h1, h2⟩

example : (∀ p ∈ exPackets, Sized p) ∧
    write (.beacon (.dtn "n1" "") "10.0.0.1\n" [130, 128, 160]) =
      "{\"type\":\"Beacon\",\"eid\":[1,\"//n1/\"],\"addr\":\"10.0.0.1\\n\",\"service_block\":\"goCg\"}".toList := by
  refine ⟨?_, by decide +kernel⟩
  intro p hp
  simp only [exPackets, List.mem_cons, List.not_mem_nil, or_false] at hp
  rcases hp with rfl | rfl | rfl | rfl | rfl | rfl <;> simp [Sized]

/-- C142: a text is understood as a packet exactly if it is JSON in up to 127 levels, with any white space, order of fields, further fields and
escapes, of an object that is this packet by the documentation, or of a list of its type and fields, and no number in it is out of range. `eid`
is the reader of endpoint ids, `finite` tells the other numbers in the range. -/
theorem C142_read (finite : List Char → Bool) (eid : Value → Option EID) (cs : List Char) (p : EclaPacket) :
    EclaJson.read finite eid cs = some p ↔ ∃ v, Text 127 v cs ∧ (∀ t, Other v t → finite t = true) ∧
      ((∃ l, v = .obj l ∧ Means (fun e v => eid v = some e) l p) ∨ ∃ l, v = .list l ∧ InOrder (fun e v => eid v = some e) l p) := by
  unfold EclaJson.read
  rw [Option.bind_eq_some_iff]
  constructor
  · rintro ⟨v, h1, h2⟩
    obtain ⟨h3, h4⟩ := (Serde.parse_iff _ _ _).1 h1
    refine ⟨v, h3, h4, ?_⟩
    cases v with
    | obj l => exact .inl ⟨l, rfl, (fromValue_iff eid l p).1 h2⟩
    | list l => exact .inr ⟨l, rfl, (fromValue_list eid l p).1 h2⟩
    | _ => simp [fromValue] at h2
  · rintro ⟨v, h3, h4, h⟩
    refine ⟨v, (Serde.parse_iff _ _ _).2 ⟨h3, h4⟩, ?_⟩
    rcases h with ⟨l, rfl, h⟩ | ⟨l, rfl, h⟩
    · exact (fromValue_iff eid l p).2 h
    · exact (fromValue_list eid l p).2 h

/-- A text with other white space, order and escapes, and a further field, which is understood. -/
example : EclaJson.read exFinite exReadEid " { \"reason\" : \"\\u006eo\\ud83d\\ude00\" ,\n\"more\":[1,{\"x\":-0.5e-7}, true],\t\"type\":\"Err\\u006Fr\"}".toList = some (.error "no😀") ∧
    (∃ l, Text 127 (.obj l) "{ \"type\" :\"Error\",\"reason\":\"\\u006e\" }".toList ∧ Means (fun e v => exReadEid v = some e) l (.error "n")) := by
  refine ⟨by decide +kernel, [("type", .str "Error"), ("reason", .str "n")], ?_, by constructor <;> rfl⟩
  have key : ∀ s : List Char, (∀ c ∈ s, c ≠ '"' ∧ c ≠ '\\' ∧ 32 ≤ c.toNat) → Chars s s := by
    intro s
    induction s with
    | nil => intro _; exact .nil
    | cons c s ih =>
      intro h
      have hc := h c (by simp)
      exact .cons (w := [c]) (.plain hc.1 hc.2.1 hc.2.2) (ih fun x hx => h x (by simp [hx]))
  have lit : ∀ s : String, (∀ c ∈ s.toList, c ≠ '"' ∧ c ≠ '\\' ∧ 32 ≤ c.toNat) → Str s ('"' :: s.toList ++ ['"']) := fun s h => ⟨_, key _ h, rfl⟩
  have sp : Space [' '] := by simp [Space]
  have no : Space [] := by simp [Space]
  have hn : Str "n" ("\"\\u006e\"".toList) := by
    refine ⟨"\\u006e".toList, ?_, by decide⟩
    refine .cons (w := "\\u006e".toList) (.unicode (ds := "006e".toList) (by decide) ?_) .nil
    exact ⟨0, 0, 6, 14, '0', '0', '6', 'e', by decide, by unfold Hex; decide, by unfold Hex; decide, by unfold Hex; decide, by unfold Hex; decide, by decide⟩
  exact ⟨[], _, [], no, .obj (n := 126) (.fields sp (lit "type" (by decide)) sp no (.str (lit "Error" (by decide))) no
    (.field no (lit "reason" (by decide)) no no (.str hn) sp)), no, by decide⟩

/-- Lists are understood; texts with a comma too many, with a lone surrogate, with numbers out of range, of other lists and of more levels are not. -/
example : EclaJson.read exFinite exReadEid "[\"Register\", \"x\",true,4556]".toList = some (.register "x" true (some 4556)) ∧
    (∀ s ∈ ["{\"type\":\"Error\",\"reason\":\"a\",}", "{\"type\":\"Error\",\"reason\":\"\\ud800\"}", "{\"type\":\"Error\",\"reason\":\"a\",\"x\":1e999}",
      "[\"Error\",\"a\",1]", "{\"type\":\"Error\",\"reason\":\"a\",\"x\":" ++ String.ofList (List.replicate 127 '[' ++ List.replicate 127 ']') ++ "}"],
      EclaJson.read exFinite exReadEid s.toList = none) ∧
    EclaJson.read exFinite exReadEid ("{\"type\":\"Error\",\"reason\":\"a\",\"x\":" ++ String.ofList (List.replicate 126 '[' ++ List.replicate 126 ']') ++ "}").toList =
      some (.error "a") := by decide +kernel

/-- C142: what one side writes the other reads, if the reader of endpoint ids reads the documented form. -/
theorem C142_round_trip (finite : List Char → Bool) (eid : Value → Option EID) (p : EclaPacket) (sized : Sized p) (reads : ∀ e v, Names p e → Eid e v → eid v = some e) :
    EclaJson.read finite eid (write p) = some p := by
  obtain ⟨l, h0, h1, h2⟩ := write_spec sized (fun e v => eid v = some e) fun e he => reads e _ he (eid_spec e)
  exact (C142_read finite eid _ p).2 ⟨_, text_le h1 (by decide), fun t ht => (no_others p t (h0 ▸ ht)).elim, .inl ⟨l, rfl, h2⟩⟩

example : (∀ p ∈ exPackets, ∀ e v, Names p e → Eid e v → exReadEid v = some e) ∧
    exPackets.map (fun p => EclaJson.read exFinite exReadEid (write p)) = exPackets.map some := by
  refine ⟨?_, by decide +kernel⟩
  intro p hp e v hn hv
  simp only [exPackets, List.mem_cons, List.not_mem_nil, or_false] at hp
  rcases hp with rfl | rfl | rfl | rfl | rfl | rfl <;> simp only [Names] at hn
  · subst hn; cases hv; decide +kernel
  · subst hn; cases hv; rfl

/-- C142, over TCP: the packets put into frames are those read at the other end, however the stream is cut, if none is larger than 8 MiB. -/
theorem C142_frames (finite : List Char → Bool) (eid : Value → Option EID) (ps : List EclaPacket) (chunks : List Bytes) (sized : ∀ p ∈ ps, Sized p)
    (reads : ∀ p ∈ ps, ∀ e v, Names p e → Eid e v → eid v = some e) (fits : ∀ p ∈ ps, (writeBytes p).length ≤ 8388608)
    (sent : chunks.flatten = (ps.map fun p => EclaFrames.frame (writeBytes p)).flatten) :
    (EclaFrames.receive chunks).packets.map (readBytes finite eid) = ps.map some ∧ (EclaFrames.receive chunks).failed = false := by
  have h := C50_full_writes_arrive_partial (ps.map writeBytes) (ps.map fun p => (EclaFrames.frame (writeBytes p), (EclaFrames.frame (writeBytes p)).length)) chunks
    (by intro q hq; obtain ⟨p, hp, rfl⟩ := List.mem_map.1 hq; exact fits p hp)
    (by simp [Function.comp_def]) (by intro w hw; obtain ⟨p, hp, rfl⟩ := List.mem_map.1 hw; exact Nat.le_refl _)
    (by
      rw [sent]
      clear sent fits sized reads
      induction ps with
      | nil => rfl
      | cons p ps ih => simp [EclaFrames.write, ← ih])
  refine ⟨?_, h.2⟩
  rw [h.1, List.map_map]
  refine List.map_congr_left fun p hp => ?_
  simp only [Function.comp, readBytes, writeBytes, Cbor.ofUtf8_utf8, Option.bind_some, String.toList_ofList]
  exact C142_round_trip finite eid p (sized p hp) (reads p hp)

example : (∀ p ∈ exPackets, (writeBytes p).length ≤ 8388608) ∧
    (EclaFrames.receive [((exPackets.map fun p => EclaFrames.frame (writeBytes p)).flatten).take 90, ((exPackets.map fun p => EclaFrames.frame (writeBytes p)).flatten).drop 90]).packets.map
      (readBytes exFinite exReadEid) = exPackets.map some := by decide +kernel

/-- C142 is false for beacons without address, which the documentation allows: they are not understood. -/
theorem C142_addr_violated (finite : List Char → Bool) (eid : Value → Option EID) (l : List (String × Value)) (cs : List Char) (text : Text 127 (.obj l) cs)
    (beacon : Has l "type" (.str "Beacon")) (noAddr : ∀ f ∈ l, f.1 ≠ "addr") : EclaJson.read finite eid cs = none := by
  cases h : EclaJson.read finite eid cs with
  | none => rfl
  | some p =>
    have hm : Means (fun e v => eid v = some e) l p := by
      obtain ⟨v, h1, -, h2⟩ := (C142_read finite eid cs p).1 h
      have := (Serde.machine_text h1).symm.trans (Serde.machine_text text)
      cases this
      rcases h2 with ⟨l', e, h2⟩ | ⟨l', e, -⟩
      · cases e; exact h2
      · cases e
    have h0 : ∀ v, ¬ Has l "addr" v := by
      intro v hv
      have : ("addr", v) ∈ l.filter fun f => f.1 = "addr" := by rw [hv]; simp
      exact noAddr _ (List.mem_filter.1 this).1 rfl
    cases p with
    | beacon => exact (h0 _ hm.2.2.1).elim
    | _ =>
      have := has_unique beacon hm.1
      simp at this

example : EclaJson.read exFinite exReadEid "{\"type\":\"Beacon\",\"eid\":[1,\"//n1/\"],\"service_block\":\"goCg\"}".toList = none ∧
    EclaJson.read exFinite exReadEid "{\"type\":\"Beacon\",\"eid\":[1,\"//n1/\"],\"addr\":\"\",\"service_block\":\"goCg\"}".toList =
      some (.beacon (.dtn "n1" "") "" [130, 128, 160]) := by decide +kernel

end Dtn.Props
