import Verif.Lemmas.Discovery
import Verif.Lemmas.BeaconRead
import Verif.Lemmas.Words
import Verif.Lemmas.Peers
/-! Properties C52, C53, C55 and C79: beacons, services and peers found by discovery. -/

namespace Dtn.Props
open Discovery Spec.Discovery Cbor

/-! ## C52 -/

/-- A parser for the examples: it accepts words that are a single digit. -/
def exF32 : List Char → Option F32
  | [c] => (digit c).map fun d => UInt32.ofNat d
  | _ => none

/-- A beacon with services, layers and a period. -/
def exBeacon : Beacon :=
  { version := 7, flags := 7, eid := .dtn "n1" "", bsn := 70000,
    block := { clas := [("mtcp", some 16162), ("http", none)], services := [(191, [75]), (63, [104, 105])] },
    period := some 300000 }

/-- C52, missing: periods that are no whole number of seconds. Writing any beacon built through the interface and reading
it yields the same beacon. -/
theorem C52_round_trip_partial (parseF32 : List Char → Option F32) (b : Beacon) (hb : Built parseF32 b) (ht : Typed b)
    (hp : ∀ ms, b.period = some ms → ms % 1000 = 0) :
    ∃ c, fromSlice (writeBeacon b) = .ok c ∧ Same b c := by
  have hf := built_flags hb
  have hne : ∀ {p : Prop}, b.block.isEmpty = p → (p ↔ b.block.clas = [] ∧ b.block.services = []) := by
    intro p hp'; rw [← hp']; exact isEmpty_iff b.block
  refine ⟨back b, fromSlice_write ht ?_ ?_, ?_⟩
  · intro _ he
    rw [hf.2.2.1]
    have : ¬(b.block.clas = [] ∧ b.block.services = []) := by
      rw [← isEmpty_iff, he]; decide
    by_cases hc : b.block.clas = []
    · exact .inr fun hs => this ⟨hc, hs⟩
    · exact .inl hc
  · intro _ he h1
    rw [hf.2.2.1] at h1
    have := (isEmpty_iff b.block).mp he
    rcases h1 with h1 | h1
    · exact h1 this.1
    · exact h1 this.2
  · refine ⟨rfl, rfl, rfl, rfl, ?_, ?_, ?_⟩
    · unfold back
      cases he : b.block.isEmpty with
      | true => simp [((isEmpty_iff b.block).mp he).1]
      | false => simp
    · intro tag
      unfold back
      cases he : b.block.isEmpty with
      | true => simp [((isEmpty_iff b.block).mp he).2]
      | false => simpa using get?_collect ht.services.2.1 tag
    · show b.period.map _ = b.period
      cases hb : b.period with
      | none => rfl
      | some ms =>
        have := hp ms hb
        simp only [Option.map_some, Option.some.injEq]
        omega

example : Built exF32 ((Beacon.withConfig (.dtn "n1" "") { clas := [("mtcp", some 16162)], services := [(191, [75])] }
      (some 300000)).setBsn 70000) ∧ FlagsTell exBeacon ∧
    fromSlice (writeBeacon exBeacon) = .ok (back exBeacon) := by
  refine ⟨.setBsn _ (.withConfig _ _ _), by simp [FlagsTell, exBeacon], by decide +kernel⟩

/-- C52: the bytes of a beacon are the CBOR array of its parts in the documented order: version, flags, sender, sequence
number, the service block unless it is empty, and the period in seconds if there is one. -/
theorem C52_layout (b : Beacon) (ht : Typed b) : Spec.Beacons.Wire false b (writeBeacon b) := Spec.Beacons.beacon_spec ht

example : Typed exBeacon :=
  ⟨by decide, by decide, by refine ⟨by decide, ?_⟩; unfold Sized; decide +kernel, by decide,
    ⟨by unfold Sized; decide, by unfold Sized; decide +kernel⟩,
    ⟨by unfold Sized; decide, by decide, by unfold Sized; decide⟩, by decide⟩

/-- C52, missing: periods that are no whole number of seconds. Whatever is laid out as a beacon, with numbers and lengths in
any of the forms CBOR has for them, lists and maps of the service block of definite or indefinite length and the services in any order, is read as that beacon, also when another program wrote
it. Of the flags only the bit for the service block is used. -/
theorem C52_read_partial (b : Beacon) (ht : Typed b)
    (hf : b.flags / 2 % 2 = 1 ↔ b.block.clas ≠ [] ∨ b.block.services ≠ [])
    (hp : ∀ ms, b.period = some ms → ms % 1000 = 0) (indefinite : Bool) (bs : Bytes) (hw : Spec.Beacons.Wire indefinite b bs) :
    ∃ c, fromSlice bs = .ok c ∧ Same b c := by
  have h := Spec.Beacons.read_wire ht (fun _ he => hf.mpr ?_) (fun _ he h1 => ?_) hw []
  · refine ⟨back b, ?_, rfl, rfl, rfl, rfl, ?_, ?_, ?_⟩
    · rw [List.append_nil] at h
      unfold fromSlice
      rw [h]
    · unfold back
      cases he : b.block.isEmpty with
      | true => simp [((isEmpty_iff b.block).mp he).1]
      | false => simp
    · intro tag
      unfold back
      cases he : b.block.isEmpty with
      | true => simp [((isEmpty_iff b.block).mp he).2]
      | false => simpa using get?_collect ht.services.2.1 tag
    · show b.period.map _ = b.period
      cases hb : b.period with
      | none => rfl
      | some ms =>
        have := hp ms hb
        simp only [Option.map_some, Option.some.injEq]
        omega
  · have : ¬(b.block.clas = [] ∧ b.block.services = []) := by
      rw [← isEmpty_iff, he]; decide
    by_cases hc : b.block.clas = []
    · exact .inr fun hs => this ⟨hc, hs⟩
    · exact .inl hc
  · have := (isEmpty_iff b.block).mp he
    rcases hf.mp h1 with h2 | h2
    · exact h2 this.1
    · exact h2 this.2

/-- A beacon of another program: every number and length has an extra byte. -/
def exForeign : Bytes := [0x98, 4, 0x18, 7, 0x18, 1, 0x98, 2, 0x18, 1, 0x18, 0, 0x18, 5]

/-- It is laid out as a beacon, though the node would write it otherwise. -/
example : Spec.Beacons.Wire false (.setBsn (.new .none) 5) exForeign ∧ writeBeacon (.setBsn (.new .none) 5) ≠ exForeign ∧
    fromSlice exForeign = .ok (.setBsn (.new .none) 5) := by
  have two : ∀ (m n : Nat) (b c : UInt8), b.toNat / 32 = m → b.toNat % 32 = 24 → c.toNat = n → Spec.Beacons.Head m n [b, c] := by
    intro m n b c h1 h2 h3
    exact ⟨b, [c], rfl, h1, .inr ⟨0, by omega, h2, rfl, by simp [Spec.Beacons.number, h3]⟩⟩
  refine ⟨⟨[0x98, 4], [[0x18, 7], [0x18, 1], [0x98, 2, 0x18, 1, 0x18, 0], [0x18, 5]], two _ _ _ _ rfl rfl rfl, ?_, rfl⟩,
    by decide +kernel, by decide +kernel⟩
  refine .cons (two _ _ _ _ rfl rfl rfl) (.cons (two _ _ _ _ rfl rfl rfl) (.cons ?_ (.cons (two _ _ _ _ rfl rfl rfl) .nil)))
  exact ⟨[0x98, 2], [[0x18, 1], [0x18, 0]], two _ _ _ _ rfl rfl rfl,
    .cons (two _ _ _ _ rfl rfl rfl) (.cons (two _ _ _ _ rfl rfl rfl) .nil), rfl⟩

/-- C52: beacons made for a node have version 7. -/
theorem C52_version (parseF32 : List Char → Option F32) (b : Beacon) (hb : Built parseF32 b) : b.version = 7 := by
  induction hb with
  | new | withConfig => rfl
  | setBsn _ _ ih | addCla _ _ _ ih => exact ih
  | addService tag s _ h ih =>
    unfold Beacon.addService at h
    split at h
    · cases h; exact ih
    · cases h

/-- C52: the flags of every beacon built through the interface state exactly which optional parts are present. -/
theorem C52_flags_tell (parseF32 : List Char → Option F32) (b : Beacon) (hb : Built parseF32 b) : FlagsTell b :=
  built_flags hb

/-- C52 fails for periods with a fraction of a second: whatever else the beacon holds, the period read is rounded down, so
a period below one second becomes zero. -/
theorem C52_period_rounded_violated (parseF32 : List Char → Option F32) (b : Beacon) (hb : Built parseF32 b) (ht : Typed b)
    (ms : Nat) (hp : b.period = some ms) (hms : ms % 1000 ≠ 0) :
    ∃ c, fromSlice (writeBeacon b) = .ok c ∧ c.period = some (ms / 1000 * 1000) ∧ c.period ≠ b.period := by
  have hf := built_flags hb
  refine ⟨back b, fromSlice_write ht (fun h => by rw [hp] at h; cases h) ?_, ?_, ?_⟩
  · intro _ he h1
    rw [hf.2.2.1] at h1
    have := (isEmpty_iff b.block).mp he
    rcases h1 with h1 | h1
    · exact h1 this.1
    · exact h1 this.2
  · simp [back, hp]
  · simp only [back, hp, Option.map_some, ne_eq, Option.some.injEq]
    omega

example : Built exF32 (.withConfig (.dtn "n1" "") {} (some 500)) ∧
    fromSlice (writeBeacon (.withConfig (.dtn "n1" "") {} (some 500))) =
      .ok { version := 7, flags := 5, eid := .dtn "n1" "", bsn := 0, block := {}, period := some 0 } :=
  ⟨.withConfig _ _ _, by decide +kernel⟩

/-! ## C53 -/

/-- C53: a service that is accepted is within the documented limits, and its payload decodes to the value given. -/
theorem C53_accepted_decodes (parseF32 : List Char → Option F32) (tag : Nat) (s : String) (t : Nat) (p : Bytes)
    (h : buildService parseF32 tag s = .ok (t, p)) :
    t = tag ∧ ∃ v, Allowed parseF32 tag s v ∧ Carries t p v := by
  simp only [← carries_iff]
  unfold buildService at h
  unfold convertOne
  by_cases h1 : tag = CUSTOM_STRING
  · rw [if_pos h1] at h
    split at h
    · cases h
    · next hl =>
      cases h
      refine ⟨rfl, .str s, ?_, ?_⟩
      · rw [h1]; exact .str (by omega)
      · rw [if_pos h1, ofUtf8_utf8]
  · rw [if_neg h1] at h
    by_cases h2 : tag = GEO_LOCATION
    · rw [if_pos h2] at h
      split at h
      · next a b rest hw =>
        split at h
        · next x y hx hy =>
          cases h
          refine ⟨rfl, .geo x y, ?_, ?_⟩
          · rw [h2]; exact .geo (splits_iff.mpr hw) hx hy
          · have hl : ∀ f : F32, (f32Bytes f).length = 4 := fun f => by simp [f32Bytes]
            rw [if_neg h1, if_pos h2, if_neg (by simp [hl]), f32_round]
            rw [List.drop_append_of_le_length (by rw [hl]; omega), List.drop_of_length_le (by rw [hl]; omega)]
            have := f32_round y []
            simp only [List.append_nil] at this
            simp only [List.nil_append, this]
        · cases h
      · cases h
    · rw [if_neg h2] at h
      by_cases h3 : tag = BATTERY
      · rw [if_pos h3] at h
        split at h
        · next i hi =>
          split at h
          · next hr =>
            cases h
            refine ⟨rfl, .battery i, ?_, ?_⟩
            · rw [h3]; exact .battery (parseI8_iff.mp hi).1 hr.1 hr.2
            · rw [if_neg h1, if_neg h2, if_pos h3]
              dsimp only
              rw [i8_round hr.1 hr.2]
          · cases h
        · cases h
      · rw [if_neg h3] at h
        by_cases h4 : tag = ADDRESS
        · rw [if_pos h4] at h
          split at h
          · next hw =>
            cases h
            refine ⟨rfl, .address s, ?_, ?_⟩
            · rw [h4]
              obtain ⟨_, _, _, _, _, hw⟩ := length_five hw
              exact .address (splits_iff.mpr hw)
            · rw [if_neg h1, if_neg h2, if_neg h3, if_pos h4, ofUtf8_utf8]
          · cases h
        · rw [if_neg h4] at h; cases h

example : buildService exF32 191 "075" = .ok (191, [75]) ∧ buildService exF32 191 "101" = .err ∧
    buildService exF32 127 " 5  7 x" = .ok (127, [0, 0, 0, 5, 0, 0, 0, 7]) ∧
    convertOne 127 [0, 0, 0, 5, 0, 0, 0, 7] = .ok (some (.geo 5 7)) := by decide +kernel

/-- C53: every service within the documented limits is accepted. -/
theorem C53_allowed_accepted (parseF32 : List Char → Option F32) (tag : Nat) (s : String) (v : Service)
    (h : Allowed parseF32 tag s v) : ∃ p, buildService parseF32 tag s = .ok (tag, p) := by
  unfold buildService CUSTOM_STRING GEO_LOCATION BATTERY ADDRESS
  cases h with
  | str hl => exact ⟨utf8 s, by rw [if_pos rfl, if_neg (by omega)]⟩
  | geo hw hx hy => exact ⟨_, by rw [if_neg (by omega), if_pos rfl, splits_iff.mp hw]; simp only [hx, hy]; rfl⟩
  | battery hi h0 h1 =>
    rename_i i
    refine ⟨[UInt8.ofNat i.toNat], ?_⟩
    rw [if_neg (by omega), if_neg (by omega), if_pos rfl, parseI8_iff.mpr ⟨hi, by omega, by omega⟩]
    dsimp only
    rw [if_pos ⟨h0, h1⟩]
  | address hw => exact ⟨_, by rw [if_neg (by omega), if_neg (by omega), if_neg (by omega), if_pos rfl, splits_iff.mp hw]; rfl⟩

example : Allowed exF32 127 "5 7" (.geo 5 7) :=
  .geo (a := ['5']) (b := ['7']) (rest := []) (splits_iff.mpr (by decide)) (by decide) (by decide)

/-- C53, missing: coordinates that are no numbers. Everything else outside the documented limits is rejected with an
error. -/
theorem C53_others_rejected_partial (parseF32 : List Char → Option F32) (tag : Nat) (s : String)
    (h : ∀ v, ¬Allowed parseF32 tag s v) (hgeo : tag = 127 → ∀ ws, Splits s.toList ws → ws.length < 2) :
    buildService parseF32 tag s = .err := by
  cases hb : buildService parseF32 tag s with
  | err => rfl
  | ok r =>
    obtain ⟨t, p⟩ := r
    obtain ⟨_, v, hv, _⟩ := C53_accepted_decodes parseF32 tag s t p hb
    exact absurd hv (h v)
  | panic =>
    unfold buildService CUSTOM_STRING GEO_LOCATION BATTERY ADDRESS at hb
    split at hb
    · split at hb <;> cases hb
    · split at hb
      · next hg =>
        split at hb
        · next a b rest hw =>
          have := hgeo hg _ (splits_iff.mpr hw)
          simp only [List.length_cons] at this
          omega
        · cases hb
      · split at hb
        · split at hb
          · split at hb <;> cases hb
          · cases hb
        · split at hb
          · split at hb <;> cases hb
          · cases hb

example : (∀ ws, Splits "5".toList ws → ws.length < 2) ∧ buildService exF32 127 "5" = .err ∧ buildService exF32 63 "" = .ok (63, []) ∧
    buildService exF32 5 "x" = .err := by
  refine ⟨fun ws h => ?_, by decide +kernel⟩
  rw [← splits_iff.mp h]
  decide +kernel

/-- C53 fails: coordinates that are no numbers are not rejected but make the program panic. -/
theorem C53_bad_coordinates_violated (parseF32 : List Char → Option F32) (s : String) (a b : List Char)
    (rest : List (List Char)) (hw : Splits s.toList (a :: b :: rest)) (hn : parseF32 a = none ∨ parseF32 b = none) :
    (∀ v, ¬Allowed parseF32 127 s v) ∧ buildService parseF32 127 s = .panic := by
  constructor
  · intro v hv
    cases hv with
    | geo hw' hx hy =>
      cases Splits.unique hw hw'
      rcases hn with h | h
      · rw [h] at hx; cases hx
      · rw [h] at hy; cases hy
  · unfold buildService CUSTOM_STRING GEO_LOCATION
    rw [if_neg (by omega), if_pos rfl, splits_iff.mp hw]
    dsimp only
    split
    · next hx hy =>
      rcases hn with h | h
      · rw [h] at hx; cases hx
      · rw [h] at hy; cases hy
    · rfl

example : Splits "north west".toList [['n', 'o', 'r', 't', 'h'], ['w', 'e', 's', 't']] ∧
    exF32 ['n', 'o', 'r', 't', 'h'] = none := ⟨splits_iff.mpr (by decide), by decide⟩

/-- C53, missing: meaningless payloads (see below). Decoding services whose payloads are meaningful succeeds and yields
exactly the known ones. -/
theorem C53_decoding_partial (l : AList Nat Bytes) (h : ∀ s ∈ l, Readable s.1 s.2) :
    ∃ r, convert l = .ok r ∧
      ∀ tag v, (tag, v) ∈ r ↔ ∃ p, (tag, p) ∈ l ∧ Carries tag p v := by
  simp only [← carries_iff]
  induction l with
  | nil => exact ⟨[], rfl, by simp⟩
  | cons kv l ih =>
    obtain ⟨tag, payload⟩ := kv
    obtain ⟨o, ho⟩ := convertOne_readable (h (tag, payload) (by simp))
    obtain ⟨r, hr, hm⟩ := ih fun s hs => h s (by simp [hs])
    unfold convert
    rw [ho]
    cases o with
    | none =>
      refine ⟨r, hr, ?_⟩
      intro t v
      rw [hm]
      constructor
      · rintro ⟨p, hp, hc⟩
        exact ⟨p, by simp [hp], hc⟩
      · rintro ⟨p, hp, hc⟩
        rcases List.mem_cons.mp hp with hp | hp
        · cases hp
          rw [ho] at hc; cases hc
        · exact ⟨p, hp, hc⟩
    | some s =>
      dsimp only
      rw [hr]
      refine ⟨_, rfl, ?_⟩
      intro t v
      simp only [List.mem_cons, Prod.mk.injEq]
      constructor
      · rintro (⟨h1, h2⟩ | hv)
        · exact ⟨payload, .inl ⟨h1, rfl⟩, by rw [h1, h2]; exact ho⟩
        · obtain ⟨p, hp, hc⟩ := (hm t v).mp hv
          exact ⟨p, .inr hp, hc⟩
      · rintro ⟨p, ⟨h1, h2⟩ | hp, hc⟩
        · rw [h1, h2, ho] at hc
          cases hc
          exact .inl ⟨h1, rfl⟩
        · exact .inr ((hm t v).mpr ⟨p, hp, hc⟩)

example : convert [(63, [104, 105]), (191, [200]), (7, [])] = .ok [(63, .str "hi"), (191, .battery (-56))] := by
  decide +kernel

/-- C53 fails: one meaningless payload (a text that is no UTF-8, fewer than eight bytes of coordinates, no battery level)
makes decoding panic, whatever the other services are. -/
theorem C53_bad_payload_violated (l : AList Nat Bytes) (h : ∃ s ∈ l, ¬Readable s.1 s.2) : convert l = .panic :=
  convert_panic h

example : ¬Readable 191 [] ∧ ¬Readable 127 [1, 2, 3] ∧ convert [(63, [104, 105]), (127, [1, 2, 3])] = .panic :=
  ⟨by simp [Readable], by simp [Readable], by decide +kernel⟩

/-! ## C55 -/

theorem receive_ok {s : Rx} {now src data b} (ha : s.alive = true) (hd : fromSlice data = .ok b)
    (hs : ∀ sv ∈ b.block.services, Readable sv.1 sv.2) (hh : b.eid ≠ s.host) (n : String) (hn : b.eid.node = some n) :
    (receive s now src data).alive = true ∧ (receive s now src data).notified = s.notified ++ [b.eid] ∧
    (receive s now src data).host = s.host ∧
    AList.get? (receive s now src data).peers n = some (announced now src b) ∧
    (∀ m, m ≠ n → AList.get? (receive s now src data).peers m = AList.get? s.peers m) ∧
    (∃ svc, convert b.block.services = .ok svc ∧ AList.get? (receive s now src data).services n = some svc) ∧
    ∀ m, m ≠ n → AList.get? (receive s now src data).services m = AList.get? s.services m := by
  obtain ⟨svc, hsvc⟩ := convert_ok hs
  have hadd : s.peers.add (Peer.new now b.eid src .dynamic b.period b.block.clas) =
      some (AList.insert s.peers n (announced now src b), !AList.contains s.peers n) := by
    unfold Peers.add
    simp only [Peer.new, hn]
    rfl
  unfold receive
  rw [ha]
  simp only [Bool.not_true, Bool.false_eq_true, if_false, hd, hsvc, if_neg hh, hadd, hn, Option.getD_some]
  cases hc : AList.contains s.peers n with
  | false =>
    simp only [Bool.not_false, if_true, AList.get?_insert_self, true_and]
    exact ⟨fun m hm => AList.get?_insert_of_ne _ _ hm, ⟨svc, rfl, rfl⟩, fun m hm => AList.get?_insert_of_ne _ _ hm⟩
  | true =>
    simp only [Bool.not_true, Bool.false_eq_true, if_false, Peers.touch, AList.get?_insert_self]
    simp only [true_and]
    refine ⟨rfl, ?_, ⟨svc, rfl, rfl⟩, fun m hm => AList.get?_insert_of_ne _ _ hm⟩
    intro m hm
    rw [AList.get?_insert_of_ne _ _ hm, AList.get?_insert_of_ne _ _ hm]

/-- C55, missing: beacons without a node name or with meaningless services (see below). A beacon of another node leaves
that node in the peer table as announced: its address, period and layers, exactly its services with known tags, no failures,
contact now; the router is told; no other entry changes and the task goes on. -/
theorem C55_beacon_recorded_partial (s : Rx) (now : Nat) (src : PeerAddress) (data : Bytes) (b : Beacon) (n : String)
    (ha : s.alive = true) (hd : fromSlice data = .ok b) (hs : ∀ sv ∈ b.block.services, Readable sv.1 sv.2)
    (hh : b.eid ≠ s.host) (hn : b.eid.node = some n) :
    (receive s now src data).alive = true ∧ (receive s now src data).notified = s.notified ++ [b.eid] ∧
    AList.get? (receive s now src data).peers n = some (announced now src b) ∧
    (∃ svc, AList.get? (receive s now src data).services n = some svc ∧
      ∀ tag v, (tag, v) ∈ svc ↔ ∃ p, (tag, p) ∈ b.block.services ∧ Carries tag p v) ∧
    ∀ m, m ≠ n → AList.get? (receive s now src data).peers m = AList.get? s.peers m ∧
      AList.get? (receive s now src data).services m = AList.get? s.services m := by
  obtain ⟨h1, h2, _, h3, h4, ⟨svc, h5, h6⟩, h7⟩ := receive_ok (now := now) (src := src) ha hd hs hh n hn
  obtain ⟨r, hr, hm⟩ := C53_decoding_partial b.block.services hs
  rw [h5] at hr
  cases hr
  exact ⟨h1, h2, h3, ⟨svc, h6, hm⟩, fun m hm => ⟨h4 m hm, h7 m hm⟩⟩

example : fromSlice (writeBeacon exBeacon) = .ok (back exBeacon) ∧
    (receive { host := .dtn "me" "" } 12 (.ipv4 "10.0.0.5") (writeBeacon exBeacon)).peers =
      [("n1", announced 12 (.ipv4 "10.0.0.5") (back exBeacon))] := by decide +kernel

/-- C55: a beacon of this node itself changes nothing in the peer table and is not reported. -/
theorem C55_own_beacon_ignored (s : Rx) (now : Nat) (src : PeerAddress) (data : Bytes) (b : Beacon)
    (hd : fromSlice data = .ok b) (hh : b.eid = s.host) :
    (receive s now src data).peers = s.peers ∧ (receive s now src data).notified = s.notified := by
  unfold receive
  rw [hd]
  cases s.alive with
  | false => exact ⟨rfl, rfl⟩
  | true =>
    simp only [Bool.not_true, Bool.false_eq_true, if_false]
    split
    · exact ⟨rfl, rfl⟩
    · exact ⟨rfl, rfl⟩
    · rw [if_pos hh]
      exact ⟨rfl, rfl⟩

example : fromSlice (writeBeacon exBeacon) = .ok (back exBeacon) ∧ (back exBeacon).eid = .dtn "n1" "" ∧
    (receive { host := .dtn "n1" "" } 12 (.ipv4 "10.0.0.5") (writeBeacon exBeacon)).peers = [] := by decide +kernel

/-- C55: data that are no beacon change nothing. -/
theorem C55_garbage_ignored (s : Rx) (now : Nat) (src : PeerAddress) (data : Bytes) (hd : fromSlice data = .err) :
    receive s now src data = s := by
  unfold receive
  rw [hd]
  cases s.alive <;> rfl

example : fromSlice [1, 2, 3] = .err ∧ fromSlice (writeBeacon exBeacon ++ [0]) = .err := by decide +kernel

/-- The peer table after a datagram: unchanged or with the announced peer of another node. -/
theorem receive_peers (s : Rx) (now : Nat) (src : PeerAddress) (data : Bytes) :
    (receive s now src data).host = s.host ∧
    ((receive s now src data).peers = s.peers ∨
      ∃ b n, fromSlice data = .ok b ∧ b.eid ≠ s.host ∧ b.eid.node = some n ∧
        AList.get? (receive s now src data).peers n = some (announced now src b) ∧
        ∀ m, m ≠ n → AList.get? (receive s now src data).peers m = AList.get? s.peers m) := by
  cases ha : s.alive with
  | false =>
    have : receive s now src data = s := by unfold receive; rw [ha]; rfl
    rw [this]
    exact ⟨rfl, .inl rfl⟩
  | true =>
    cases hd : fromSlice data with
    | err => rw [C55_garbage_ignored s now src data hd]; exact ⟨rfl, .inl rfl⟩
    | panic =>
      have : receive s now src data = { s with alive := false } := by unfold receive; rw [ha, hd]; rfl
      rw [this]
      exact ⟨rfl, .inl rfl⟩
    | ok b =>
      by_cases hs : ∀ sv ∈ b.block.services, Readable sv.1 sv.2
      · by_cases hh : b.eid = s.host
        · refine ⟨?_, .inl (C55_own_beacon_ignored s now src data b hd hh).1⟩
          unfold receive
          rw [ha, hd]
          simp only [Bool.not_true, Bool.false_eq_true, if_false]
          split
          · rfl
          · rfl
          · rw [if_pos hh]
        · cases hn : b.eid.node with
          | none =>
            obtain ⟨svc, hsvc⟩ := convert_ok hs
            have : receive s now src data = { s with alive := false } := by
              unfold receive
              rw [ha, hd]
              simp only [Bool.not_true, Bool.false_eq_true, if_false, hsvc, if_neg hh, Peers.add, Peer.new, hn]
            rw [this]
            exact ⟨rfl, .inl rfl⟩
          | some n =>
            obtain ⟨-, -, h3, h4, h5, -, -⟩ := receive_ok (now := now) (src := src) ha hd hs hh n hn
            exact ⟨h3, .inr ⟨b, n, rfl, hh, hn, h4, h5⟩⟩
      · have hp : convert b.block.services = .panic := by
          apply convert_panic
          by_cases he : ∃ sv ∈ b.block.services, ¬Readable sv.1 sv.2
          · exact he
          · exact absurd (fun sv hm => Classical.byContradiction fun hn => he ⟨sv, hm, hn⟩) hs
        have : receive s now src data = { s with alive := false } := by
          unfold receive
          rw [ha, hd]
          simp only [Bool.not_true, Bool.false_eq_true, if_false, hp]
        rw [this]
        exact ⟨rfl, .inl rfl⟩

/-- C55, missing: endpoints of this node other than its node id (see below). Whatever datagrams arrive, this node never
enters its own peer table. -/
theorem C55_never_own_peer_partial (host : EID) (ds : List Datagram) (n : String) (p : Peer)
    (h : AList.get? (receiveAll { host } ds).peers n = some p) : p.eid ≠ host := by
  have key : ∀ (ds : List Datagram) (s : Rx), s.host = host → (∀ n p, AList.get? s.peers n = some p → p.eid ≠ host) →
      ∀ n p, AList.get? (receiveAll s ds).peers n = some p → p.eid ≠ host := by
    intro ds
    induction ds with
    | nil => intro s _ h; exact h
    | cons d ds ih =>
      intro s hh hs
      obtain ⟨h1, h2⟩ := receive_peers s d.now d.src d.data
      refine ih (receive s d.now d.src d.data) (h1.trans hh) ?_
      intro n p hp
      rcases h2 with h2 | ⟨b, m, hb, hne, hn, hget, hother⟩
      · rw [h2] at hp
        exact hs n p hp
      · by_cases hm : n = m
        · rw [hm, hget] at hp
          cases hp
          rw [← hh]
          exact hne
        · rw [hother n hm] at hp
          exact hs n p hp
  exact key ds { host } rfl (fun n p hp => by simp at hp) n p h

example : (AList.get? (receiveAll { host := .dtn "me" "" } [⟨12, .ipv4 "10.0.0.5", writeBeacon exBeacon⟩,
    ⟨13, .ipv4 "10.0.0.1", writeBeacon (.new (.dtn "me" ""))⟩]).peers "n1").isSome = true := by decide +kernel

/-- C55 fails for other endpoints of this node: a beacon that names one of them creates an entry under this node's own
name, so bundles for this node's name are offered to the sender of the beacon. -/
theorem C55_own_name_taken_violated (node service : String) (now : Nat) (src : PeerAddress) (data : Bytes) (b : Beacon)
    (hd : fromSlice data = .ok b) (he : b.eid = .dtn node service) (hs : service ≠ "") (hsv : b.block.services = []) :
    AList.get? (receive { host := .dtn node "" } now src data).peers node = some (announced now src b) := by
  have := C55_beacon_recorded_partial { host := .dtn node "" } now src data b node rfl hd (by simp [hsv])
    (by rw [he]; simpa using hs) (by rw [he]; rfl)
  exact this.2.2.1

example : fromSlice (writeBeacon (.new (.dtn "me" "x"))) = .ok (.new (.dtn "me" "x")) := by decide +kernel

/-- After a panic nothing is received any more. -/
theorem receiveAll_dead (s : Rx) (h : s.alive = false) (ds : List Datagram) : receiveAll s ds = s := by
  induction ds generalizing s with
  | nil => rfl
  | cons d ds ih =>
    have : receive s d.now d.src d.data = s := by unfold receive; rw [h]; rfl
    show receiveAll (receive s d.now d.src d.data) ds = s
    rw [this, ih s h]

/-- C55, missing: the datagrams below. A datagram without an array of indefinite length does not stop the task unless it
is a beacon without node name or with a meaningless service. -/
theorem C55_receiver_survives_partial (s : Rx) (now : Nat) (src : PeerAddress) (data : Bytes) (ha : s.alive = true)
    (h9f : (0x9f : UInt8) ∉ data)
    (hb : ∀ b, fromSlice data = .ok b → b.eid ≠ .none ∧ ∀ sv ∈ b.block.services, Readable sv.1 sv.2) :
    (receive s now src data).alive = true := by
  cases hd : fromSlice data with
  | err => rw [C55_garbage_ignored s now src data hd]; exact ha
  | panic => exact absurd (fromSlice_panic hd) h9f
  | ok b =>
    obtain ⟨hnone, hs⟩ := hb b hd
    by_cases hh : b.eid = s.host
    · obtain ⟨svc, hsvc⟩ := convert_ok hs
      unfold receive
      rw [ha, hd]
      simp only [Bool.not_true, Bool.false_eq_true, if_false, hsvc, if_pos hh, ha]
    · have hn : ∃ n, b.eid.node = some n := by
        cases he : b.eid with
        | none => exact absurd he hnone
        | dtn n _ => exact ⟨n, rfl⟩
        | ipn n _ => exact ⟨_, rfl⟩
      obtain ⟨n, hn⟩ := hn
      exact (receive_ok (now := now) (src := src) ha hd hs hh n hn).1

example : (0x9f : UInt8) ∉ writeBeacon exBeacon := by decide +kernel

/-- C55 fails: a beacon with endpoint `dtn:none`, a beacon with a meaningless service and a beacon written as an array of
indefinite length each stop the task; no later beacon is recorded, whoever sends it. -/
theorem C55_receiver_stopped_violated (s : Rx) (now : Nat) (src : PeerAddress) (hh : s.host ≠ .none) :
    ∀ data ∈ [[0x84, 7, 1, 0x82, 1, 0, 0],
        [0x85, 7, 3, 0x82, 1, 0x65, 0x2f, 0x2f, 0x6e, 0x31, 0x2f, 0, 0x82, 0x80, 0xa1, 0x18, 0xbf, 0x80],
        [0x9f, 7, 1, 0x82, 1, 0x65, 0x2f, 0x2f, 0x6e, 0x31, 0x2f, 0, 0xff]],
      ∀ ds, (receiveAll (receive s now src data) ds).peers = s.peers ∧
        (receiveAll (receive s now src data) ds).notified = s.notified := by
  have stop : ∀ data, (receive s now src data = s ∧ s.alive = false ∨ receive s now src data = { s with alive := false }) →
      ∀ ds, (receiveAll (receive s now src data) ds).peers = s.peers ∧
        (receiveAll (receive s now src data) ds).notified = s.notified := by
    intro data h ds
    rcases h with ⟨h, ha⟩ | h
    · rw [h, receiveAll_dead s ha]; exact ⟨rfl, rfl⟩
    · rw [h, receiveAll_dead _ rfl]; exact ⟨rfl, rfl⟩
  intro data hm
  apply stop
  cases ha : s.alive with
  | false => exact .inl ⟨by unfold receive; rw [ha]; rfl, rfl⟩
  | true =>
    refine .inr ?_
    simp only [List.mem_cons, List.not_mem_nil, or_false] at hm
    rcases hm with rfl | rfl | rfl
    · have hd : fromSlice [0x84, 7, 1, 0x82, 1, 0, 0] = .ok (.new .none) := by decide +kernel
      unfold receive
      rw [ha, hd]
      simp only [Bool.not_true, Bool.false_eq_true, if_false]
      have hc : convert (Beacon.new .none).block.services = .ok [] := rfl
      rw [hc]
      dsimp only
      rw [if_neg (fun h => hh h.symm)]
      rfl
    · have hd : fromSlice [0x85, 7, 3, 0x82, 1, 0x65, 0x2f, 0x2f, 0x6e, 0x31, 0x2f, 0, 0x82, 0x80, 0xa1, 0x18, 0xbf, 0x80] =
          .ok { version := 7, flags := 3, eid := .dtn "n1" "", bsn := 0, block := { services := [(191, [])] }, period := none } := by
        decide +kernel
      unfold receive
      rw [ha, hd]
      rfl
    · have hd : fromSlice [0x9f, 7, 1, 0x82, 1, 0x65, 0x2f, 0x2f, 0x6e, 0x31, 0x2f, 0, 0xff] = .panic := by decide +kernel
      unfold receive
      rw [ha, hd]
      rfl

example : (receive { host := .dtn "me" "" } 0 (.ipv4 "10.0.0.9") [0x84, 7, 1, 0x82, 1, 0, 0]).alive = false ∧
    (receiveAll { host := .dtn "me" "" } [⟨12, .ipv4 "10.0.0.5", writeBeacon exBeacon⟩]).peers ≠ [] := by decide +kernel

/-! ## C79 -/

/-- Receiving keeps the peer table well formed. -/
theorem receive_inv {s : Rx} (hi : Peers.Inv s.peers) (now : Nat) (src : PeerAddress) (data : Bytes) :
    Peers.Inv (receive s now src data).peers := by
  unfold receive
  cases s.alive with
  | false => exact hi
  | true =>
    simp only [Bool.not_true, Bool.false_eq_true, if_false]
    split
    · exact hi
    · exact hi
    · next b _ =>
      split
      · exact hi
      · exact hi
      · split
        · exact hi
        · split
          · exact hi
          · next ps isNew hadd =>
            have h1 : Peers.Inv ps := by
              have := hi.step (.add (Peer.new now b.eid src .dynamic b.period b.block.clas))
              simp only [Peers.step, hadd] at this
              exact this
            dsimp only
            split
            · exact h1
            · exact h1.step (.touch now _)

/-- C79, missing: beacons of the node itself (see below). A static peer stays in the table, with its address and layers,
whatever failures, timeouts and beacons of other nodes happen, until it is added anew or removed. -/
theorem C79_static_peer_stays_partial (s : Rx) (evs : List Ev) (n : String) (p : Peer) (hi : Peers.Inv s.peers)
    (hp : AList.get? s.peers n = some p) (hstat : p.conType = .static)
    (hbeacon : ∀ d, .beacon d ∈ evs → ∀ b, fromSlice d.data = .ok b → b.eid.node ≠ some n)
    (hadd : ∀ q, .table (.add q) ∈ evs → q.eid.node ≠ some n) (hrem : .table (.remove n) ∉ evs) :
    ∃ q, AList.get? (run s evs).peers n = some q ∧ q.conType = .static ∧ q.eid = p.eid ∧ q.addr = p.addr ∧
      q.claList = p.claList := by
  induction evs generalizing s p with
  | nil => exact ⟨p, hp, hstat, rfl, rfl, rfl⟩
  | cons ev evs ih =>
    have rest : ∀ (s' : Rx) (p' : Peer), Peers.Inv s'.peers → AList.get? s'.peers n = some p' → p'.conType = .static →
        p'.eid = p.eid → p'.addr = p.addr → p'.claList = p.claList → step s ev = s' →
        ∃ q, AList.get? (run s (ev :: evs)).peers n = some q ∧ q.conType = .static ∧ q.eid = p.eid ∧ q.addr = p.addr ∧
          q.claList = p.claList := by
      intro s' p' hi' hp' hst' h1 h2 h3 hs
      obtain ⟨q, hq, ha, hb, hc, hd⟩ := ih s' p' hi' hp' hst' (fun d hm => hbeacon d (by simp [hm]))
        (fun q hm => hadd q (by simp [hm])) (fun hm => hrem (by simp [hm]))
      refine ⟨q, ?_, ha, hb.trans h1, hc.trans h2, hd.trans h3⟩
      show AList.get? (run (step s ev) evs).peers n = some q
      rw [hs]; exact hq
    cases ev with
    | beacon d =>
      have hinv : Peers.Inv (receive s d.now d.src d.data).peers := receive_inv hi _ _ _
      rcases (receive_peers s d.now d.src d.data).2 with h2 | ⟨b, m, hb, hne, hn, hget, hother⟩
      · exact rest _ p hinv (by rw [h2]; exact hp) hstat rfl rfl rfl rfl
      · have hm : n ≠ m := by
          intro e
          exact hbeacon d (by simp) b hb (by rw [hn, e])
        exact rest _ p hinv (by rw [hother n hm]; exact hp) hstat rfl rfl rfl rfl
    | table op =>
      have hinv := hi.step op
      have hget := Peers.get?_step hi op n
      rw [hp] at hget
      cases op with
      | add q =>
        have hq := hadd q (by simp)
        simp only [Spec.entry, if_neg hq] at hget
        exact rest _ p hinv hget hstat rfl rfl rfl rfl
      | remove m =>
        have hm : m ≠ n := by intro e; exact hrem (by simp [e])
        simp only [Spec.entry, if_neg hm] at hget
        exact rest _ p hinv hget hstat rfl rfl rfl rfl
      | touch now m =>
        by_cases hm : m = n
        · simp only [Spec.entry, if_pos hm, Option.map_some] at hget
          exact rest _ { p with lastContact := now } hinv hget hstat rfl rfl rfl rfl
        · simp only [Spec.entry, if_neg hm] at hget
          exact rest _ p hinv hget hstat rfl rfl rfl rfl
      | check cfg now =>
        have hal : Spec.Alive cfg now p := .inl hstat
        simp only [Spec.entry, if_pos hal] at hget
        exact rest _ p hinv hget hstat rfl rfl rfl rfl
      | fail m =>
        by_cases hm : m = n
        · have hnd : ¬(p.conType = .dynamic ∧ 4 ≤ (p.fails + 1) % 2 ^ 16) := by rw [hstat]; rintro ⟨h, _⟩; cases h
          simp only [Spec.entry, if_pos hm, if_neg hnd] at hget
          exact rest _ { p with fails := (p.fails + 1) % 2 ^ 16 } hinv hget hstat rfl rfl rfl rfl
        · simp only [Spec.entry, if_neg hm] at hget
          exact rest _ p hinv hget hstat rfl rfl rfl rfl

/-- A static peer for the examples. -/
def exStaticN1 : Peer := Peer.new 0 (.dtn "n1" "") (.ipv4 "10.0.0.7") .static none [("mtcp", some 16162)]

example : ∃ evs : List Ev, evs = [.beacon ⟨5, .ipv4 "10.0.0.9", writeBeacon (.new (.dtn "n2" ""))⟩, .table (.fail "n1"),
      .table (.check ⟨20, false⟩ 5000)] ∧
    (AList.get? (run { host := .dtn "me" "", peers := [("n1", exStaticN1)] } evs).peers "n1").map (·.fails) = some 1 :=
  ⟨_, rfl, by decide +kernel⟩

/-- C79 fails: a beacon of a statically configured node replaces its entry by a dynamic one, with the address the beacon
came from; when no further beacon comes, the periodic check drops the peer although it was configured statically. -/
theorem C79_static_peer_lost_violated (host : EID) (ps : Peers) (n : String) (hne : host ≠ .dtn n "")
    (now later : Nat) (src : PeerAddress) (cfg : PeerCfg) (hlate : cfg.timeout ≤ later - now) (data : Bytes)
    (hd : fromSlice data = .ok (.new (.dtn n ""))) (hi : Peers.Inv ps) :
    (∃ q, AList.get? (run { host, peers := ps } [.beacon ⟨now, src, data⟩]).peers n = some q ∧ q.conType = .dynamic ∧
      q.addr = src) ∧
    AList.get? (run { host, peers := ps } [.beacon ⟨now, src, data⟩, .table (.check cfg later)]).peers n = none := by
  have h := C55_beacon_recorded_partial { host, peers := ps } now src data (.new (.dtn n "")) n rfl hd
    (by simp [Beacon.new]) (fun h => hne h.symm) rfl
  refine ⟨⟨_, h.2.2.1, rfl, rfl⟩, ?_⟩
  have hinv : Peers.Inv (receive { host, peers := ps } now src data).peers := receive_inv (s := { host, peers := ps }) hi _ _ _
  show AList.get? (Peers.step (receive { host, peers := ps } now src data).peers (.check cfg later)) n = none
  rw [Peers.get?_step hinv, h.2.2.1]
  have hdead : ¬Spec.Alive cfg later (announced now src (.new (.dtn n ""))) := by
    rintro (h | h)
    · cases h
    · have hlt : Spec.silence later (announced now src (.new (.dtn n ""))) < cfg.timeout := h
      unfold Spec.silence at hlt
      have hc : (announced now src (.new (.dtn n ""))).lastContact = now := rfl
      rw [hc] at hlt
      split at hlt <;> omega
  simp only [Spec.entry, if_neg hdead]

example : fromSlice (writeBeacon (.new (.dtn "n1" ""))) = .ok (.new (.dtn "n1" "")) ∧
    Peers.Inv [("n1", exStaticN1)] := by
  refine ⟨by decide +kernel, ?_⟩
  have := Peers.Inv.nil.step (.add exStaticN1)
  simpa [Peers.step, Peers.add, exStaticN1, Peer.new, EID.node, AList.insert, AList.erase] using this

end Dtn.Props
