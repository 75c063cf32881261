import Verif.Lemmas.WebWhole
import Verif.Spec.WebPages
/-! The texts on the pages. -/

namespace Dtn.WebPages
open Spec Spec.Html

theorem shown_value (s : String) : String.ofList (text (escape s)) = s := by
  rw [text_value, String.ofList_toList]

theorem shown_prefixed (a s : String) (h : '&' ∉ a.toList) : String.ofList (text (a.toList ++ escape s)) = a ++ s := by
  rw [text_plain h, text_value, ← String.toList_append, String.ofList_toList]

theorem shown_between (a s b : String) (h : '&' ∉ a.toList) (hb : '&' ∉ b.toList) :
    String.ofList (text (a.toList ++ escape s ++ b.toList)) = a ++ s ++ b := by
  rw [List.append_assoc, text_plain h, text_escape, text_of_plain hb, ← List.append_assoc, ← String.toList_append, ← String.toList_append,
    String.ofList_toList]

theorem shown_plain (s : String) (h : '&' ∉ s.toList) : String.ofList (text s.toList) = s := by
  rw [text_of_plain h, String.ofList_toList]

theorem text_clas (l : List String) : text (l.flatMap fun cla => ' ' :: (escape cla ++ [' '])) =
    l.flatMap fun cla => ' ' :: (cla.toList ++ [' ']) := by
  induction l with
  | nil => rfl
  | cons c l ih =>
    rw [List.flatMap_cons, List.flatMap_cons, ← ih, List.cons_append, text_cons (by decide +kernel), List.append_assoc, text_escape,
      List.singleton_append, text_cons (by decide +kernel)]
    simp

theorem shown_clas (l : List String) : String.ofList (text ("CLAs: ".toList ++ l.flatMap fun cla => ' ' :: (escape cla ++ [' ']))) =
    "CLAs: " ++ String.join (l.map fun cla => " " ++ cla ++ " ") := by
  rw [text_plain (by decide +kernel), text_clas]
  apply String.toList_inj.mp
  rw [String.toList_ofList, String.toList_append]
  congr 1
  induction l with
  | nil => rfl
  | cons c l ih => simp [String.join_cons, ih]

theorem hex_harmless : ∀ n < 16, JsonText.lowHex n ≠ '<' ∧ JsonText.lowHex n ≠ '&' := by decide

theorem jsonChar_harmless {c d : Char} (h : d ∈ JsonText.jsonChar c) (h1 : c ≠ '<') (h2 : c ≠ '&') : d ≠ '<' ∧ d ≠ '&' := by
  unfold JsonText.jsonChar at h
  split at h
  · exact (by decide +kernel : ∀ d ∈ ['\\', '"'], d ≠ '<' ∧ d ≠ '&') d h
  split at h
  · exact (by decide +kernel : ∀ d ∈ ['\\', '\\'], d ≠ '<' ∧ d ≠ '&') d h
  split at h
  · exact (by decide +kernel : ∀ d ∈ ['\\', 'b'], d ≠ '<' ∧ d ≠ '&') d h
  split at h
  · exact (by decide +kernel : ∀ d ∈ ['\\', 't'], d ≠ '<' ∧ d ≠ '&') d h
  split at h
  · exact (by decide +kernel : ∀ d ∈ ['\\', 'n'], d ≠ '<' ∧ d ≠ '&') d h
  split at h
  · exact (by decide +kernel : ∀ d ∈ ['\\', 'f'], d ≠ '<' ∧ d ≠ '&') d h
  split at h
  · exact (by decide +kernel : ∀ d ∈ ['\\', 'r'], d ≠ '<' ∧ d ≠ '&') d h
  split at h
  · rename_i hlt
    simp only [List.mem_cons, List.not_mem_nil, or_false] at h
    rcases h with rfl | rfl | rfl | rfl | rfl | rfl
    · decide
    · decide
    · decide
    · decide
    · exact hex_harmless _ (by omega)
    · exact hex_harmless _ (by omega)
  · rw [List.mem_singleton] at h; subst h; exact ⟨h1, h2⟩

theorem jsonString_harmless {s : String} (h1 : '<' ∉ s.toList) (h2 : '&' ∉ s.toList) {d : Char} (h : d ∈ JsonText.jsonString s) :
    d ≠ '<' ∧ d ≠ '&' := by
  unfold JsonText.jsonString at h
  rcases List.mem_cons.mp h with rfl | h
  · decide
  rcases List.mem_append.mp h with h | h
  · obtain ⟨c, hc, h⟩ := List.mem_flatMap.mp h
    exact jsonChar_harmless h (fun e => h1 (e ▸ hc)) (fun e => h2 (e ▸ hc))
  · rw [List.mem_singleton] at h; subst h; decide


theorem address_chars (a : PeerAddress) : Serde.chars (RouterJson.addrValue a) = (addressText a).toList := by
  have e1 : "{\"Ip\":".toList = '{' :: (JsonText.jsonString "Ip" ++ [':']) := by decide +kernel
  have e2 : "{\"Generic\":".toList = '{' :: (JsonText.jsonString "Generic" ++ [':']) := by decide +kernel
  have e3 : "{\"BroadcastGeneric\":[".toList = '{' :: (JsonText.jsonString "BroadcastGeneric" ++ [':', '[']) := by decide +kernel
  have e4 : "}".toList = ['}'] := by decide +kernel
  have e5 : "]}".toList = [']', '}'] := by decide +kernel
  unfold addressText
  rw [String.toList_ofList]
  cases a with
  | ipv4 a =>
    show Serde.chars (.obj [("Ip", .str a)]) = "{\"Ip\":".toList ++ [','].intercalate [JsonText.jsonString a] ++ "}".toList
    rw [e1, e4, Serde.chars, Serde.fieldChars, Serde.moreFields, Serde.chars]
    generalize JsonText.jsonString "Ip" = k
    simp
  | ipv6 a =>
    show Serde.chars (.obj [("Ip", .str a)]) = "{\"Ip\":".toList ++ [','].intercalate [JsonText.jsonString a] ++ "}".toList
    rw [e1, e4, Serde.chars, Serde.fieldChars, Serde.moreFields, Serde.chars]
    generalize JsonText.jsonString "Ip" = k
    simp
  | generic a =>
    show Serde.chars (.obj [("Generic", .str a)]) = "{\"Generic\":".toList ++ [','].intercalate [JsonText.jsonString a] ++ "}".toList
    rw [e2, e4, Serde.chars, Serde.fieldChars, Serde.moreFields, Serde.chars]
    generalize JsonText.jsonString "Generic" = k
    simp
  | broadcastGeneric d a =>
    show Serde.chars (.obj [("BroadcastGeneric", .list [.str d, .str a])]) = "{\"BroadcastGeneric\":[".toList ++
      [','].intercalate [JsonText.jsonString d, JsonText.jsonString a] ++ "]}".toList
    rw [e3, e5, Serde.chars, Serde.fieldChars, Serde.moreFields, Serde.chars, Serde.chars, Serde.moreItems, Serde.moreItems, Serde.chars]
    generalize JsonText.jsonString "BroadcastGeneric" = k
    simp [List.intercalate]

theorem address_harmless {a : PeerAddress} (h : HarmlessAddress a) {d : Char} (hd : d ∈ (addressText a).toList) : d ≠ '<' ∧ d ≠ '&' := by
  have hk : ∀ a : PeerAddress, (∀ d ∈ (addressKind a).1.toList, d ≠ '<' ∧ d ≠ '&') ∧ ∀ d ∈ (addressKind a).2.toList, d ≠ '<' ∧ d ≠ '&' := by
    intro a
    have k1 : ∀ d ∈ "{\"Ip\":".toList, d ≠ '<' ∧ d ≠ '&' := by decide +kernel
    have k2 : ∀ d ∈ "{\"Generic\":".toList, d ≠ '<' ∧ d ≠ '&' := by decide +kernel
    have k3 : ∀ d ∈ "{\"BroadcastGeneric\":[".toList, d ≠ '<' ∧ d ≠ '&' := by decide +kernel
    have k4 : ∀ d ∈ "}".toList, d ≠ '<' ∧ d ≠ '&' := by decide +kernel
    have k5 : ∀ d ∈ "]}".toList, d ≠ '<' ∧ d ≠ '&' := by decide +kernel
    cases a with
    | ipv4 a => exact ⟨k1, k4⟩
    | ipv6 a => exact ⟨k1, k4⟩
    | generic a => exact ⟨k2, k4⟩
    | broadcastGeneric d a => exact ⟨k3, k5⟩
  have hj : ∀ l : List String, (∀ s ∈ l, '<' ∉ s.toList ∧ '&' ∉ s.toList) → ∀ d ∈ [','].intercalate (l.map JsonText.jsonString),
      d ≠ '<' ∧ d ≠ '&' := by
    intro l hl d hd
    rw [List.intercalate] at hd
    obtain ⟨x, hx, hx'⟩ := List.mem_flatten.mp hd
    have : x ∈ l.map JsonText.jsonString ∨ x = [','] := by
      clear hd hx'
      induction l with
      | nil => cases hx
      | cons s l ih =>
        cases l with
        | nil =>
          simp only [List.map_cons, List.map_nil, List.intersperse_singleton] at hx
          exact .inl hx
        | cons t l =>
          simp only [List.map_cons, List.intersperse_cons_cons] at hx
          rcases List.mem_cons.mp hx with hx | hx
          · exact .inl (by rw [hx]; exact List.mem_cons_self)
          · rcases List.mem_cons.mp hx with hx | hx
            · exact .inr hx
            · rcases ih (fun s hs => hl s (List.mem_cons_of_mem _ hs)) hx with h | h
              · exact .inl (List.mem_cons_of_mem _ h)
              · exact .inr h
    rcases this with hx | rfl
    · obtain ⟨s, hs, rfl⟩ := List.mem_map.mp hx
      exact jsonString_harmless (hl s hs).1 (hl s hs).2 hx'
    · rw [List.mem_singleton] at hx'; subst hx'; decide
  unfold addressText at hd
  rw [String.toList_ofList] at hd
  rcases List.mem_append.mp hd with hd | hd
  · rcases List.mem_append.mp hd with hd | hd
    · exact (hk a).1 d hd
    · exact hj _ h d hd
  · exact (hk a).2 d hd

theorem flatMap_same {α β : Type} {l : List α} {f g : α → List β} (h : ∀ x ∈ l, f x = g x) : l.flatMap f = l.flatMap g := by
  induction l with
  | nil => rfl
  | cons x l ih =>
    rw [List.flatMap_cons, List.flatMap_cons, h x List.mem_cons_self, ih fun y hy => h y (List.mem_cons_of_mem _ hy)]

theorem takeWhile_all {α : Type} {l : List α} {p : α → Bool} (h : ∀ x ∈ l, p x = true) : l.takeWhile p = l := by
  induction l with
  | nil => rfl
  | cons x l ih => rw [List.takeWhile_cons, if_pos (h x List.mem_cons_self), ih fun y hy => h y (List.mem_cons_of_mem _ hy)]

end Dtn.WebPages
