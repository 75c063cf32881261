import Verif.Spec.PeerUrl
import Verif.Lemmas.StaticRouting

namespace Dtn.PeerUrl
open Spec.PeerUrlSpec Routing

theorem takeWhile_stop {p : Char → Bool} (a b : List Char) (ha : ∀ c ∈ a, p c = true) (hb : ∀ c, b.head? = some c → p c = false) :
    (a ++ b).takeWhile p = a ∧ (a ++ b).dropWhile p = b := by
  induction a with
  | nil =>
    cases b with
    | nil => exact ⟨rfl, rfl⟩
    | cons c b => simp [hb c rfl]
  | cons c a ih =>
    have := ih fun c h => ha c (List.mem_cons_of_mem _ h)
    simp [ha c List.mem_cons_self, this]

theorem toString_digits (n : Nat) : (toString n).toList = Nat.toDigits 10 n := by
  show (Nat.repr n).toList = _
  simp [Nat.repr]

theorem digit_of_mem {n : Nat} {c : Char} (h : c ∈ (toString n).toList) : '0' ≤ c ∧ c ≤ '9' := by
  rw [toString_digits] at h; exact StaticRouting.toDigits_digit n c h

theorem digits_toString (n : Nat) : StaticRouting.digits 0 (toString n).toList = some n := by
  rw [toString_digits, StaticRouting.digits_eq _ _ (StaticRouting.toDigits_digit n), Nat.ofDigitChars_ten_toDigits]

theorem toString_ne_nil (n : Nat) : (toString n).toList ≠ [] := by
  rw [toString_digits]; exact Nat.toDigits_ne_nil

/-- Characters with a meaning in URLs. -/
def delims : List Char := [':', '/', '?', '#', '@', '[', ']']

theorem plain_not_delim {s : List Char} (h : Plain s) : ∀ c ∈ s, c ∉ delims := by
  intro c hc hd
  have := h c hc
  simp only [delims, List.mem_cons, List.not_mem_nil, or_false] at hd
  rcases hd with rfl | rfl | rfl | rfl | rfl | rfl | rfl <;> revert this <;> decide

theorem portText_portPart (port : Option Nat) (h : ∀ p, port = some p → p ≤ 65535) : portText (portPart port) = some port := by
  cases port with
  | none => rfl
  | some p =>
    unfold portPart portText
    simp only [if_true]
    rw [if_neg (toString_ne_nil p), digits_toString]
    simp [h p rfl]

theorem portPart_chars (port : Option Nat) : ∀ c ∈ portPart port, c = ':' ∨ ('0' ≤ c ∧ c ≤ '9') := by
  intro c hc
  cases port with
  | none => cases hc
  | some p =>
    rcases List.mem_cons.mp hc with h | h
    · exact Or.inl h
    · exact Or.inr (digit_of_mem h)

theorem digit_not {c : Char} (h : '0' ≤ c ∧ c ≤ '9') : c ≠ '/' ∧ c ≠ '?' ∧ c ≠ '#' ∧ c ≠ '@' ∧ c ≠ ']' := by
  refine ⟨?_, ?_, ?_, ?_, ?_⟩ <;> (rintro rfl; revert h; decide)

/-- Reading the authority and path of a written URL. -/
theorem parse_auth (scheme rest : List Char) (hs : ∀ c ∈ scheme, schemeChar c = true)
    (hh : ∃ c, scheme.head? = some c ∧ isAlpha c = true) :
    (scheme ++ ':' :: rest).takeWhile schemeChar = scheme ∧ (scheme ++ ':' :: rest).dropWhile schemeChar = ':' :: rest ∧
    (scheme.head?.map isAlpha).getD false = true := by
  obtain ⟨c, h1, h2⟩ := hh
  obtain ⟨a, b⟩ := takeWhile_stop scheme (':' :: rest) hs (by intro c hc; cases hc; decide)
  exact ⟨a, b, by rw [h1]; simp [h2]⟩

/-- Host text as it may stand in a written URL: a plain name or an IPv6 address in brackets. -/
def HostText (host : List Char) : Prop :=
  (host ≠ [] ∧ ∀ c ∈ host, c ∉ delims) ∨ ∃ t, host = '[' :: t ++ [']'] ∧ ∀ c ∈ t, c ∉ ['/', '?', '#', '@', ']']

theorem splitHost_host (host port : List Char) (hh : HostText host) (hp : port = [] ∨ ∃ t, port = ':' :: t) :
    splitHost (host ++ port) = (host, port) := by
  rcases hh with ⟨hne, hd⟩ | ⟨t, rfl, ht⟩
  · obtain ⟨a, b⟩ := takeWhile_stop (p := fun c => decide (c ≠ ':')) host port
      (by intro c hc; have := hd c hc; simp [delims] at this; simp [this.1])
      (by intro c hc; rcases hp with rfl | ⟨t, rfl⟩
          · cases hc
          · cases hc; decide)
    cases host with
    | nil => exact absurd rfl hne
    | cons c host =>
      have hc : c ≠ '[' := by
        have := hd c List.mem_cons_self
        rintro rfl; exact this (by simp [delims])
      have : splitHost (c :: host ++ port) =
          ((c :: host ++ port).takeWhile (· ≠ ':'), (c :: host ++ port).dropWhile (· ≠ ':')) := by
        unfold splitHost
        split
        · rename_i h; simp at h; exact absurd h.1 hc
        · rfl
      rw [this]
      exact Prod.ext a b
  · obtain ⟨a, b⟩ := takeWhile_stop (p := fun c => decide (c ≠ ']')) ('[' :: t) (']' :: port)
      (by intro c hc
          rcases List.mem_cons.mp hc with rfl | hc
          · decide
          · have := ht c hc; simp at this; simp [this])
      (by intro c hc; cases hc; decide)
    have e : '[' :: t ++ [']'] ++ port = '[' :: t ++ (']' :: port) := by simp
    rw [e]
    have : splitHost ('[' :: t ++ (']' :: port)) = (('[' :: t ++ (']' :: port)).takeWhile (· ≠ ']') ++ [']'],
        (('[' :: t ++ (']' :: port)).dropWhile (· ≠ ']')).tail) := rfl
    rw [this]
    exact Prod.ext (by dsimp only; rw [a]) (by dsimp only; rw [b]; rfl)

/-- Reading a URL with any text behind the host that may stand there. -/
theorem parse_text (scheme host path pt : List Char) (hs : ∀ c ∈ scheme, schemeChar c = true)
    (ha : ∃ c, scheme.head? = some c ∧ isAlpha c = true) (hh : HostText host)
    (hpath : path = [] ∨ ∃ t, path = '/' :: t) (hpt : pt = [] ∨ ∃ t, pt = ':' :: t)
    (hpc : ∀ c ∈ pt, c ≠ '/' ∧ c ≠ '?' ∧ c ≠ '#' ∧ c ≠ '@') :
    Url.parse (scheme ++ "://".toList ++ host ++ pt ++ path) = (match portText pt with
      | none => none
      | some port => some
        { scheme := scheme.map Char.toLower
          host := some (if (defaultPort (scheme.map Char.toLower)).isSome then host.map Char.toLower else host)
          port := if port = defaultPort (scheme.map Char.toLower) then none else port
          path := if (defaultPort (scheme.map Char.toLower)).isSome && (path.takeWhile fun c => c ≠ '?' && c ≠ '#').isEmpty then ['/']
            else path.takeWhile fun c => c ≠ '?' && c ≠ '#' }) := by
  have eu : scheme ++ "://".toList ++ host ++ pt ++ path = scheme ++ ':' :: ('/' :: '/' :: ((host ++ pt) ++ path)) := by
    have : "://".toList = [':', '/', '/'] := rfl
    rw [this]; simp
  obtain ⟨e1, e2, e3⟩ := parse_auth scheme ('/' :: '/' :: ((host ++ pt) ++ path)) hs ha
  have hostc : ∀ c ∈ host, c ≠ '/' ∧ c ≠ '?' ∧ c ≠ '#' ∧ c ≠ '@' := by
    intro c hc
    rcases hh with ⟨_, hd⟩ | ⟨t, rfl, ht⟩
    · have := hd c hc
      simp [delims] at this
      exact ⟨this.2.1, this.2.2.1, this.2.2.2.1, this.2.2.2.2.1⟩
    · simp only [List.mem_append, List.mem_cons, List.not_mem_nil, or_false] at hc
      rcases hc with (rfl | hc) | rfl
      · decide
      · have := ht c hc
        simp at this
        exact ⟨this.1, this.2.1, this.2.2.1, this.2.2.2.1⟩
      · decide
  have authc : ∀ c ∈ host ++ pt, c ≠ '/' ∧ c ≠ '?' ∧ c ≠ '#' ∧ c ≠ '@' := by
    intro c hc
    rcases List.mem_append.mp hc with hc | hc
    · exact hostc c hc
    · exact hpc c hc
  obtain ⟨f1, f2⟩ := takeWhile_stop (p := fun c => c ≠ '/' && c ≠ '?' && c ≠ '#') (host ++ pt) path
    (by intro c hc; obtain ⟨a, b, d, _⟩ := authc c hc; simp [a, b, d])
    (by intro c hc; rcases hpath with rfl | ⟨t, rfl⟩
        · cases hc
        · cases hc; decide)
  have f4 : ((host ++ pt).reverse.takeWhile (· ≠ '@')).reverse = host ++ pt := by
    have := (takeWhile_stop (p := fun c => decide (c ≠ '@')) (host ++ pt).reverse []
      (by intro c hc; obtain ⟨_, _, _, a⟩ := authc c (List.mem_reverse.mp hc); simp [a]) (by intro c hc; cases hc)).1
    rw [List.append_nil] at this
    rw [this, List.reverse_reverse]
  have f5 := splitHost_host host (pt) hh hpt
  have hne : host ≠ [] := by
    rcases hh with ⟨hne, _⟩ | ⟨t, rfl, _⟩
    · exact hne
    · simp
  have f6 : (host ++ pt ++ path).dropWhile (· = '/') = host ++ pt ++ path := by
    cases host with
    | nil => exact absurd rfl hne
    | cons c host => simp [(hostc c List.mem_cons_self).1]
  have e4 : Url.parse (scheme ++ ':' :: ('/' :: '/' :: ((host ++ pt) ++ path))) =
      Url.authority (scheme.map Char.toLower) (host ++ pt ++ path) := by
    unfold Url.parse
    dsimp only
    rw [e1, e2]
    simp only
    rw [if_pos e3]
    split
    · have : ∀ t : List Char, ('/' :: '/' :: t).dropWhile (· = '/') = t.dropWhile (· = '/') := fun t => by simp
      rw [this, f6]
    · rfl
  rw [eu, e4]
  unfold Url.authority
  dsimp only
  rw [f1, f2, f4, f5]
  dsimp only
  cases portText pt with
  | none => rfl
  | some p => simp only; rw [if_neg hne]

theorem parse_written (scheme host path : List Char) (port : Option Nat) (hs : ∀ c ∈ scheme, schemeChar c = true)
    (ha : ∃ c, scheme.head? = some c ∧ isAlpha c = true) (hh : HostText host)
    (hpath : path = [] ∨ ∃ t, path = '/' :: t) :
    Url.parse (url scheme host port path) = (match portText (portPart port) with
      | none => none
      | some port => some
        { scheme := scheme.map Char.toLower
          host := some (if (defaultPort (scheme.map Char.toLower)).isSome then host.map Char.toLower else host)
          port := if port = defaultPort (scheme.map Char.toLower) then none else port
          path := if (defaultPort (scheme.map Char.toLower)).isSome && (path.takeWhile fun c => c ≠ '?' && c ≠ '#').isEmpty then ['/']
            else path.takeWhile fun c => c ≠ '?' && c ≠ '#' }) := by
  refine parse_text scheme host path (portPart port) hs ha hh hpath (by cases port; exact Or.inl rfl; exact Or.inr ⟨_, rfl⟩) ?_
  intro c hc
  rcases portPart_chars port c hc with rfl | hd
  · decide
  · obtain ⟨a, b, d, e, _⟩ := digit_not hd
    exact ⟨a, b, d, e⟩

theorem parse_url (scheme host path : List Char) (port : Option Nat) (hs : ∀ c ∈ scheme, schemeChar c = true)
    (ha : ∃ c, scheme.head? = some c ∧ isAlpha c = true) (hh : HostText host) (hp : ∀ p, port = some p → p ≤ 65535)
    (hpath : path = [] ∨ ∃ t, path = '/' :: t) (hq : ∀ c ∈ path, c ≠ '?' ∧ c ≠ '#') :
    Url.parse (url scheme host port path) = some
      { scheme := scheme.map Char.toLower
        host := some (if (defaultPort (scheme.map Char.toLower)).isSome then host.map Char.toLower else host)
        port := if port = defaultPort (scheme.map Char.toLower) then none else port
        path := if (defaultPort (scheme.map Char.toLower)).isSome && path.isEmpty then ['/'] else path } := by
  have f3 : path.takeWhile (fun c => c ≠ '?' && c ≠ '#') = path := by
    have := (takeWhile_stop (p := fun c => c ≠ '?' && c ≠ '#') path []
      (by intro c hc; obtain ⟨a, b⟩ := hq c hc; simp [a, b]) (by intro c hc; cases hc)).1
    simpa using this
  rw [parse_written scheme host path port hs ha hh hpath, portText_portPart port hp, f3]

theorem parse_url_badport (scheme host path : List Char) (n : Nat) (hs : ∀ c ∈ scheme, schemeChar c = true)
    (ha : ∃ c, scheme.head? = some c ∧ isAlpha c = true) (hh : HostText host) (hn : 65535 < n)
    (hpath : path = [] ∨ ∃ t, path = '/' :: t) : Url.parse (url scheme host (some n) path) = none := by
  rw [parse_written scheme host path _ hs ha hh hpath]
  have : portText (portPart (some n)) = none := by
    unfold portPart portText
    simp only [if_true]
    rw [if_neg (toString_ne_nil n), digits_toString]
    simp only
    rw [if_neg (by omega)]
  rw [this]

theorem map_toLower_of_lower {s : List Char} (h : Lower s) : s.map Char.toLower = s := by
  induction s with
  | nil => rfl
  | cons c s ih =>
    rw [List.map_cons, ih fun c hc => h c (List.mem_cons_of_mem _ hc)]
    congr 1
    have := h c List.mem_cons_self
    unfold Char.toLower
    rw [dif_neg]
    rintro ⟨h1, h2⟩
    exact this ⟨h1, h2⟩

theorem layer_facts {s : List Char} (h : s ∈ layers) : isCla s = true ∧ (∀ c ∈ s, schemeChar c = true) ∧
    (∃ c, s.head? = some c ∧ isAlpha c = true) ∧ s.map Char.toLower = s ∧ "ecla+".toList.isPrefixOf (s ++ [':']) = false ∧
    (defaultPort s = if s = "http".toList then some 80 else none) := by
  simp only [layers, List.mem_cons, List.not_mem_nil, or_false] at h
  rcases h with rfl | rfl | rfl | rfl | rfl | rfl | rfl <;>
    exact ⟨by decide, by decide, ⟨_, rfl, by decide⟩, by decide, by decide, by decide⟩

theorem prefix_short {p s t : List Char} (h : p.length ≤ s.length) : p.isPrefixOf (s ++ t) = p.isPrefixOf s := by
  induction p generalizing s with
  | nil => simp [List.isPrefixOf]
  | cons c p ih =>
    cases s with
    | nil => simp at h
    | cons d s =>
      simp only [List.cons_append, List.isPrefixOf]
      rw [ih (by simpa using h)]

theorem prefix_long {p s t : List Char} (h : p.isPrefixOf s = false) (hc : ∀ c, (s ++ t)[s.length]? = some c → p[s.length]? ≠ some c)
    (ht : t ≠ []) : p.isPrefixOf (s ++ t) = false := by
  induction p generalizing s with
  | nil => simp [List.isPrefixOf] at h
  | cons c p ih =>
    cases s with
    | nil =>
      cases t with
      | nil => exact absurd rfl ht
      | cons d t =>
        have := hc d (by simp)
        simp only [List.length_nil, List.getElem?_cons_zero, ne_eq, Option.some.injEq] at this
        simp [List.isPrefixOf, this]
    | cons d s =>
      simp only [List.cons_append, List.isPrefixOf]
      simp only [List.isPrefixOf, Bool.and_eq_false_iff] at h
      rw [Bool.and_eq_false_iff]
      rcases h with h | h
      · exact Or.inl h
      · right
        apply ih h
        intro c' hc'
        have := hc c' (by simpa using hc')
        simpa using this

theorem not_external {s : List Char} (h : s ∈ layers) (t : List Char) : "ecla+".toList.isPrefixOf (s ++ ':' :: t) = false := by
  have e := (layer_facts h).2.2.2.2.1
  have : s ++ ':' :: t = s ++ [':'] ++ t := by simp
  rw [this]
  by_cases hl : 5 ≤ (s ++ [':']).length
  · rw [prefix_short (by simpa using hl)]; exact e
  · simp only [layers, List.mem_cons, List.not_mem_nil, or_false] at h
    rcases h with rfl | rfl | rfl | rfl | rfl | rfl | rfl <;>
      first
        | exact absurd (by decide) hl
        | rfl

/-! ### IPv4 addresses -/

theorem splitDots_part (p : List Char) (hp : ∀ c ∈ p, c ≠ '.') (s : List Char) : splitDots (p ++ '.' :: s) = p :: splitDots s := by
  induction p with
  | nil => simp [splitDots]
  | cons c p ih =>
    rw [List.cons_append, splitDots, if_neg (hp c List.mem_cons_self), ih fun c h => hp c (List.mem_cons_of_mem _ h)]

theorem splitDots_last (p : List Char) (hp : ∀ c ∈ p, c ≠ '.') : splitDots p = [p] := by
  induction p with
  | nil => rfl
  | cons c p ih =>
    rw [splitDots, if_neg (hp c List.mem_cons_self), ih fun c h => hp c (List.mem_cons_of_mem _ h)]

set_option maxRecDepth 10000 in
theorem octets : ∀ a : Fin 256, isOctet (toString a.val).toList = true := by decide +kernel

theorem octet_nodot (a : UInt8) : ∀ c ∈ (toString a.toNat).toList, c ≠ '.' := by
  intro c hc
  have := digit_of_mem hc
  rintro rfl; revert this; decide

theorem isIpv4_ip4 (a b c d : UInt8) : isIpv4 (ip4 a b c d) = true := by
  have e : splitDots (ip4 a b c d) = [(toString a.toNat).toList, (toString b.toNat).toList, (toString c.toNat).toList,
      (toString d.toNat).toList] := by
    unfold ip4
    rw [List.append_assoc, List.append_assoc, List.cons_append, List.cons_append]
    rw [splitDots_part _ (octet_nodot a), splitDots_part _ (octet_nodot b), splitDots_part _ (octet_nodot c), splitDots_last _ (octet_nodot d)]
  unfold isIpv4
  rw [e]
  have o : ∀ a : UInt8, isOctet (toString a.toNat).toList = true := fun a => octets ⟨a.toNat, a.toNat_lt⟩
  simp only [List.all_cons, List.all_nil, o]
  rfl

theorem isIpv4_false {s : List Char} (h : ∃ c ∈ s, c ≠ '.' ∧ ¬ ('0' ≤ c ∧ c ≤ '9')) : isIpv4 s = false := by
  have dig : ∀ (p : List Char) acc n, StaticRouting.digits acc p = some n → ∀ c ∈ p, '0' ≤ c ∧ c ≤ '9' := by
    intro p
    induction p with
    | nil => intro _ _ _ c hc; cases hc
    | cons d p ih =>
      intro acc n hn c hc
      unfold StaticRouting.digits at hn
      split at hn
      · rename_i hd
        rcases List.mem_cons.mp hc with rfl | hc
        · exact hd
        · exact ih _ _ hn c hc
      · cases hn
  have mem : ∀ (s : List Char) c, c ∈ s → c ≠ '.' → ∃ p ∈ splitDots s, c ∈ p := by
    intro s
    induction s with
    | nil => intro c hc; cases hc
    | cons d s ih =>
      intro c hc hne
      unfold splitDots
      by_cases hd : d = '.'
      · rw [if_pos hd]
        rcases List.mem_cons.mp hc with rfl | hc
        · exact absurd hd hne
        · obtain ⟨p, h1, h2⟩ := ih c hc hne
          exact ⟨p, List.mem_cons_of_mem _ h1, h2⟩
      · rw [if_neg hd]
        cases hs : splitDots s with
        | nil =>
          rcases List.mem_cons.mp hc with rfl | hc
          · exact ⟨[c], by simp, by simp⟩
          · obtain ⟨p, h1, h2⟩ := ih c hc hne
            rw [hs] at h1; cases h1
        | cons q qs =>
          rcases List.mem_cons.mp hc with rfl | hc
          · exact ⟨c :: q, by simp, by simp⟩
          · obtain ⟨p, h1, h2⟩ := ih c hc hne
            rw [hs] at h1
            rcases List.mem_cons.mp h1 with rfl | h1
            · exact ⟨d :: p, by simp, List.mem_cons_of_mem _ h2⟩
            · exact ⟨p, List.mem_cons_of_mem _ h1, h2⟩
  obtain ⟨c, hc, hne, hnd⟩ := h
  obtain ⟨p, h1, h2⟩ := mem s c hc hne
  unfold isIpv4
  rw [Bool.and_eq_false_iff]
  right
  rw [Bool.eq_false_iff]
  intro hall
  have := List.all_eq_true.mp hall p h1
  unfold isOctet at this
  simp only [Bool.and_eq_true] at this
  have h3 := this.2
  cases hd : StaticRouting.digits 0 p with
  | none => rw [hd] at h3; cases h3
  | some n => exact hnd (dig p 0 n hd c h2)

end Dtn.PeerUrl
