import Verif.Lemmas.Setup
/-! Lemmas about the options of the command line that have several parts. -/

namespace Dtn.Setup
open Discovery (Outcome)
open PeerUrl (isCla)
open Spec.SetupSpec
open Spec.PeerUrlSpec (layers)

set_option linter.unusedSectionVars false
variable {A : Type} [DecidableEq A]

theorem split_ne_nil (d : Char) (s : Text) : split d s ≠ [] := by
  cases s with
  | nil => simp [split]
  | cons c s =>
    unfold split
    split
    · simp
    · split <;> simp

theorem split_free {d : Char} {s : Text} (h : d ∉ s) : split d s = [s] := by
  induction s with
  | nil => rfl
  | cons c s ih =>
    have h1 : c ≠ d := fun e => h (by simp [e])
    have h2 : d ∉ s := fun e => h (by simp [e])
    simp only [split, if_neg h1, ih h2]

theorem split_cons {d : Char} {s : Text} (h : d ∉ s) (t : Text) : split d (s ++ d :: t) = s :: split d t := by
  induction s with
  | nil => simp [split]
  | cons c s ih =>
    have h1 : c ≠ d := fun e => h (by simp [e])
    have h2 : d ∉ s := fun e => h (by simp [e])
    simp only [List.cons_append, split, if_neg h1, ih h2]

theorem split_two {d : Char} {s t : Text} (h : d ∉ s) (ht : d ∉ t) : split d (s ++ d :: t) = [s, t] := by
  rw [split_cons h, split_free ht]

/-- The parts put together again. -/
theorem split_join (d : Char) (s : Text) : ∀ p ps, split d s = p :: ps → s = p ++ (ps.map fun q => d :: q).flatten ∧
    ∀ q ∈ p :: ps, d ∉ q := by
  induction s with
  | nil =>
    intro p ps h
    simp only [split, List.cons.injEq] at h
    obtain ⟨rfl, rfl⟩ := h
    simp
  | cons c s ih =>
    intro p ps h
    unfold split at h
    split at h
    · rename_i hc
      simp only [List.cons.injEq] at h
      obtain ⟨rfl, rfl⟩ := h
      cases hs : split d s with
      | nil => exact absurd hs (split_ne_nil d s)
      | cons q qs =>
        obtain ⟨h1, h2⟩ := ih q qs hs
        refine ⟨?_, ?_⟩
        · rw [hc]
          simp only [List.nil_append, List.map_cons, List.flatten_cons, List.cons_append]
          rw [← h1]
        · intro x hx
          rcases List.mem_cons.mp hx with rfl | hx
          · simp
          · exact h2 x hx
    · rename_i hc
      cases hs : split d s with
      | nil => exact absurd hs (split_ne_nil d s)
      | cons q qs =>
        rw [hs] at h
        simp only [List.cons.injEq] at h
        obtain ⟨rfl, rfl⟩ := h
        obtain ⟨h1, h2⟩ := ih q qs hs
        refine ⟨by rw [List.cons_append, ← h1], ?_⟩
        intro x hx
        rcases List.mem_cons.mp hx with rfl | hx
        · have := h2 q (by simp)
          simp only [List.mem_cons, not_or]
          exact ⟨fun e => hc e.symm, this⟩
        · exact h2 x (by simp [hx])

theorem given_append {α : Type} (l : List (Text × α)) (k : Text) (v : α) (key : Text) :
    given (l ++ [(k, v)]) key = if k = key then some v else given l key := by
  unfold given
  rw [List.reverse_append]
  simp only [List.reverse_cons, List.reverse_nil, List.nil_append, List.cons_append, List.find?_cons]
  by_cases h : k = key
  · simp [h]
  · simp [h]

theorem given_cons {α : Type} (l : List (Text × α)) (k : Text) (v : α) (key : Text) :
    given ((k, v) :: l) key = (given l key).or (if k = key then some v else none) := by
  unfold given
  simp only [List.reverse_cons, List.find?_append]
  cases l.reverse.find? (fun kv => decide (kv.1 = key)) with
  | some x => rfl
  | none =>
    simp only [Option.none_or, List.find?_cons, List.find?_nil, Option.map_none]
    by_cases h : k = key <;> simp [h]

theorem given_nil {α : Type} (key : Text) : given ([] : List (Text × α)) key = none := rfl

theorem setting_text {k v : Text} (hk : '=' ∉ k) (hv : '=' ∉ v) : setting (k ++ '=' :: v) = .ok (k, v) := by
  unfold setting
  rw [split_two hk hv]

/-- Settings behind the name of an agent. -/
theorem settings_text (kvs : List (Text × Text)) (h : ∀ kv ∈ kvs, '=' ∉ kv.1 ∧ '=' ∉ kv.2) (m : AList Text Text) :
    ∃ r, each settings m (kvs.map fun kv => kv.1 ++ '=' :: kv.2) = .ok r ∧
      ∀ key, AList.get? r key = (given kvs key).or (AList.get? m key) := by
  induction kvs generalizing m with
  | nil => exact ⟨m, rfl, by simp [given_nil]⟩
  | cons kv kvs ih =>
    obtain ⟨k, v⟩ := kv
    obtain ⟨h1, h2⟩ := h (k, v) (by simp)
    obtain ⟨r, hr, hg⟩ := ih (fun x hx => h x (by simp [hx])) (AList.insert m k v)
    refine ⟨r, ?_, ?_⟩
    · simp only [List.map_cons, each, settings]
      rw [setting_text h1 h2]
      exact hr
    · intro key
      rw [hg, given_cons, AList.get?_insert]
      by_cases hk : key = k
      · subst hk; cases given kvs key <;> simp
      · have : ¬ k = key := fun e => hk e.symm
        cases given kvs key <;> simp [hk, this]

theorem split_cla (name : Text) (hn : ':' ∉ name) (kvs : List (Text × Text)) (h : ∀ kv ∈ kvs, ':' ∉ kv.1 ∧ ':' ∉ kv.2) :
    split ':' (claText name kvs) = name :: kvs.map fun kv => kv.1 ++ '=' :: kv.2 := by
  induction kvs generalizing name with
  | nil =>
    unfold claText
    simp only [List.map_nil, List.flatten_nil, List.append_nil]
    exact split_free hn
  | cons kv kvs ih =>
    obtain ⟨k, v⟩ := kv
    obtain ⟨h1, h2⟩ := h (k, v) (by simp)
    have e : claText name ((k, v) :: kvs) = name ++ ':' :: claText (k ++ '=' :: v) kvs := by
      simp [claText]
    rw [e, split_cons hn, ih _ ?_ (fun x hx => h x (by simp [hx]))]
    · rfl
    · simp only [List.mem_append, List.mem_cons, not_or]
      exact ⟨h1, by decide, h2⟩

theorem isCla_iff (s : Text) : isCla s = true ↔ s ∈ layers := by
  simp only [isCla, layers, decide_eq_true_eq, List.mem_cons, List.not_mem_nil, or_false]

theorem layer_free {name : Text} (h : name ∈ layers) : ':' ∉ name := by
  have : ∀ n ∈ layers, ':' ∉ n := by decide
  exact this name h

theorem claOption_text {name : Text} (hn : name ∈ layers) {kvs : List (Text × Text)}
    (h : ∀ kv ∈ kvs, Free [':', '='] kv.1 ∧ Free [':', '='] kv.2) (cfg : Config) :
    ∃ m, claOption cfg (claText name kvs) = .ok { cfg with clas := cfg.clas ++ [(name, m)] } ∧
      ∀ key, AList.get? m key = given kvs key := by
  obtain ⟨m, hm, hg⟩ := settings_text kvs (fun kv hkv => ⟨(h kv hkv).1 '=' (by simp), (h kv hkv).2 '=' (by simp)⟩) []
  refine ⟨m, ?_, by simpa using hg⟩
  unfold claOption
  rw [split_cla name (layer_free hn) kvs fun kv hkv => ⟨(h kv hkv).1 ':' (by simp), (h kv hkv).2 ':' (by simp)⟩]
  simp only [(isCla_iff name).2 hn, if_true]
  rw [hm]
  rfl

theorem each_clas_text (l : List (Text × List (Text × Text))) (hn : ∀ c ∈ l, c.1 ∈ layers)
    (h : ∀ c ∈ l, ∀ kv ∈ c.2, Free [':', '='] kv.1 ∧ Free [':', '='] kv.2) (cfg : Config) :
    ∃ r, each claOption cfg (l.map fun c => claText c.1 c.2) = .ok { cfg with clas := cfg.clas ++ r } ∧
      Both (fun c d => d.1 = c.1 ∧ ∀ key, AList.get? d.2 key = given c.2 key) l r := by
  induction l generalizing cfg with
  | nil => exact ⟨[], by simp [each], .nil⟩
  | cons c l ih =>
    obtain ⟨m, hm, hg⟩ := claOption_text (hn c (by simp)) (h c (by simp)) cfg
    obtain ⟨r, hr, hb⟩ := ih (fun x hx => hn x (by simp [hx])) (fun x hx => h x (by simp [hx]))
      { cfg with clas := cfg.clas ++ [(c.1, m)] }
    refine ⟨(c.1, m) :: r, ?_, .cons ⟨rfl, hg⟩ hb⟩
    simp only [List.map_cons, each]
    rw [hm]
    simp only [andThen]
    rw [hr]
    simp

theorem globalOption_text {name k v : Text} (hn : name ∈ layers) (hk : Free [':', '='] k) (hv : Free [':', '='] v) (cfg : Config) :
    globalOption cfg (globalText name k v) = .ok { cfg with
      claGlobal := AList.insert cfg.claGlobal name (AList.insert ((AList.get? cfg.claGlobal name).getD []) k v) } := by
  have e : globalText name k v = name ++ ':' :: (k ++ '=' :: v) := by simp [globalText]
  have hc : ':' ∉ k ++ '=' :: v := by
    simp only [List.mem_append, List.mem_cons, not_or]
    exact ⟨hk ':' (by simp), by decide, hv ':' (by simp)⟩
  unfold globalOption
  rw [e, split_two (layer_free hn) hc]
  simp only [(isCla_iff name).2 hn, if_true]
  rw [setting_text (hk '=' (by simp)) (hv '=' (by simp))]
  rfl

theorem inTable_insert (m : AList Text (AList Text Text)) (n k v name key : Text) :
    inTable (AList.insert m n (AList.insert ((AList.get? m n).getD []) k v)) name key =
      if n = name ∧ k = key then some v else inTable m name key := by
  unfold inTable
  rw [AList.get?_insert]
  by_cases h : name = n
  · subst h
    simp only [if_true, Option.bind_some, true_and]
    rw [AList.get?_insert]
    by_cases hk : key = k
    · subst hk; simp
    · have : ¬ k = key := fun e => hk e.symm
      simp only [if_neg hk, if_neg this]
      cases AList.get? m name <;> rfl
  · have : ¬ n = name := fun e => h e.symm
    simp [h, this]

theorem asked_cons (l : List (Text × Text × Text)) (n k v name key : Text) :
    asked ((n, k, v) :: l) name key = (asked l name key).or (if n = name ∧ k = key then some v else none) := by
  unfold asked
  simp only [List.reverse_cons, List.find?_append]
  cases l.reverse.find? (fun x => decide (x.1 = name ∧ x.2.1 = key)) with
  | some x => rfl
  | none =>
    simp only [Option.none_or, List.find?_cons, List.find?_nil, Option.map_none]
    by_cases h : n = name ∧ k = key <;> simp [h]

theorem each_globals_text (l : List (Text × Text × Text)) (hn : ∀ x ∈ l, x.1 ∈ layers)
    (h : ∀ x ∈ l, Free [':', '='] x.2.1 ∧ Free [':', '='] x.2.2) (cfg : Config) :
    ∃ d : Config, each globalOption cfg (l.map fun x => globalText x.1 x.2.1 x.2.2) = .ok d ∧
      ∀ name key, inTable d.claGlobal name key = (asked l name key).or (inTable cfg.claGlobal name key) := by
  induction l generalizing cfg with
  | nil => exact ⟨cfg, rfl, by simp [asked]⟩
  | cons x l ih =>
    obtain ⟨n, k, v⟩ := x
    have hm := globalOption_text (hn (n, k, v) (by simp)) (h (n, k, v) (by simp)).1 (h (n, k, v) (by simp)).2 cfg
    obtain ⟨d, hd, hg⟩ := ih (fun x hx => hn x (by simp [hx])) (fun x hx => h x (by simp [hx]))
      { cfg with claGlobal := AList.insert cfg.claGlobal n (AList.insert ((AList.get? cfg.claGlobal n).getD []) k v) }
    refine ⟨d, ?_, ?_⟩
    · simp only [List.map_cons, each]
      rw [hm]
      exact hd
    · intro name key
      rw [hg, asked_cons]
      dsimp only
      rw [inTable_insert]
      cases asked l name key <;> simp
      split <;> simp_all

theorem routingOption_text {algo k v : Text} (ha : Free ['.', '='] algo) (hk : Free ['.', '='] k) (hv : '=' ∉ v) (cfg : Config) :
    ∃ d : Config, routingOption cfg (routingText algo k v) = .ok d ∧ ∀ name key, inTable d.routingSettings name key =
      if algo = name ∧ k = key then some v else inTable cfg.routingSettings name key := by
  have e : routingText algo k v = (algo ++ '.' :: k) ++ '=' :: v := by simp [routingText]
  have hc : '=' ∉ algo ++ '.' :: k := by
    simp only [List.mem_append, List.mem_cons, not_or]
    exact ⟨ha '=' (by simp), by decide, hk '=' (by simp)⟩
  unfold routingOption
  rw [e, split_two hc hv]
  dsimp only
  rw [split_two (ha '.' (by simp)) (hk '.' (by simp))]
  refine ⟨_, rfl, ?_⟩
  intro name key
  dsimp only
  split
  · exact inTable_insert _ _ _ _ _ _
  · rename_i hno
    rw [inTable_insert]
    split
    · rfl
    · have hno : AList.get? cfg.routingSettings algo = none := by
        simpa [AList.contains] using hno
      unfold inTable
      rw [AList.get?_insert]
      by_cases hx : name = algo
      · subst hx
        simp [hno]
      · simp [hx]

theorem each_routing_text (l : List (Text × Text × Text))
    (h : ∀ x ∈ l, Free ['.', '='] x.1 ∧ Free ['.', '='] x.2.1 ∧ '=' ∉ x.2.2) (cfg : Config) :
    ∃ d : Config, each routingOption cfg (l.map fun x => routingText x.1 x.2.1 x.2.2) = .ok d ∧
      ∀ name key, inTable d.routingSettings name key = (asked l name key).or (inTable cfg.routingSettings name key) := by
  induction l generalizing cfg with
  | nil => exact ⟨cfg, rfl, by simp [asked]⟩
  | cons x l ih =>
    obtain ⟨n, k, v⟩ := x
    obtain ⟨h1, h2, h3⟩ := h (n, k, v) (by simp)
    obtain ⟨c, hc, hl⟩ := routingOption_text h1 h2 h3 cfg
    obtain ⟨d, hd, hg⟩ := ih (fun x hx => h x (by simp [hx])) c
    refine ⟨d, ?_, ?_⟩
    · simp only [List.map_cons, each]
      rw [hc]
      exact hd
    · intro name key
      rw [hg, asked_cons, hl]
      cases asked l name key <;> simp
      split <;> simp_all

/-- Every accepted routing option has the documented shape. -/
theorem routingOption_shape {cfg d : Config} {opt : Text} (h : routingOption cfg opt = .ok d) :
    ∃ algo k v, opt = routingText algo k v ∧ Free ['.', '='] algo ∧ Free ['.', '='] k ∧ '=' ∉ v := by
  unfold routingOption at h
  split at h
  · rename_i key value hs
    split at h
    · rename_i algo name hk
      obtain ⟨e1, f1⟩ := split_join '=' opt _ _ hs
      obtain ⟨e2, f2⟩ := split_join '.' key _ _ hk
      have hkey : '=' ∉ key := f1 key (by simp)
      have e2 : key = algo ++ '.' :: name := by rw [e2]; simp
      have n1 : '=' ∉ algo ∧ '=' ∉ name := by
        rw [e2] at hkey
        simp only [List.mem_append, List.mem_cons, not_or] at hkey
        exact ⟨hkey.1, hkey.2.2⟩
      refine ⟨algo, name, value, ?_, ?_, ?_, f1 value (by simp)⟩
      · rw [e1, e2]; simp [routingText]
      · intro c hc
        simp only [List.mem_cons, List.not_mem_nil, or_false] at hc
        rcases hc with rfl | rfl
        · exact f2 algo (by simp)
        · exact n1.1
      · intro c hc
        simp only [List.mem_cons, List.not_mem_nil, or_false] at hc
        rcases hc with rfl | rfl
        · exact f2 name (by simp)
        · exact n1.2
    · cases h
  · cases h

theorem inTable_setTable (l : List (Text × AList Text Text)) (m : AList Text (AList Text Text)) (name key : Text) :
    inTable (setTable m l) name key = match given l name with
      | some t => AList.get? t key
      | none => inTable m name key := by
  induction l generalizing m with
  | nil => simp [setTable, given_nil]
  | cons x l ih =>
    obtain ⟨k, t⟩ := x
    simp only [setTable]
    rw [ih, given_cons]
    cases given l name with
    | some t => rfl
    | none =>
      simp only [Option.none_or]
      unfold inTable
      rw [AList.get?_insert]
      by_cases h : name = k
      · subst h; simp
      · have : ¬ k = name := fun e => h e.symm
        simp [h, this]

theorem parseU8_toString {n : Nat} (h : n < 256) : parseU8 (toString n).toList = some n := by
  have hp : Routing.StaticRouting.stripPlus (toString n).toList = (toString n).toList := by
    unfold Routing.StaticRouting.stripPlus
    rw [if_neg]
    intro he
    have hm : '+' ∈ (toString n).toList := List.mem_of_mem_head? (by rw [he]; rfl)
    have := PeerUrl.digit_of_mem hm
    revert this; decide
  unfold parseU8
  rw [hp, if_neg (PeerUrl.toString_ne_nil n), PeerUrl.digits_toString]
  simp [h]


/-- A tag in a list of services. -/
theorem service_step {cfg d : Config} {t : Nat} {p : Text} (ht : t < 256) (hp : ':' ∉ p) (h : serviceOption cfg (serviceText t p) = .ok d) :
    AList.get? cfg.services t = none ∧ d.services = AList.insert cfg.services t (String.ofList p) := by
  have hn : ':' ∉ (toString t).toList := by
    intro hm
    have := PeerUrl.digit_of_mem hm
    revert this; decide
  unfold serviceOption at h
  rw [serviceText, split_two hn hp] at h
  dsimp only at h
  rw [parseU8_toString ht] at h
  simp only [unwrap, andThen] at h
  split at h
  · cases h
  · rename_i hc
    cases h
    exact ⟨by simpa [AList.contains] using hc, rfl⟩

theorem service_fresh {cfg : Config} {t : Nat} {p : Text} (ht : t < 256) (hp : ':' ∉ p) (h : AList.get? cfg.services t = none) :
    serviceOption cfg (serviceText t p) = .ok { cfg with services := AList.insert cfg.services t (String.ofList p) } := by
  have hn : ':' ∉ (toString t).toList := by
    intro hm
    have := PeerUrl.digit_of_mem hm
    revert this; decide
  unfold serviceOption
  rw [serviceText, split_two hn hp]
  dsimp only
  rw [parseU8_toString ht]
  simp [unwrap, andThen, AList.contains, h]

theorem fileService_step {cfg d : Config} {t : Nat} {p : String} (ht : t < 256) (h : fileService cfg ((toString t).toList, p) = .ok d) :
    AList.get? cfg.services t = none ∧ d.services = AList.insert cfg.services t p := by
  unfold fileService at h
  dsimp only at h
  rw [parseU8_toString ht] at h
  simp only [unwrap, andThen] at h
  split at h
  · cases h
  · rename_i hc
    cases h
    exact ⟨by simpa [AList.contains] using hc, rfl⟩

/-- Inserting services one by one, each with a new tag. -/
theorem fresh_services {α : Type} {f : Config → α → Outcome Config} (tag : α → Nat) (pay : α → String) (P : α → Prop)
    (hs : ∀ c a d, P a → f c a = .ok d → AList.get? c.services (tag a) = none ∧ d.services = AList.insert c.services (tag a) (pay a))
    {l : List α} (hl : ∀ a ∈ l, P a) {c d : Config} (h : each f c l = .ok d) :
    (l.map tag).Nodup ∧ (∀ a ∈ l, AList.get? c.services (tag a) = none) ∧
      ∀ t p, AList.get? d.services t = some p ↔ AList.get? c.services t = some p ∨ ∃ a ∈ l, tag a = t ∧ pay a = p := by
  induction l generalizing c with
  | nil => cases h; simp
  | cons a l ih =>
    obtain ⟨e, h1, h2⟩ := andThen_ok h
    obtain ⟨hf, he⟩ := hs c a e (hl a (by simp)) h1
    obtain ⟨i1, i2, i3⟩ := ih (fun x hx => hl x (by simp [hx])) h2
    have ne : ∀ x ∈ l, tag x ≠ tag a := by
      intro x hx hxa
      have := i2 x hx
      rw [he, hxa, AList.get?_insert_self] at this
      cases this
    refine ⟨?_, ?_, ?_⟩
    · simp only [List.map_cons, List.nodup_cons, List.mem_map, not_exists, not_and]
      exact ⟨fun x hx => ne x hx, i1⟩
    · intro x hx
      rcases List.mem_cons.mp hx with rfl | hx
      · exact hf
      · have := i2 x hx
        rwa [he, AList.get?_insert_of_ne _ _ (ne x hx)] at this
    · intro t p
      rw [i3, he, AList.get?_insert]
      constructor
      · rintro (h | ⟨x, hx, h⟩)
        · split at h
          · rename_i ht
            exact Or.inr ⟨a, by simp, ht.symm, Option.some.inj h⟩
          · exact Or.inl h
        · exact Or.inr ⟨x, by simp [hx], h⟩
      · rintro (h | ⟨x, hx, h3, h4⟩)
        · left
          have : t ≠ tag a := by
            rintro rfl
            rw [hf] at h
            cases h
          rw [if_neg this]; exact h
        · rcases List.mem_cons.mp hx with rfl | hx
          · left; simp [h3, h4]
          · exact Or.inr ⟨x, hx, h3, h4⟩

end Dtn.Setup
