import Verif.Lemmas.Ecla
/-! The names of external convergence layers follow the connections. -/

namespace Dtn.Ecla
open Spec.Ecla

/-- The module is in the table and its convergence layer is registered. -/
def Phase.holds : Phase → Bool
  | .serving | .stopped | .leaving => true
  | _ => false

/-- The module is in the table. -/
def Phase.tabled : Phase → Bool
  | .half => true
  | p => p.holds

/-- The connection is in the peer table. -/
def Phase.peered (l : Layer) : Phase → Bool
  | .entered | .serving | .stopped => true
  | .leaving | .half | .left => decide (l = .websocket)
  | _ => false

/-- The connection at address `a` holds the name `n`. -/
def State.Holder (s : State) (a : Addr) (n : Bytes) : Prop :=
  (∃ c p, s.At c a p ∧ p.holds = true) ∧ ActiveAs s a n

structure Inv (clas : List Bytes) (s : State) : Prop where
  uniq : ∀ c d a p q, s.At c a p → s.At d a q → p ≠ .gone → q ≠ .gone → c = d
  sound : ∀ c a, ¬ s.At c a .crashed
  fresh : ∀ c n p, s.At c (.number n) p → n < s.nextId
  has : ∀ c a p, s.At c a p → p.tabled = true → ∃ m, AList.get? s.modules a = some m
  own : ∀ a m, AList.get? s.modules a = some m → ∃ c p, s.At c a p ∧ p.tabled = true
  peer : ∀ c a p, s.At c a p → p.peered a.layer = true → ∃ b, AList.get? s.peers a = some (c, b)
  names : ∀ n, n ∈ s.clas ↔ n ∈ clas ∨ ∃ a, s.Holder a n
  one : ∀ a b n, s.Holder a n → s.Holder b n → a = b
  nodup : clas.Nodup → s.clas.Nodup

theorem ActiveAs.congr {s t : State} (h : t.modules = s.modules) (a n) : ActiveAs t a n ↔ ActiveAs s a n := by
  simp [ActiveAs, h]

theorem Inv.congr {clas s t} (h : Inv clas s) (ha : ∀ c a p, t.At c a p ↔ s.At c a p)
    (hm : t.modules = s.modules) (hc : t.clas = s.clas)
    (hp : ∀ c a b, AList.get? s.peers a = some (c, b) → ∃ b', AList.get? t.peers a = some (c, b'))
    (hn : t.nextId = s.nextId) : Inv clas t := by
  have hh : ∀ a n, t.Holder a n ↔ s.Holder a n := by
    intro a n; simp only [State.Holder, ha, ActiveAs.congr hm]
  refine ⟨?_, ?_, ?_, ?_, ?_, ?_, ?_, ?_, ?_⟩
  · simpa only [ha] using h.uniq
  · simpa only [ha] using h.sound
  · simpa only [ha, hn] using h.fresh
  · simpa only [ha, hm] using h.has
  · simpa only [ha, hm] using h.own
  · intro c a p hA hP
    obtain ⟨b, hb⟩ := h.peer c a p ((ha _ _ _).mp hA) hP
    exact hp c a b hb
  · simpa only [hh, hc] using h.names
  · simpa only [hh] using h.one
  · rw [hc]; exact h.nodup

/-- A new connection from an address that is not in use. -/
theorem Inv.accept {clas s} (h : Inv clas s) (a : Addr) (n : Nat)
    (hfree : ∀ c p, s.At c a p → p = .gone) (hn : s.nextId ≤ n) (hlt : ∀ m, a = .number m → m < n) :
    Inv clas { s with conns := s.conns ++ [{ addr := a }], nextId := n } := by
  have hat : ∀ c b p, State.At { s with conns := s.conns ++ [{ addr := a }], nextId := n } c b p ↔
      s.At c b p ∨ (c = s.conns.length ∧ b = a ∧ p = .accepted) := by
    intro c b p
    simp only [State.At]
    rcases Nat.lt_trichotomy c s.conns.length with hc | hc | hc
    · rw [List.getElem?_append_left hc]
      constructor
      · exact Or.inl
      · rintro (h | ⟨h, -⟩)
        · exact h
        · omega
    · subst hc
      simp [eq_comm]
    · rw [List.getElem?_eq_none (by simp; omega), List.getElem?_eq_none (by omega)]
      simp; omega
  generalize ht : ({ s with conns := s.conns ++ [{ addr := a }], nextId := n } : State) = t at hat
  have hm : t.modules = s.modules := by rw [← ht]
  have hcl : t.clas = s.clas := by rw [← ht]
  have hpe : t.peers = s.peers := by rw [← ht]
  have hni : t.nextId = n := by rw [← ht]
  have hh : ∀ b k, t.Holder b k ↔ s.Holder b k := by
    intro b k
    simp only [State.Holder, ActiveAs.congr hm, hat]
    constructor
    · rintro ⟨⟨c, p, hA | ⟨-, -, rfl⟩, hp⟩, hx⟩
      · exact ⟨⟨c, p, hA, hp⟩, hx⟩
      · cases hp
    · rintro ⟨⟨c, p, hA, hp⟩, hx⟩
      exact ⟨⟨c, p, Or.inl hA, hp⟩, hx⟩
  refine ⟨?_, ?_, ?_, ?_, ?_, ?_, ?_, ?_, ?_⟩
  · intro c d b p q hc hd hp hq
    rcases (hat _ _ _).mp hc with hc | ⟨rfl, rfl, rfl⟩
    · rcases (hat _ _ _).mp hd with hd | ⟨rfl, rfl, rfl⟩
      · exact h.uniq c d b p q hc hd hp hq
      · exact absurd (hfree _ _ hc) hp
    · rcases (hat _ _ _).mp hd with hd | ⟨rfl, -, rfl⟩
      · exact absurd (hfree _ _ hd) hq
      · rfl
  · intro c b hc
    rcases (hat _ _ _).mp hc with hc | ⟨-, -, h0⟩
    · exact h.sound c b hc
    · cases h0
  · intro c k p hc
    rw [hni]
    rcases (hat _ _ _).mp hc with hc | ⟨-, h0, -⟩
    · exact Nat.lt_of_lt_of_le (h.fresh c k p hc) hn
    · exact hlt k h0.symm
  · intro c b p hc hp
    rw [hm]
    rcases (hat _ _ _).mp hc with hc | ⟨-, -, rfl⟩
    · exact h.has c b p hc hp
    · cases hp
  · intro b m hb
    rw [hm] at hb
    obtain ⟨c, p, hA, hp⟩ := h.own b m hb
    exact ⟨c, p, (hat _ _ _).mpr (Or.inl hA), hp⟩
  · intro c b p hc hp
    rw [hpe]
    rcases (hat _ _ _).mp hc with hc | ⟨-, -, rfl⟩
    · exact h.peer c b p hc hp
    · cases hp
  · intro k; rw [hcl]; simp only [hh]; exact h.names k
  · intro b b' k; simp only [hh]; exact h.one b b' k
  · rw [hcl]; exact h.nodup

/-- A change of phase that leaves the tables to be related as stated. -/
theorem Inv.move {clas s t} (h : Inv clas s) {c : Nat} {a : Addr} {p q : Phase} (hA : s.At c a p)
    (hat : ∀ d b r, t.At d b r ↔ if d = c then b = a ∧ r = q else s.At d b r)
    (hp : p ≠ .gone) (hq : q ≠ .crashed)
    (hmod : ∀ b, b ≠ a → AList.get? t.modules b = AList.get? s.modules b)
    (hmoda : q.tabled = true ↔ ∃ m, AList.get? t.modules a = some m)
    (hpeer : ∀ b, b ≠ a → AList.get? t.peers b = AList.get? s.peers b)
    (hpeera : q.peered a.layer = true → ∃ b, AList.get? t.peers a = some (c, b))
    (hnext : t.nextId = s.nextId)
    (hnames : ∀ n, n ∈ t.clas ↔ (n ∈ s.clas ∧ ¬ s.Holder a n) ∨ t.Holder a n)
    (hfresh : ∀ n, s.Holder a n → n ∉ clas)
    (hnew : ∀ n, t.Holder a n → ¬ s.Holder a n → n ∉ s.clas)
    (hnodup : s.clas.Nodup → t.clas.Nodup) : Inv clas t := by
  have hother : ∀ d b r, s.At d b r → r ≠ .gone → d ≠ c → b ≠ a := by
    intro d b r hd hr hdc hba
    subst hba
    exact hdc (h.uniq d c b r p hd hA hr hp)
  have hne : ∀ d b r, t.At d b r → d ≠ c → s.At d b r := by
    intro d b r hd hdc
    have := (hat d b r).mp hd
    rwa [if_neg hdc] at this
  have hself : ∀ b r, t.At c b r → b = a ∧ r = q := by
    intro b r hd
    have := (hat c b r).mp hd
    rwa [if_pos rfl] at this
  have hheld : ∀ b n, b ≠ a → (t.Holder b n ↔ s.Holder b n) := by
    intro b n hb
    simp only [State.Holder, ActiveAs, hmod b hb]
    constructor
    · rintro ⟨⟨d, r, hd, hr⟩, hx⟩
      have hdc : d ≠ c := by
        rintro rfl; exact hb (hself _ _ hd).1
      exact ⟨⟨d, r, hne _ _ _ hd hdc, hr⟩, hx⟩
    · rintro ⟨⟨d, r, hd, hr⟩, hx⟩
      have hdc : d ≠ c := by
        rintro rfl; exact hb (hd.uniq hA).1
      exact ⟨⟨d, r, (hat d b r).mpr (by rw [if_neg hdc]; exact hd), hr⟩, hx⟩
  refine ⟨?_, ?_, ?_, ?_, ?_, ?_, ?_, ?_, fun hn => hnodup (h.nodup hn)⟩
  · intro d e b r r' hd he hr hr'
    by_cases hdc : d = c
    · subst hdc
      by_cases hec : e = d
      · exact hec.symm
      · exact absurd (hself _ _ hd).1 (hother e b r' (hne _ _ _ he hec) hr' hec)
    · by_cases hec : e = c
      · subst hec
        exact absurd (hself _ _ he).1 (hother d b r (hne _ _ _ hd hdc) hr hdc)
      · exact h.uniq d e b r r' (hne _ _ _ hd hdc) (hne _ _ _ he hec) hr hr'
  · intro d b hd
    by_cases hdc : d = c
    · subst hdc; exact hq (hself _ _ hd).2.symm
    · exact h.sound d b (hne _ _ _ hd hdc)
  · intro d n r hd
    rw [hnext]
    by_cases hdc : d = c
    · subst hdc
      obtain ⟨rfl, -⟩ := hself _ _ hd
      exact h.fresh d n p hA
    · exact h.fresh d n r (hne _ _ _ hd hdc)
  · intro d b r hd hr
    by_cases hdc : d = c
    · subst hdc
      obtain ⟨rfl, rfl⟩ := hself _ _ hd
      exact hmoda.mp hr
    · have hs := hne _ _ _ hd hdc
      rw [hmod b (hother d b r hs (by rintro rfl; cases hr) hdc)]
      exact h.has d b r hs hr
  · intro b m hb
    by_cases hba : b = a
    · subst hba
      exact ⟨c, q, (hat c b q).mpr (by simp), hmoda.mpr ⟨m, hb⟩⟩
    · rw [hmod b hba] at hb
      obtain ⟨d, r, hd, hr⟩ := h.own b m hb
      have hdc : d ≠ c := by
        rintro rfl; exact hba (hd.uniq hA).1
      exact ⟨d, r, (hat d b r).mpr (by rw [if_neg hdc]; exact hd), hr⟩
  · intro d b r hd hr
    by_cases hdc : d = c
    · subst hdc
      obtain ⟨rfl, rfl⟩ := hself _ _ hd
      exact hpeera hr
    · have hs := hne _ _ _ hd hdc
      rw [hpeer b (hother d b r hs (by rintro rfl; cases hr) hdc)]
      exact h.peer d b r hs hr
  · intro n
    rw [hnames, h.names]
    constructor
    · rintro (⟨hn | ⟨b, hb⟩, hno⟩ | hn)
      · exact Or.inl hn
      · have hba : b ≠ a := by rintro rfl; exact hno hb
        exact Or.inr ⟨b, (hheld b n hba).mpr hb⟩
      · exact Or.inr ⟨a, hn⟩
    · rintro (hn | ⟨b, hb⟩)
      · exact Or.inl ⟨Or.inl hn, fun hh => hfresh n hh hn⟩
      · by_cases hba : b = a
        · subst hba; exact Or.inr hb
        · have hb' := (hheld b n hba).mp hb
          exact Or.inl ⟨Or.inr ⟨b, hb'⟩, fun hh => hba (h.one b a n hb' hh)⟩
  · intro b b' n hb hb'
    by_cases hba : b = a
    · by_cases hba' : b' = a
      · exact hba.trans hba'.symm
      · subst hba
        have h2 := (hheld b' n hba').mp hb'
        by_cases hold : s.Holder b n
        · exact h.one b b' n hold h2
        · exact absurd ((h.names n).mpr (Or.inr ⟨b', h2⟩)) (hnew n hb hold)
    · have h1 := (hheld b n hba).mp hb
      by_cases hba' : b' = a
      · subst hba'
        by_cases hold : s.Holder b' n
        · exact h.one b b' n h1 hold
        · exact absurd ((h.names n).mpr (Or.inr ⟨b, h1⟩)) (hnew n hb' hold)
      · exact h.one b b' n h1 ((hheld b' n hba').mp hb')

/-! ### Steps -/

theorem Inv.untabled {clas s} (h : Inv clas s) {c a p} (hA : s.At c a p) (hg : p ≠ .gone) (hp : p.tabled = false) :
    AList.get? s.modules a = none := by
  by_cases hn : AList.get? s.modules a = none
  · exact hn
  · obtain ⟨m, hm⟩ := Option.ne_none_iff_exists'.mp hn
    obtain ⟨d, q, hd, hq⟩ := h.own a m hm
    have := h.uniq c d a p q hA hd hg (by rintro rfl; cases hq)
    subst this
    rw [(hA.uniq hd).2] at hp
    rw [hp] at hq
    cases hq

theorem Inv.unheld {clas s} (h : Inv clas s) {c a p} (hA : s.At c a p) (hg : p ≠ .gone) (hp : p.holds = false) (n) :
    ¬ s.Holder a n := by
  rintro ⟨⟨d, q, hd, hq⟩, -⟩
  have := h.uniq c d a p q hA hd hg (by rintro rfl; cases hq)
  subst this
  rw [(hA.uniq hd).2] at hp
  rw [hp] at hq
  cases hq

theorem setPhase_move {s : State} {c a p} (hA : s.At c a p) (q) (d b r) :
    (s.setPhase c q).At d b r ↔ if d = c then b = a ∧ r = q else s.At d b r := by
  rw [setPhase_at]
  by_cases hd : d = c
  · subst hd
    simp only [if_pos]
    constructor
    · rintro ⟨⟨x, hx⟩, rfl⟩; exact ⟨(hx.uniq hA).1, rfl⟩
    · rintro ⟨rfl, rfl⟩; exact ⟨⟨p, hA⟩, rfl⟩
  · simp [hd]

/-- A change of phase that does not touch the names. -/
theorem Inv.shift {clas s t} (hb : Basic clas s) (h : Inv clas s) {c : Nat} {a : Addr} {p q : Phase} (hA : s.At c a p)
    (hat : ∀ d b r, t.At d b r ↔ if d = c then b = a ∧ r = q else s.At d b r)
    (hp : p ≠ .gone) (hq : q ≠ .crashed)
    (hmod : ∀ b, b ≠ a → AList.get? t.modules b = AList.get? s.modules b)
    (hmoda : q.tabled = true ↔ ∃ m, AList.get? t.modules a = some m)
    (hpeer : ∀ b, b ≠ a → AList.get? t.peers b = AList.get? s.peers b)
    (hpeera : q.peered a.layer = true → ∃ b, AList.get? t.peers a = some (c, b))
    (hnext : t.nextId = s.nextId) (hclas : t.clas = s.clas)
    (hhold : ∀ n, t.Holder a n ↔ s.Holder a n) : Inv clas t := by
  refine h.move hA hat hp hq hmod hmoda hpeer hpeera hnext ?_ ?_ ?_ (by rw [hclas]; exact id)
  · intro n
    rw [hclas, hhold]
    constructor
    · intro hn
      by_cases hh : s.Holder a n
      · exact Or.inr hh
      · exact Or.inl ⟨hn, hh⟩
    · rintro (⟨hn, -⟩ | hh)
      · exact hn
      · exact (h.names n).mpr (Or.inr ⟨a, hh⟩)
  · rintro n ⟨-, m, hm, ha, rfl⟩
    exact hb.fresh a m hm ha
  · intro n h1 h2
    exact absurd ((hhold n).mp h1) h2

theorem inv_close {clas s c a} (h : Inv clas s) (hs : (s.close c a).poisoned = false) : Inv clas (s.close c a) := by
  unfold State.close at hs ⊢
  split at hs
  · exact h
  · rename_i d hd
    refine h.congr (fun _ _ _ => Iff.rfl) rfl rfl ?_ rfl
    intro e b f he
    simp only [AList.get?_insert]
    by_cases hba : b = a
    · subst hba
      rw [hd] at he
      cases he
      exact ⟨false, by simp⟩
    · exact ⟨f, by rw [if_neg hba]; exact he⟩
  · cases hs

theorem inv_send {clas s a p} (h : Inv clas s) : Inv clas (s.send a p) :=
  h.congr (by simp) (by simp) (by simp) (fun c a b hb => ⟨b, by simpa using hb⟩) (by simp)

theorem inv_register {clas s c a m n} (h : Inv clas s) (hA : s.At c a .serving)
    (hm : AList.get? s.modules a = some m) (hi : m.active = false)
    (hs : (s.register c a m n).poisoned = false) : Inv clas (s.register c a m n) := by
  unfold State.register at hs ⊢
  by_cases hn : n = [] ∨ n.length > nameMaxLen
  · rw [if_pos hn] at hs ⊢
    exact inv_close (inv_send h) hs
  · rw [if_neg hn] at hs ⊢
    by_cases hc : n ∉ s.clas
    · rw [if_pos hc] at hs ⊢
      have hno : ∀ k, ¬ s.Holder a k := by
        rintro k ⟨-, m', hm', ha', -⟩
        rw [hm] at hm'
        cases hm'
        rw [hi] at ha'
        cases ha'
      have key : Inv clas { s with
          modules := AList.insert s.modules a { m with name := n, active := true }
          clas := s.clas ++ [n]
          created := s.created ++ [n] } := by
        have hold : ∀ k, State.Holder { s with
            modules := AList.insert s.modules a { m with name := n, active := true }
            clas := s.clas ++ [n]
            created := s.created ++ [n] } a k ↔ k = n := by
          intro k
          simp only [State.Holder, ActiveAs, AList.get?_insert, if_pos, Option.some.injEq]
          constructor
          · rintro ⟨-, m', rfl, -, rfl⟩; rfl
          · rintro rfl
            exact ⟨⟨c, .serving, hA, rfl⟩, _, rfl, rfl, rfl⟩
        refine h.move (q := .serving) hA ?_ (by decide) (by decide) ?_ ?_ (fun _ _ => rfl) ?_ rfl ?_ ?_ ?_ ?_
        · intro d b r
          change s.At d b r ↔ _
          by_cases hd : d = c
          · subst hd
            rw [if_pos rfl]
            exact ⟨fun hx => hx.uniq hA, by rintro ⟨rfl, rfl⟩; exact hA⟩
          · rw [if_neg hd]
        · intro b hba
          simp [AList.get?_insert, hba]
        · simp [Phase.tabled, Phase.holds]
        · intro hp
          exact h.peer c a _ hA hp
        · intro k
          simp only [hold, List.mem_append, List.mem_singleton]
          constructor
          · rintro (hk | hk)
            · exact Or.inl ⟨hk, hno k⟩
            · exact Or.inr hk
          · rintro (⟨hk, -⟩ | hk)
            · exact Or.inl hk
            · exact Or.inr hk
        · intro k hk; exact absurd hk (hno k)
        · intro k hk _
          rw [(hold k).mp hk]; exact hc
        · intro hd
          rw [List.nodup_append]
          refine ⟨hd, by simp, ?_⟩
          intro x hx y hy
          rw [List.mem_singleton.mp hy]
          rintro rfl
          exact hc hx
      dsimp only
      split
      · exact inv_send (inv_send key)
      · exact inv_send key
    · rw [if_neg hc] at hs ⊢
      exact inv_close (inv_send h) hs

theorem inv_sendAll {clas ch p s r ms} (h : Inv clas s) : Inv clas (sendAll ch p s r ms).1 := by
  obtain ⟨h1, h2, -, h4, h5, -, -, h8⟩ := sendAll_fields ch p s r ms
  exact h.congr h8 h1 h2 (fun c a b hb => ⟨b, by rw [h4]; exact hb⟩) h5

theorem inv_step {clas s t e} (hb : Basic clas s) (h : Inv clas s) (hs : step s e = some t) (hp : Sound t)
    (hr : ∀ a, e = .acceptTcp a → ∀ k ∈ s.conns, k.addr = .remote a → k.phase = .gone) : Inv clas t := by
  have keep : ∀ {u : State}, u.conns = s.conns → u.modules = s.modules → u.clas = s.clas → u.peers = s.peers →
      u.nextId = s.nextId → Inv clas u := by
    intro u h1 h2 h3 h4 h5
    exact h.congr (fun c a p => at_congr h1 c a p) h2 h3 (fun c a b hx => ⟨b, by rw [h4]; exact hx⟩) h5
  cases e with
  | acceptTcp a =>
    cases hs
    refine h.accept (.remote a) s.nextId ?_ (Nat.le_refl _) (by intro m hm; cases hm)
    intro c p hA
    simp only [State.At] at hA
    cases hk : s.conns[c]? with
    | none => simp [hk] at hA
    | some k =>
      simp [hk] at hA
      rw [← hA.2]
      exact hr a rfl k (List.mem_of_getElem? hk) hA.1
  | acceptWs =>
    cases hs
    refine h.accept (.number s.nextId) (s.nextId + 1) ?_ (by omega) (by intro m hm; cases hm; omega)
    intro c p hA
    have := h.fresh c s.nextId p hA
    omega
  | stop c =>
    simp only [step] at hs
    split at hs
    · cases hs
    · rename_i k hk
      split at hs
      · rename_i hph
        cases hs
        have hA : s.At c k.addr .serving := hph ▸ at_of hk
        refine Inv.shift hb h (q := .stopped) hA (setPhase_move hA _) (by decide) (by decide) (fun _ _ => rfl) ?_
          (fun _ _ => rfl) ?_ rfl rfl ?_
        · exact ⟨fun _ => h.has c _ _ hA rfl, fun _ => rfl⟩
        · intro _; exact h.peer c _ _ hA rfl
        · intro n
          simp only [State.Holder, setPhase_move hA]
          constructor
          · rintro ⟨-, hx⟩; exact ⟨⟨c, .serving, hA, rfl⟩, hx⟩
          · rintro ⟨-, hx⟩; exact ⟨⟨c, .stopped, by simp, rfl⟩, hx⟩
      · cases hs
  | write c =>
    simp only [step] at hs
    split at hs
    · cases hs
    · rename_i k hk
      split at hs
      · cases hs
      · cases hs
        refine h.congr ?_ rfl rfl (fun c a b hb => ⟨b, hb⟩) rfl
        intro d a p
        simp only [State.At]
        by_cases hd : d = c
        · subst hd
          have hlt : d < s.conns.length := (List.getElem?_eq_some_iff.mp hk).1
          rw [List.getElem?_set_self hlt, hk]
          simp
        · rw [List.getElem?_set_ne (Ne.symm hd)]
  | submit n d b =>
    simp only [step] at hs
    split at hs
    · cases hs
      unfold State.submit
      split
      · exact keep rfl rfl rfl rfl rfl
      · split
        · exact keep rfl rfl rfl rfl rfl
        · rename_i b
          obtain := inv_sendAll (ch := fun m => decide (m.name = n)) (p := .data d b) (r := some false)
            (ms := s.modules) h
          rename_i h'
          exact h'.congr (fun _ _ _ => Iff.rfl) rfl rfl (fun c a b hb => ⟨b, hb⟩) rfl
    · cases hs
  | announce =>
    simp only [step] at hs
    split at hs
    · cases hs
      unfold State.announce
      split
      · exact keep rfl rfl rfl rfl rfl
      · have h' := inv_sendAll (ch := fun m => m.beacon) (p := .beacon) (r := some false) (ms := s.modules) h
        exact h'.congr (fun _ _ _ => Iff.rfl) rfl rfl (fun c a b hb => ⟨b, hb⟩) rfl
    · cases hs
  | packet c p =>
    simp only [step] at hs
    split at hs
    · cases hs
    · rename_i k hk
      split at hs
      · rename_i hph
        have hA : s.At c k.addr .serving := hph ▸ at_of hk
        split at hs
        · rename_i hw
          cases hs
          have := hp.2
          simp [State.crash, State.setPhase, hw.2] at this
        · split at hs
          · split at hs <;> cases hs
            exact absurd hp.2 (by simp)
          · cases hs
            have hp1 := hp.1
            unfold State.handlePacket at hp1 ⊢
            split
            · rename_i hx
              simp [hx, State.crash, State.setPhase] at hp1
            · rename_i hx
              rw [if_neg hx] at hp1
              cases hm : AList.get? s.modules k.addr with
              | none => exact h
              | some m =>
                rw [hm] at hp1
                dsimp only at hp1 ⊢
                split
                · exact h
                · rename_i hy
                  rw [if_neg hy] at hp1
                  split
                  · rename_i hz
                    rw [if_pos hz] at hp1
                    split
                    · exact keep rfl rfl rfl rfl rfl
                    · exact keep rfl rfl rfl rfl rfl
                    · rename_i b2 hno _
                      cases b2 with
                      | fine => exact absurd rfl hno
                      | undecodable => simp at hp1
                      | unconvertible => simp at hp1
                    · exact h
                  · rename_i hz
                    rw [if_neg hz] at hp1
                    split
                    · exact inv_register h hA hm (by simpa using hz) hp1
                    · exact h
      · cases hs
  | proceed c =>
    simp only [step, State.proceed] at hs
    split at hs
    · cases hs
    · rename_i k hk
      have hA0 := at_of hk
      split at hs
      · rename_i hph
        rw [hph] at hA0
        split at hs
        · rename_i hw
          cases hs
          have := hp.2
          simp [State.crash, State.setPhase, hw.1] at this
        · cases hs
          have hno := h.untabled hA0 (by decide) rfl
          refine Inv.shift hb h (q := .entered) hA0 (setPhase_move hA0 _) (by decide) (by decide) (fun _ _ => rfl) ?_
            ?_ ?_ rfl rfl ?_
          · simp only [State.setPhase, hno]; simp [Phase.tabled, Phase.holds]
          · intro b hba; simp [AList.get?_insert, hba]
          · intro _; exact ⟨true, by simp⟩
          · intro n
            simp only [State.Holder, ActiveAs, State.setPhase, hno]
            simp
      · rename_i hph
        rw [hph] at hA0
        split at hs
        · rename_i hw
          cases hs
          have := hp.1
          simp [State.crash, State.setPhase, hw] at this
        · cases hs
          have hno := h.untabled hA0 (by decide) rfl
          refine Inv.shift hb h (q := .serving) hA0 (setPhase_move hA0 _) (by decide) (by decide) ?_ ?_
            (fun _ _ => rfl) ?_ rfl rfl ?_
          · intro b hba; simp [AList.get?_insert, hba]
          · simp [Phase.tabled, Phase.holds]
          · intro _; exact h.peer c _ _ hA0 rfl
          · intro n
            simp only [State.Holder, ActiveAs, State.setPhase, hno, AList.get?_insert_self]
            simp
      · rename_i hph
        rw [hph] at hA0
        split at hs
        · rename_i hl
          cases hs
          refine Inv.shift hb h (q := .leaving) hA0 (setPhase_move hA0 _) (by decide) (by decide) (fun _ _ => rfl) ?_
            (fun _ _ => rfl) ?_ rfl rfl ?_
          · exact ⟨fun _ => h.has c _ _ hA0 rfl, fun _ => rfl⟩
          · intro _; exact h.peer c _ _ hA0 rfl
          · intro n
            simp only [State.Holder, setPhase_move hA0]
            constructor
            · rintro ⟨-, hx⟩; exact ⟨⟨c, .stopped, hA0, rfl⟩, hx⟩
            · rintro ⟨-, hx⟩; exact ⟨⟨c, .leaving, by simp, rfl⟩, hx⟩
        · rename_i hl
          split at hs
          · cases hs
            refine Inv.shift hb h (q := .leaving) hA0 (setPhase_move hA0 _) (by decide) (by decide) (fun _ _ => rfl) ?_
              ?_ ?_ rfl rfl ?_
            · exact ⟨fun _ => h.has c _ _ hA0 rfl, fun _ => rfl⟩
            · intro b hba; simp [AList.get?_erase, hba]
            · intro hx; rw [hl] at hx; cases hx
            · intro n
              have hat := setPhase_move hA0 .leaving
              simp only [State.Holder]
              constructor
              · rintro ⟨-, hx⟩; exact ⟨⟨c, .stopped, hA0, rfl⟩, hx⟩
              · rintro ⟨-, hx⟩; exact ⟨⟨c, .leaving, (hat c _ _).mpr (by simp), rfl⟩, hx⟩
          · rename_i hc
            obtain ⟨b, hb'⟩ := h.peer c _ _ hA0 rfl
            exact absurd ((AList.contains_iff _ _).mpr ⟨_, hb'⟩) hc
      · rename_i hph
        rw [hph] at hA0
        have hat := setPhase_move hA0 .half
        obtain ⟨m, hm⟩ := h.has c _ _ hA0 rfl
        have hpr : (Phase.half).peered k.addr.layer = true → ∃ b, AList.get? s.peers k.addr = some (c, b) := by
          intro hx; exact h.peer c _ _ hA0 hx
        split at hs
        · rename_i hw
          cases hs
          have := hp.1
          simp [State.crash, State.setPhase, hw] at this
        · rw [hm] at hs
          dsimp only at hs
          have hnoh : ∀ {u : State}, (∀ d b r, u.At d b r ↔ (s.setPhase c .half).At d b r) → ∀ n, ¬ u.Holder k.addr n := by
            rintro u hu n ⟨⟨d, r, hd, hr⟩, -⟩
            have hd := (hat d _ _).mp ((hu d _ _).mp hd)
            by_cases hdc : d = c
            · rw [if_pos hdc] at hd
              rw [hd.2] at hr; cases hr
            · rw [if_neg hdc] at hd
              exact hdc (h.uniq d c _ r _ hd hA0 (by rintro rfl; cases hr) (by decide))
          split at hs
          · rename_i ha
            cases hs
            have hold : ∀ n, s.Holder k.addr n ↔ n = m.name := by
              intro n
              constructor
              · rintro ⟨-, m', hm', -, rfl⟩
                rw [hm] at hm'; cases hm'; rfl
              · rintro rfl
                exact ⟨⟨c, _, hA0, rfl⟩, m, hm, ha, rfl⟩
            refine h.move (q := .half) hA0 (fun d b r => hat d b r) (by decide) (by decide) (fun _ _ => rfl) ?_
              (fun _ _ => rfl) hpr rfl ?_ ?_ ?_ ?_
            · exact ⟨fun _ => ⟨m, hm⟩, fun _ => rfl⟩
            · intro n
              have hx := hnoh (u := { s.setPhase c .half with clas := s.clas.filter fun n => n ≠ m.name })
                (fun _ _ _ => Iff.rfl) n
              rw [hold]
              constructor
              · intro hn
                have := List.mem_filter.mp hn
                exact Or.inl ⟨this.1, by simpa using this.2⟩
              · rintro (⟨h1, h2⟩ | h3)
                · exact List.mem_filter.mpr ⟨h1, by simpa using h2⟩
                · exact absurd h3 hx
            · intro n hn
              rw [(hold n).mp hn]; exact hb.fresh _ m hm ha
            · intro n hn
              exact absurd hn (hnoh (u := { s.setPhase c .half with clas := s.clas.filter fun n => n ≠ m.name })
                (fun _ _ _ => Iff.rfl) n)
            · intro hd; exact List.Pairwise.filter _ hd
          · rename_i ha
            cases hs
            refine Inv.shift hb h (q := .half) hA0 hat (by decide) (by decide) (fun _ _ => rfl) ?_
              (fun _ _ => rfl) hpr rfl rfl ?_
            · exact ⟨fun _ => ⟨m, hm⟩, fun _ => rfl⟩
            · intro n
              constructor
              · intro hx; exact absurd hx (hnoh (fun _ _ _ => Iff.rfl) n)
              · rintro ⟨-, m', hm', ha', -⟩
                rw [hm] at hm'; cases hm'
                exact absurd ha' ha
      · rename_i hph
        rw [hph] at hA0
        split at hs
        · rename_i hw
          cases hs
          have := hp.1
          simp [State.crash, State.setPhase, hw] at this
        · cases hs
          have hnoh := h.unheld hA0 (by decide) rfl
          cases hl : k.addr.layer with
          | tcp =>
            refine Inv.shift hb h (q := .gone) hA0 (setPhase_move hA0 _) (by decide) (by decide) ?_ ?_
              (fun _ _ => rfl) ?_ rfl rfl ?_
            · intro b hba; simp [AList.get?_erase, hba]
            · simp [AList.get?_erase, Phase.tabled, Phase.holds]
            · intro hx; cases hx
            · intro n
              constructor
              · rintro ⟨-, m', hm', -⟩
                simp [AList.get?_erase] at hm'
              · intro hx; exact absurd hx (hnoh n)
          | websocket =>
            refine Inv.shift hb h (q := .left) hA0 (setPhase_move hA0 _) (by decide) (by decide) ?_ ?_
              (fun _ _ => rfl) ?_ rfl rfl ?_
            · intro b hba; simp [AList.get?_erase, hba]
            · simp [AList.get?_erase, Phase.tabled, Phase.holds]
            · intro _
              exact h.peer c _ _ hA0 (by simp [Phase.peered, hl])
            · intro n
              constructor
              · rintro ⟨-, m', hm', -⟩
                simp [AList.get?_erase] at hm'
              · intro hx; exact absurd hx (hnoh n)
      · rename_i hph
        rw [hph] at hA0
        have hno := h.untabled hA0 (by decide) rfl
        split at hs
        · rename_i hw
          cases hs
          have := hp.2
          simp [State.crash, State.setPhase, hw] at this
        · cases hs
          refine Inv.shift hb h (q := .gone) hA0 (setPhase_move hA0 _) (by decide) (by decide) (fun _ _ => rfl) ?_
            ?_ ?_ rfl rfl ?_
          · simp only [State.setPhase, hno]; simp [Phase.tabled, Phase.holds]
          · intro b hba; simp [AList.get?_erase, hba]
          · intro hx; cases hx
          · intro n
            simp only [State.Holder, ActiveAs, State.setPhase, hno]
            simp
      all_goals cases hs

end Dtn.Ecla
