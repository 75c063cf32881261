import Verif.Lemmas.White
import Verif.Model.Routing.Static
import Verif.Lemmas.Peer
import Verif.Spec.StaticRouting
import Std.Data.String.ToNat
import Mathlib.Data.List.Induction
/-! Lemmas about static routing. -/

namespace Dtn.Routing.StaticRouting
open Dtn Spec

theorem viaPeer_spec (via : String) (running : List Cla) (ps : List Peer) (s : Sender)
    (h : viaPeer via running ps = some s) : ∃ p ∈ ps, p.eid.print = via ∧ SendsTo running p s := by
  induction ps with
  | nil => simp [viaPeer] at h
  | cons p ps ih =>
    unfold viaPeer at h
    have tl : (∃ q ∈ ps, q.eid.print = via ∧ SendsTo running q s) →
        ∃ q ∈ p :: ps, q.eid.print = via ∧ SendsTo running q s := by
      rintro ⟨q, hq, h⟩; exact ⟨q, List.mem_cons_of_mem _ hq, h⟩
    split at h
    · rename_i hv
      cases hf : p.firstCla running with
      | none => rw [hf] at h; exact tl (ih h)
      | some cla =>
        rw [hf] at h; injection h with h; subst h
        exact ⟨p, by simp, hv, Peer.firstCla_sendsTo hf⟩
    · exact tl (ih h)

theorem viaPeer_none (via : String) (running : List Cla) (ps : List Peer) :
    viaPeer via running ps = none ↔ ∀ p ∈ ps, p.eid.print = via → ¬ Usable running p := by
  induction ps with
  | nil => simp [viaPeer]
  | cons p ps ih =>
    unfold viaPeer
    simp only [List.forall_mem_cons]
    split
    · rename_i hv
      cases hf : p.firstCla running with
      | none =>
        simp only [ih]
        have : ¬ Usable running p := by rw [← Peer.firstCla_isSome_iff, hf]; simp
        exact ⟨fun h => ⟨fun _ => this, h⟩, fun h => h.2⟩
      | some cla =>
        have : Usable running p := by rw [← Peer.firstCla_isSome_iff, hf]; rfl
        simp [hv, this]
    · rename_i hv
      simp [hv, ih]

theorem words_pad (pad : List Char) (s : List Char) (hp : ∀ c ∈ pad, isBlank c = true) :
    words [] (pad ++ s) = words [] s := by
  induction pad with
  | nil => rfl
  | cons c pad ih =>
    have hc := hp c (by simp)
    simp only [List.cons_append, words, hc, if_true]
    exact ih (fun d hd => hp d (by simp [hd]))

theorem words_word (cur w : List Char) (hw : ∀ c ∈ w, isBlank c = false) (s : List Char) :
    words cur (w ++ s) = words (w.reverse ++ cur) s := by
  induction w generalizing cur with
  | nil => rfl
  | cons c w ih =>
    have hc := hw c (by simp)
    simp only [List.cons_append, words, hc, Bool.false_eq_true, if_false]
    rw [ih (c :: cur) (fun d hd => hw d (by simp [hd]))]
    simp

/-- A word followed by blanks is split off. -/
theorem words_split (w pad s : List Char) (hw : ∀ c ∈ w, isBlank c = false) (hne : w ≠ [])
    (hp : ∀ c ∈ pad, isBlank c = true) (hpne : pad ≠ []) : words [] (w ++ pad ++ s) = w :: words [] s := by
  rw [List.append_assoc, words_word _ _ hw]
  cases pad with
  | nil => exact absurd rfl hpne
  | cons c pad =>
    have hc := hp c (by simp)
    have : w.reverse ≠ [] := by simpa using hne
    simp only [List.cons_append, words, hc, if_true, List.append_nil, if_neg this, List.reverse_reverse]
    rw [words_pad pad s (fun d hd => hp d (by simp [hd]))]

theorem words_last (w pad : List Char) (hw : ∀ c ∈ w, isBlank c = false) (hne : w ≠ [])
    (hp : ∀ c ∈ pad, isBlank c = true) : words [] (w ++ pad) = [w] := by
  by_cases hpad : pad = []
  · subst hpad
    rw [words_word _ _ hw]
    have : w.reverse ++ [] ≠ [] := by simpa using hne
    simp only [words, if_neg this]
    simp
  · have := words_split w pad [] hw hne hp hpad
    rw [List.append_nil] at this
    rw [this]; rfl

theorem digits_eq (s : List Char) (acc : Nat) (h : ∀ c ∈ s, '0' ≤ c ∧ c ≤ '9') :
    digits acc s = some (Nat.ofDigitChars 10 s acc) := by
  induction s generalizing acc with
  | nil => simp [digits]
  | cons c s ih =>
    have hc := h c (by simp)
    simp only [digits, hc, and_self, if_true]
    rw [ih _ (fun d hd => h d (by simp [hd])), Nat.ofDigitChars_cons]
    congr 2
    rw [Nat.mul_comm]
    rfl

theorem toDigits_digit (n : Nat) : ∀ c ∈ Nat.toDigits 10 n, '0' ≤ c ∧ c ≤ '9' := by
  intro c hc
  have h := Nat.isDigit_of_mem_toDigits (b := 10) (by decide) (by decide) hc
  simp only [Char.isDigit, Bool.and_eq_true, decide_eq_true_eq] at h
  exact h

theorem parseU16_toString (n : Nat) (hn : n < 65536) : parseU16 (toString n).toList = some n := by
  have h1 : (toString n).toList = Nat.toDigits 10 n := by
    show (Nat.repr n).toList = _
    simp [Nat.repr]
  rw [h1]
  have hd := toDigits_digit n
  have hne : Nat.toDigits 10 n ≠ [] := Nat.toDigits_ne_nil
  unfold parseU16
  have hplus : stripPlus (Nat.toDigits 10 n) = Nat.toDigits 10 n := by
    unfold stripPlus
    rw [if_neg]
    intro h
    have := hd '+' (List.mem_of_mem_head? h)
    revert this; decide
  rw [hplus, if_neg hne]
  rw [digits_eq _ _ hd, Nat.ofDigitChars_ten_toDigits]
  simp [hn]

theorem run_append (glob : String → String → Bool) (s : State) (l1 l2 : List Op) :
    run glob s (l1 ++ l2) = run glob (run glob s l1) l2 := by simp [run, List.foldl_append]

theorem isBlank_iff (c : Char) : isBlank c = true ↔ Blank c := by
  exact isWhite_iff c

theorem isBlank_false_iff (c : Char) : isBlank c = false ↔ ¬ Blank c := by
  rw [← isBlank_iff]; simp

/-- The shape of a line with a first word. -/
theorem words_inv (s : List Char) : ∀ (cur w : List Char) (rest : List (List Char)), words cur s = w :: rest →
    (∀ c ∈ cur, isBlank c = false) →
    ∃ pad u s', s = pad ++ u ++ s' ∧ w = cur.reverse ++ u ∧ (cur ≠ [] → pad = []) ∧ (∀ c ∈ pad, isBlank c = true) ∧
      w ≠ [] ∧ (∀ c ∈ u, isBlank c = false) ∧ (∀ c, s'.head? = some c → isBlank c = true) ∧ words [] s' = rest := by
  induction s with
  | nil =>
    intro cur w rest h _
    unfold words at h
    split at h
    · cases h
    · rename_i hc
      injection h with h1 h2
      refine ⟨[], [], [], rfl, by simp [← h1], fun _ => rfl, by simp, ?_, by simp, by simp, by simpa [words] using h2⟩
      rw [← h1]; simpa using hc
  | cons c s ih =>
    intro cur w rest h hcur
    unfold words at h
    by_cases hb : isBlank c = true
    · simp only [hb, if_true] at h
      by_cases hc : cur = []
      · rw [if_pos hc] at h
        obtain ⟨pad, u, s', h1, h2, h3, h4, h5, h6, h7, h8⟩ := ih [] w rest h (by simp)
        refine ⟨c :: pad, u, s', by simp [h1], by simp [hc, h2], fun hne => absurd hc hne, ?_, h5, h6, h7, h8⟩
        intro d hd
        rcases List.mem_cons.mp hd with rfl | hd
        · exact hb
        · exact h4 d hd
      · rw [if_neg hc] at h
        injection h with h1 h2
        refine ⟨[], [], c :: s, rfl, by simp [← h1], fun _ => rfl, by simp, by rw [← h1]; simpa using hc, by simp,
          by rintro d hd; simp at hd; subst hd; exact hb, ?_⟩
        unfold words
        simp only [hb, if_true]
        exact h2
    · have hb' : isBlank c = false := by simpa using hb
      simp only [hb', Bool.false_eq_true, if_false] at h
      obtain ⟨pad, u, s', h1, h2, h3, h4, h5, h6, h7, h8⟩ := ih (c :: cur) w rest h (by
        intro d hd
        rcases List.mem_cons.mp hd with rfl | hd
        · exact hb'
        · exact hcur d hd)
      have hp := h3 (by simp)
      subst hp
      refine ⟨[], c :: u, s', by simpa using h1, by simp [h2], fun _ => rfl, by simp, h5, ?_, h7, h8⟩
      intro d hd
      rcases List.mem_cons.mp hd with rfl | hd
      · exact hb'
      · exact h6 d hd

theorem words_eq_nil (s : List Char) (cur : List Char) :
    words cur s = [] ↔ cur = [] ∧ ∀ c ∈ s, isBlank c = true := by
  induction s generalizing cur with
  | nil => unfold words; by_cases h : cur = [] <;> simp [h]
  | cons c s ih =>
    unfold words
    by_cases hb : isBlank c = true
    · by_cases hc : cur = []
      · simp [hb, hc, ih]
      · simp [hb, hc]
    · simp [hb, ih]

theorem words_cons (w s' : List Char) (hw : ∀ c ∈ w, isBlank c = false) (hne : w ≠ [])
    (hs : ∀ c, s'.head? = some c → isBlank c = true) : words [] (w ++ s') = w :: words [] s' := by
  rw [words_word _ _ hw]
  have hn : w.reverse ++ [] ≠ [] := by simpa using hne
  cases s' with
  | nil => unfold words; rw [if_neg hn]; simp
  | cons c s =>
    have hc := hs c rfl
    have hr : words [] (c :: s) = words [] s := by
      conv_lhs => unfold words
      simp [hc]
    rw [hr]
    conv_lhs => unfold words
    simp [hc, hne]

theorem digits_some {s : List Char} {acc n : Nat} (h : digits acc s = some n) : ∀ c ∈ s, '0' ≤ c ∧ c ≤ '9' := by
  induction s generalizing acc with
  | nil => simp
  | cons c s ih =>
    unfold digits at h
    split at h
    · rename_i hc
      intro d hd
      rcases List.mem_cons.mp hd with rfl | hd
      · exact hc
      · exact ih h d hd
    · cases h

theorem parseU16_iff (text : List Char) (n : Nat) : parseU16 text = some n ↔ Denotes text n := by
  constructor
  · intro h
    unfold parseU16 at h
    split at h
    · cases h
    · rename_i hne
      cases hd : digits 0 (stripPlus text) with
      | none => rw [hd] at h; cases h
      | some m =>
        rw [hd] at h
        simp only at h
        split at h
        · rename_i hm
          injection h with h; subst h
          have hds := digits_some hd
          refine ⟨stripPlus text, ?_, hne, hds, ?_, hm⟩
          · unfold stripPlus
            cases text with
            | nil => left; simp
            | cons c t =>
              by_cases hc : c = '+'
              · right; simp [hc]
              · left; simp [hc]
          · rw [digits_eq _ _ hds] at hd
            injection hd with hd; exact hd.symm
        · cases h
  · rintro ⟨ds, ht, hne, hds, hn, hlt⟩
    have hs : stripPlus text = ds := by
      rcases ht with rfl | rfl
      · unfold stripPlus
        rw [if_neg]
        intro h
        have := hds '+' (List.mem_of_mem_head? h)
        revert this; decide
      · simp [stripPlus]
    unfold parseU16
    rw [hs, if_neg hne, digits_eq _ _ hds, ← hn]
    simp [hlt]

theorem parseRoute_comment (line : List Char) : parseRoute line = some none ↔ IsComment line := by
  unfold parseRoute
  cases hw : words [] line with
  | nil =>
    simp only [true_iff]
    left
    intro c hc
    exact (isBlank_iff c).mp (((words_eq_nil line []).mp hw).2 c hc)
  | cons w rest =>
    obtain ⟨pad, u, s', h1, h2, _, h4, h5, h6, h7, h8⟩ := words_inv line [] w rest hw (by simp)
    simp only [List.reverse_nil, List.nil_append] at h2
    subst h2
    simp only
    by_cases hh : w.head? = some '#'
    · simp only [hh, if_true, true_iff]
      right
      cases w with
      | nil => cases hh
      | cons c w =>
        simp at hh; subst hh
        exact ⟨pad, w ++ s', fun c hc => (isBlank_iff c).mp (h4 c hc), by simp [h1]⟩
    · rw [if_neg hh]
      constructor
      · intro h
        split at h <;> cases h
      · rintro (hbl | ⟨pad', rest', hp, he⟩)
        · exfalso
          have : words [] line = [] := (words_eq_nil line []).mpr ⟨rfl, fun c hc => (isBlank_iff c).mpr (hbl c hc)⟩
          rw [this] at hw; cases hw
        · exfalso
          have e1 : words [] line = words [] ('#' :: rest') := by
            rw [he]; exact words_pad _ _ (fun c hc => (isBlank_iff c).mpr (hp c hc))
          rw [hw] at e1
          obtain ⟨pad2, u2, s2, g1, g2, _, g4, g5, g6, _, _⟩ := words_inv ('#' :: rest') [] w rest e1.symm (by simp)
          cases pad2 with
          | nil =>
            simp only [List.reverse_nil, List.nil_append] at g1 g2
            subst g2
            cases w with
            | nil => exact g5 rfl
            | cons c w =>
              simp only [List.cons_append, List.cons.injEq] at g1
              exact hh (by simp [← g1.1])
          | cons c pad2 =>
            simp only [List.cons_append, List.cons.injEq] at g1
            have := g4 c (by simp)
            rw [← g1.1] at this
            revert this; decide

theorem parseRoute_route (line : List Char) (r : Route) : parseRoute line = some (some r) ↔ IsRouteLine line r := by
  constructor
  · intro h
    unfold parseRoute at h
    cases hw : words [] line with
    | nil => rw [hw] at h; cases h
    | cons w rest =>
      rw [hw] at h
      simp only at h
      split at h
      · cases h
      · cases hp : parseU16 w with
        | none => rw [hp] at h; cases h
        | some idx =>
          rw [hp] at h
          match rest, h with
          | src :: dst :: via :: more, h =>
            simp only [Option.some.injEq] at h
            obtain ⟨p0, u0, s0, a1, a2, _, a4, a5, a6, a7, a8⟩ := words_inv line [] w _ hw (by simp)
            obtain ⟨p1, u1, s1, b1, b2, _, b4, b5, b6, b7, b8⟩ := words_inv s0 [] src _ a8 (by simp)
            obtain ⟨p2, u2, s2, c1, c2, _, c4, c5, c6, c7, c8⟩ := words_inv s1 [] dst _ b8 (by simp)
            obtain ⟨p3, u3, s3, d1, d2, _, d4, d5, d6, d7, d8⟩ := words_inv s2 [] via _ c8 (by simp)
            simp only [List.reverse_nil, List.nil_append] at a2 b2 c2 d2
            subst a2 b2 c2 d2
            have ne : ∀ (p u s' s : List Char), s = p ++ u ++ s' → u ≠ [] → (∀ c ∈ u, isBlank c = false) →
                (∀ c, s.head? = some c → isBlank c = true) → p ≠ [] := by
              intro p u s' s hs hu hub hh hp
              subst hp
              cases u with
              | nil => exact hu rfl
              | cons c u =>
                have := hh c (by simp [hs])
                rw [hub c (by simp)] at this; cases this
            have bl : ∀ p : List Char, (∀ c ∈ p, isBlank c = true) → Blanks p :=
              fun p hp c hc => (isBlank_iff c).mp (hp c hc)
            have wd : ∀ u : List Char, u ≠ [] → (∀ c ∈ u, isBlank c = false) → IsWord u :=
              fun u hu hp => ⟨hu, fun c hc => (isBlank_false_iff c).mp (hp c hc)⟩
            refine ⟨p0, w, p1, src, p2, dst, p3, via, s3, ?_, bl _ a4, bl _ b4, ne _ _ _ _ b1 b5 b6 a7, bl _ c4,
              ne _ _ _ _ c1 c5 c6 b7, bl _ d4, ne _ _ _ _ d1 d5 d6 c7, wd _ a5 a6, wd _ b5 b6, wd _ c5 c6, wd _ d5 d6,
              fun c hc => (isBlank_iff c).mp (d7 c hc), ?_, ?_, ?_, ?_⟩
            · rw [a1, b1, c1, d1]; simp
            · rw [← h]; exact (parseU16_iff _ _).mp hp
            · rw [← h]
            · rw [← h]
            · rw [← h]
          | [], h => cases h
          | [_], h => cases h
          | [_, _], h => cases h
  · rintro ⟨p0, idx, p1, src, p2, dst, p3, via, rest, hl, h0, h1, n1, h2, n2, h3, n3, wi, ws, wd, wv, hr, hd, e1, e2, e3⟩
    have bl : ∀ p : List Char, Blanks p → (∀ c ∈ p, isBlank c = true) :=
      fun p hp c hc => (isBlank_iff c).mpr (hp c hc)
    have nb : ∀ u : List Char, IsWord u → (∀ c ∈ u, isBlank c = false) :=
      fun u hu c hc => (isBlank_false_iff c).mpr (hu.2 c hc)
    have key : words [] line = idx :: src :: dst :: via :: words [] rest := by
      rw [hl]
      have : p0 ++ idx ++ p1 ++ src ++ p2 ++ dst ++ p3 ++ via ++ rest =
          p0 ++ (idx ++ p1 ++ (src ++ p2 ++ (dst ++ p3 ++ (via ++ rest)))) := by simp
      rw [this, words_pad _ _ (bl _ h0), words_split _ _ _ (nb _ wi) wi.1 (bl _ h1) n1,
        words_split _ _ _ (nb _ ws) ws.1 (bl _ h2) n2, words_split _ _ _ (nb _ wd) wd.1 (bl _ h3) n3,
        words_cons _ _ (nb _ wv) wv.1 (fun c hc => (isBlank_iff c).mpr (hr c hc))]
    unfold parseRoute
    rw [key]
    have hh : ¬ idx.head? = some '#' := by
      intro hh
      obtain ⟨ds, ht, hne, hds, _⟩ := hd
      rcases ht with rfl | rfl
      · have := hds '#' (List.mem_of_mem_head? hh)
        revert this; decide
      · simp at hh
    simp only [if_neg hh, (parseU16_iff _ _).mpr hd]
    cases r
    simp_all

theorem load_iff (lines : List (List Char)) (rs : List Route) : load lines = some rs ↔ FileMeans lines rs := by
  induction lines generalizing rs with
  | nil =>
    simp only [load, Option.some.injEq]
    constructor
    · rintro rfl; exact .nil
    · intro h; cases h; rfl
  | cons line lines ih =>
    unfold load
    constructor
    · intro h
      cases hp : parseRoute line with
      | none => rw [hp] at h; cases h
      | some o =>
        rw [hp] at h
        cases o with
        | none => exact .comment ((parseRoute_comment _).mp hp) ((ih rs).mp h)
        | some r =>
          simp only at h
          cases hl : load lines with
          | none => rw [hl] at h; cases h
          | some rs' =>
            rw [hl] at h
            injection h with h; subst h
            exact .route ((parseRoute_route _ _).mp hp) ((ih rs').mp hl)
    · intro h
      cases h with
      | comment hc hr => rw [(parseRoute_comment _).mpr hc]; exact (ih rs).mpr hr
      | route hc hr => rw [(parseRoute_route _ _).mpr hc]; simp only; rw [(ih _).mpr hr]

theorem answer_spec (glob : String → String → Bool) (peers : List Peer) (running : List Cla) (bp : Pack)
    (rs : List Route) :
    (∀ r, FirstRoute glob peers running bp rs r → ∃ p ∈ peers, ∃ s, p.eid.print = r.via ∧ SendsTo running p s ∧
      answer glob peers running bp rs = { clas := [s], delete := !bp.destination.isNonSingleton }) ∧
    ((∀ r ∈ rs, ¬ Applies glob peers running bp r) →
      answer glob peers running bp rs = { clas := [], delete := false }) := by
  induction rs with
  | nil =>
    refine ⟨?_, fun _ => rfl⟩
    rintro r ⟨pre, post, h, _⟩
    simp at h
  | cons q rs ih =>
    by_cases hm : (glob q.src bp.source.print && glob q.dst bp.destination.print) = true
    · cases hv : viaPeer q.via running peers with
      | none =>
        have hna : ¬ Applies glob peers running bp q := by
          rintro ⟨_, _, p, hp, he, hu⟩
          exact (viaPeer_none _ _ _).mp hv p hp he hu
        have e : answer glob peers running bp (q :: rs) = answer glob peers running bp rs := by
          simp only [answer, hm, if_true, hv]
        rw [e]
        refine ⟨?_, fun h => ih.2 fun r hr => h r (List.mem_cons_of_mem _ hr)⟩
        rintro r ⟨pre, post, hpp, hr, hpre⟩
        cases pre with
        | nil => simp only [List.nil_append, List.cons.injEq] at hpp; rw [← hpp.1] at hr; exact absurd hr hna
        | cons a pre =>
          simp only [List.cons_append, List.cons.injEq] at hpp
          exact ih.1 r ⟨pre, post, hpp.2, hr, fun r' hr' => hpre r' (List.mem_cons_of_mem _ hr')⟩
      | some s =>
        obtain ⟨p, hp, he, hs⟩ := viaPeer_spec _ _ _ _ hv
        have hu : Usable running p := by
          obtain ⟨_, x, hx, h1, h2, h3, _⟩ := hs
          exact ⟨x, hx, s.tx, h1, h2, h3⟩
        have ha : Applies glob peers running bp q := by
          simp only [Bool.and_eq_true] at hm
          exact ⟨hm.1, hm.2, p, hp, he, hu⟩
        have e : answer glob peers running bp (q :: rs) = { clas := [s], delete := !bp.destination.isNonSingleton } := by
          simp only [answer, hm, if_true, hv]
        rw [e]
        refine ⟨?_, fun h => absurd ha (h q (by simp))⟩
        rintro r ⟨pre, post, hpp, hr, hpre⟩
        cases pre with
        | nil =>
          simp only [List.nil_append, List.cons.injEq] at hpp
          rw [← hpp.1]
          exact ⟨p, hp, s, he, hs, rfl⟩
        | cons a pre =>
          simp only [List.cons_append, List.cons.injEq] at hpp
          exact absurd (hpp.1 ▸ ha) (hpre a (by simp))
    · have hna : ¬ Applies glob peers running bp q := by
        rintro ⟨h1, h2, _⟩
        exact hm (by simp [h1, h2])
      have e : answer glob peers running bp (q :: rs) = answer glob peers running bp rs := by
        simp only [answer, if_neg hm]
      rw [e]
      refine ⟨?_, fun h => ih.2 fun r hr => h r (List.mem_cons_of_mem _ hr)⟩
      rintro r ⟨pre, post, hpp, hr, hpre⟩
      cases pre with
      | nil => simp only [List.nil_append, List.cons.injEq] at hpp; rw [← hpp.1] at hr; exact absurd hr hna
      | cons a pre =>
        simp only [List.cons_append, List.cons.injEq] at hpp
        exact ih.1 r ⟨pre, post, hpp.2, hr, fun r' hr' => hpre r' (List.mem_cons_of_mem _ hr')⟩

theorem fileInForce_append (file : Option (List (List Char))) (ops : List Op) (op : Op) :
    fileInForce file (ops ++ [op]) =
      match op with
      | .command cmd (some lines) => if cmd = "reload" then some lines else fileInForce file ops
      | _ => fileInForce file ops := by
  cases op with
  | command cmd f => cases f <;> simp [fileInForce, List.foldl_append]
  | _ => simp [fileInForce, List.foldl_append]

/-- While the task runs, its routes are those of the file in force. -/
theorem routes_run (glob : String → String → Bool) (file : Option (List (List Char))) (ops : List Op) (rs : List Route)
    (h : (run glob (start file) ops).routes = some rs) : RoutesInForce file ops rs := by
  induction ops using List.reverseRecOn generalizing rs with
  | nil =>
    unfold RoutesInForce
    cases file with
    | none => simpa [run, start, fileInForce] using h.symm
    | some lines => exact (load_iff _ _).mp h
  | append_singleton ops op ih =>
    rw [run_append] at h
    change (step glob (run glob (start file) ops) op).routes = some rs at h
    cases hs : (run glob (start file) ops).routes with
    | none => exfalso; cases op <;> simp [step, hs] at h
    | some rs0 =>
      have hin := ih rs0 hs
      unfold RoutesInForce at hin ⊢
      rw [fileInForce_append]
      cases op with
      | request peers running bp =>
        simp only [step, hs, Option.some.injEq] at h
        subst h; exact hin
      | notify n =>
        simp only [step, hs, Option.some.injEq] at h
        subst h; exact hin
      | shutdown => simp [step, hs] at h
      | command cmd f =>
        cases f with
        | none =>
          simp only [step, hs, ite_self, Option.some.injEq] at h
          subst h; exact hin
        | some lines =>
          by_cases hc : cmd = "reload"
          · simp only [step, hs, hc, if_true] at h
            simp only [hc, if_true]
            exact (load_iff _ _).mp h
          · simp only [step, hs, hc, if_false, Option.some.injEq] at h
            simp only [hc, if_false]
            subst h; exact hin

end Dtn.Routing.StaticRouting
