import Verif.Lemmas.WsBooks

namespace Dtn.Ws
open Spec Spec.WsSpec Routing.StaticRouting

variable {x : Ext} {host : EID}

theorem dropWhile_blanks (l m : List Char) (hl : ∀ c ∈ l, isBlank c = true) (hm : ∀ c, m.head? = some c → isBlank c = false) :
    (l ++ m).dropWhile isBlank = m := by
  induction l with
  | nil =>
    cases m with
    | nil => rfl
    | cons c m => simp [hm c rfl]
  | cons c l ih =>
    rw [List.cons_append, List.dropWhile_cons_of_pos (hl c List.mem_cons_self)]
    exact ih fun c hc => hl c (List.mem_cons_of_mem _ hc)

theorem trim_pad (l m r : List Char) (hl : ∀ c ∈ l, isBlank c = true) (hr : ∀ c ∈ r, isBlank c = true)
    (h1 : ∀ c, m.head? = some c → isBlank c = false) (h2 : ∀ c, m.getLast? = some c → isBlank c = false) (hne : m ≠ []) :
    trim (l ++ m ++ r) = m := by
  unfold trim
  rw [List.append_assoc, dropWhile_blanks l (m ++ r) hl]
  · rw [List.reverse_append, dropWhile_blanks]
    · simp
    · intro c hc; exact hr c (List.mem_reverse.mp hc)
    · intro c hc; rw [List.head?_reverse] at hc; exact h2 c hc
  · intro c hc
    cases m with
    | nil => exact absurd rfl hne
    | cons d m => exact h1 c hc

theorem split2_space (w a : List Char) (hw : ' ' ∉ w) : split2 (w ++ ' ' :: a) = (w, some a) := by
  induction w with
  | nil => simp [split2]
  | cons c w ih =>
    have hc : c ≠ ' ' := fun h => hw (by simp [h])
    have := ih fun h => hw (List.mem_cons_of_mem _ h)
    simp [split2, hc, this]

theorem split2_none (w : List Char) (hw : ' ' ∉ w) : split2 w = (w, none) := by
  induction w with
  | nil => rfl
  | cons c w ih =>
    have hc : c ≠ ' ' := fun h => hw (by simp [h])
    have := ih fun h => hw (List.mem_cons_of_mem _ h)
    simp [split2, hc, this]

/-! ### who is delivered to, when nobody meddles -/

theorem other_not_subscribed {i e j evs} (hm : ∀ ev ∈ evs, ¬ meddles x host i e ev) (hj : j ≠ i) :
    subscribed x host j e evs = false := by
  induction evs with
  | nil => rfl
  | cons ev evs ih =>
    have ih := ih fun ev' h => hm ev' (List.mem_cons_of_mem _ h)
    have h0 := hm ev List.mem_cons_self
    cases ev with
    | text k msg =>
      simp only [subscribed]
      by_cases hk : k = j ∧ connected j evs = true
      · obtain ⟨rfl, hc⟩ := hk
        rw [if_pos ⟨rfl, hc⟩]
        simp only [meddles] at h0
        cases hp : parseCmd msg with
        | subscribe arg =>
          rw [hp] at h0
          dsimp only at h0 ⊢
          rw [if_neg (fun h => h0 ⟨hj, h.1⟩)]; exact ih
        | unsubscribe arg =>
          cases arg with
          | none => exact ih
          | some a =>
            dsimp only
            split
            · rfl
            · exact ih
        | _ => exact ih
      · rw [if_neg hk]; exact ih
    | ended k =>
      simp only [subscribed]
      split
      · rfl
      · exact ih
    | _ => exact ih

theorem D_upd (h : Hub) (i f e) : D (h.upd i f).apps e = D h.apps e := rfl

theorem sole_deliv (i e store) (evs : List Ev) (hm : ∀ ev ∈ evs, ¬ meddles x host i e ev)
    (hs : subscribed x host i e evs.reverse = true) : D (run x host (Ws.init store) evs).apps e = some i := by
  induction evs using List.reverseRecOn with
  | nil => cases hs
  | append_singleton evs ev ih =>
    have hm' : ∀ ev ∈ evs, ¬ meddles x host i e ev := fun ev h => hm ev (List.mem_append.mpr (Or.inl h))
    have h0 := hm ev (by simp)
    have t := Track.run x host store evs
    have ih := ih hm'
    have hmr : ∀ ev ∈ evs.reverse, ¬ meddles x host i e ev := fun ev h => hm' ev (List.mem_reverse.mp h)
    rw [run_snoc]
    rw [List.reverse_append] at hs
    change subscribed x host i e (ev :: evs.reverse) = true at hs
    generalize hH : run x host (Ws.init store) evs = H at *
    cases ev with
    | connect => exact ih hs
    | binary k bin =>
      simp only [step]
      rcases t.live (i := k) (fun s => handleBinary x H k s bin) with ⟨s, _, _, _, he⟩ | ⟨_, he⟩
      · rw [he, (quiet_binary _ _ _ _ _).d]; exact ih hs
      · rw [he]; exact ih hs
    | ping k m =>
      simp only [step]
      rcases t.live (i := k) (fun _ => H.upd k fun s => s.say (.ping m)) with ⟨s, _, _, _, he⟩ | ⟨_, he⟩
      · rw [he]; exact ih hs
      · rw [he]; exact ih hs
    | pump k =>
      simp only [step]
      rcases t.live (i := k) (fun s => pump x H k s) with ⟨s, _, _, _, he⟩ | ⟨_, he⟩
      · rw [he, (quiet_pump _ _ _ _).d]; exact ih hs
      · rw [he]; exact ih hs
    | register e' => simp only [step]; rw [D_register]; exact ih hs
    | unregister e' =>
      simp only [step]
      rw [D_unregister _ t.nodup, if_neg (fun h => h0 h.symm)]
      exact ih hs
    | deliver e' b => simp only [step]; rw [(quiet_deliver _ _ _).d]; exact ih hs
    | pop e' => simp only [step]; rw [(quiet_pop _ _).d]; exact ih hs
    | ended k =>
      simp only [step]
      simp only [subscribed] at hs
      by_cases hk : k = i
      · rw [if_pos hk] at hs; cases hs
      · rw [if_neg hk] at hs
        rcases t.live (i := k) (fun s => endSession H k s) with ⟨s, hs', ha, _, he⟩ | ⟨_, he⟩
        · rw [he, (ends_endSession H k s).d, if_neg]
          · exact ih hs
          · intro hin
            have := (((t.sess k _ (V_get hs')).2 ha).2 e).mp hin
            rw [other_not_subscribed hmr hk] at this
            cases this
        · rw [he]; exact ih hs
    | text k msg =>
      simp only [step]
      simp only [subscribed] at hs
      rcases t.live (i := k) (fun s => handleText x host H k s msg) with ⟨s, hs', ha, hc, he⟩ | ⟨hc, he⟩
      · rw [he]
        unfold handleText
        simp only [meddles] at h0
        cases hp : parseCmd msg with
        | subscribe arg =>
          rw [hp] at h0 hs
          dsimp only at h0 hs ⊢
          rcases subscribe_cases x host H k arg with ⟨e', h1, h2, h3⟩ | ⟨h1, h2⟩
          · rw [h3.d]
            by_cases hee : e = e'
            · subst hee
              rw [if_pos rfl]
              by_cases hk : k = i
              · rw [hk]
              · exact absurd ⟨hk, h1⟩ h0
            · rw [if_neg hee]
              have hne : ¬ (meant x host arg = some e ∧ registered e evs.reverse = true) := by
                rintro ⟨h, -⟩; rw [h1] at h; cases h; exact hee rfl
              rw [if_neg hne, ite_self] at hs
              exact ih hs
          · rw [h2.d]
            have hne : ¬ (meant x host arg = some e ∧ registered e evs.reverse = true) :=
              fun hh => h1 e hh.1 ((t.reg e).mpr hh.2)
            rw [if_neg hne, ite_self] at hs
            exact ih hs
        | unsubscribe arg =>
          dsimp only
          rcases unsubscribe_cases x H k s arg with ⟨a, e', h1, h2, h3, h4⟩ | ⟨h1, h2⟩
          · subst h1
            rw [hp] at h0 hs
            dsimp only at h0 hs
            rw [h4.d]
            by_cases hee : e = e'
            · subst hee
              by_cases hk : k = i
              · subst hk
                rw [if_pos ⟨rfl, hc⟩, if_pos h2] at hs; cases hs
              · exact absurd ⟨hk, h2⟩ h0
            · rw [if_neg hee]
              rw [if_neg (c := x.parseEid a = some e) (by rw [h2]; intro h; cases h; exact hee rfl), ite_self] at hs
              exact ih hs
          · rw [h2.d]
            apply ih
            by_cases hk : k = i ∧ connected i evs.reverse = true
            · rw [if_pos hk, hp] at hs
              cases arg with
              | none => exact hs
              | some a =>
                dsimp only at hs
                split at hs
                · cases hs
                · exact hs
            · rw [if_neg hk] at hs; exact hs
        | _ =>
          rw [hp] at hs
          dsimp only at hs
          rw [ite_self] at hs
          exact ih hs
      · rw [he]
        rw [if_neg (by rintro ⟨rfl, h⟩; rw [hc] at h; cases h)] at hs
        exact ih hs

theorem sess_of_connected {evs : List Ev} {h : Hub} {i} (t : Track x host evs h) (hc : connected i evs = true) :
    ∃ s, h.sessions[i]? = some s ∧ s.alive = true ∧ s.mode = chosen i evs := by
  have hlt : i < h.sessions.length := by
    have := connected_lt hc
    rw [← t.len] at this; simpa [V] using this
  have hs : h.sessions[i]? = some h.sessions[i] := List.getElem?_eq_getElem hlt
  obtain ⟨h1, h2⟩ := t.sess i _ (V_get hs)
  have ha : h.sessions[i].alive = true := by rw [← hc, ← h1]; rfl
  exact ⟨_, hs, ha, (h2 ha).1⟩

theorem upd_self {h : Hub} {i f s} (hs : h.sessions[i]? = some s) : (h.upd i f).sessions[i]? = some (f s) := by
  simp [Hub.upd, hs]

theorem upd_mk {A : Apps} {ss : List Session} {Q : List Bundle} {i f s} (hs : ss[i]? = some s) :
    (Hub.upd ⟨A, ss, Q⟩ i f).sessions[i]? = some (f s) := upd_self (h := ⟨A, ss, Q⟩) hs

theorem upd_other {h : Hub} {i f k} (hk : i ≠ k) : (h.upd i f).sessions[k]? = h.sessions[k]? := by
  simp only [Hub.upd, List.getElem?_modify, hk, if_false]
  cases h.sessions[k]? <;> rfl

/-- What a step may change in a session: only a subscription gives it a set of endpoints, and the set stays. -/
def Grows (v v' : Bool × Mode × Option (List EID)) : Prop :=
  (v'.1 = true → v.1 = true) ∧ ((v'.2.2 = none ↔ v.2.2 = none) ∨ v'.2.2.getD [] ≠ [])

theorem grows_rfl (v) : Grows v v := ⟨id, .inl Iff.rfl⟩

theorem grows_modify {L L' : List (Bool × Mode × Option (List EID))} {i : Nat} {g : Bool × Mode × Option (List EID) → Bool × Mode × Option (List EID)}
    (h : L' = L.modify i g) (hg : ∀ v, Grows v (g v)) (k : Nat) (v) (hk : L[k]? = some v) : ∃ v', L'[k]? = some v' ∧ Grows v v' := by
  subst h
  rw [List.getElem?_modify, hk]
  by_cases hi : i = k
  · exact ⟨g v, by simp [hi], hg v⟩
  · exact ⟨v, by simp [hi], grows_rfl v⟩

theorem step_view (x : Ext) (host : EID) (h : Hub) (ev : Ev) :
    (ev = .connect ∧ V (step x host h ev) = V h ++ [(true, .data .json, none)]) ∨
    ((V (step x host h ev)).length = (V h).length ∧ ∀ (k : Nat) v, (V h)[k]? = some v → ∃ v', (V (step x host h ev))[k]? = some v' ∧ Grows v v') := by
  have quiet : ∀ {h'}, V h' = V h → (V h').length = (V h).length ∧ ∀ (k : Nat) v, (V h)[k]? = some v → ∃ v', (V h')[k]? = some v' ∧ Grows v v' := by
    intro h' q
    rw [q]
    exact ⟨rfl, fun k v hk => ⟨v, hk, grows_rfl v⟩⟩
  have modify : ∀ {h' : Hub} {i g}, V h' = (V h).modify i g → (∀ v, Grows v (g v)) →
      (V h').length = (V h).length ∧ ∀ (k : Nat) v, (V h)[k]? = some v → ∃ v', (V h')[k]? = some v' ∧ Grows v v' :=
    fun q hg => ⟨by rw [q, List.length_modify], grows_modify q hg⟩
  cases ev with
  | connect => exact .inl ⟨rfl, by simp [step, V, view]⟩
  | text i msg =>
    right
    simp only [step]
    rcases live_eq h i (fun s => handleText x host h i s msg) with ⟨s, hs, hl, he⟩ | ⟨-, he⟩
    · rw [he]
      have mode : ∀ m t, (V (h.upd i fun s => ({ s with mode := m } : Session).say (.text t))).length = (V h).length ∧ ∀ (k : Nat) v, (V h)[k]? = some v →
          ∃ v', (V (h.upd i fun s => ({ s with mode := m } : Session).say (.text t)))[k]? = some v' ∧ Grows v v' := fun m t =>
        modify (V_upd _ i _ (fun v => (v.1, m, v.2.2)) fun _ => rfl) fun v => ⟨id, .inl Iff.rfl⟩
      unfold handleText
      split
      · exact quiet (V_upd_id _ _ _ fun _ => rfl)
      · exact mode _ _
      · exact mode _ _
      · exact mode _ _
      · rename_i arg _
        rcases unsubscribe_cases x h i s arg with ⟨a, e, -, -, -, u⟩ | ⟨-, q⟩
        · exact modify u.v fun v => ⟨id, .inl (by simp)⟩
        · exact quiet q.v
      · rename_i arg _
        rcases subscribe_cases x host h i arg with ⟨e, -, -, u⟩ | ⟨-, q⟩
        · refine modify u.v fun v => ⟨id, .inr ?_⟩
          simp only [Option.getD_some]
          split
          · rename_i hm; intro h; rw [h] at hm; cases hm
          · simp
        · exact quiet q.v
      · exact quiet (V_upd_id _ _ _ fun _ => rfl)
      · exact quiet rfl
    · rw [he]; exact quiet rfl
  | binary i bin =>
    right
    simp only [step]
    rcases live_eq h i (fun s => handleBinary x h i s bin) with ⟨s, hs, hl, he⟩ | ⟨-, he⟩ <;> rw [he]
    · exact quiet (quiet_binary _ _ _ _ _).v
    · exact quiet rfl
  | ping i m =>
    right
    simp only [step]
    rcases live_eq h i (fun _ => h.upd i fun s => s.say (.ping m)) with ⟨s, hs, hl, he⟩ | ⟨-, he⟩ <;> rw [he]
    · exact quiet (V_upd_id _ _ _ fun _ => rfl)
    · exact quiet rfl
  | pump i =>
    right
    simp only [step]
    rcases live_eq h i (fun s => pump x h i s) with ⟨s, hs, hl, he⟩ | ⟨-, he⟩ <;> rw [he]
    · exact quiet (quiet_pump _ _ _ _).v
    · exact quiet rfl
  | ended i =>
    right
    simp only [step]
    rcases live_eq h i (fun s => endSession h i s) with ⟨s, hs, hl, he⟩ | ⟨-, he⟩ <;> rw [he]
    · exact modify (ends_endSession h i s).v fun v => ⟨(fun h => by cases h), .inl Iff.rfl⟩
    · exact quiet rfl
  | register e => exact .inr (quiet rfl)
  | unregister e => exact .inr (quiet rfl)
  | deliver e b => exact .inr (quiet (quiet_deliver _ _ _).v)
  | pop e => exact .inr (quiet (quiet_pop _ _).v)

theorem hasSubscribed_snoc {evs : List Ev} {i : Nat} (ev : Ev) (h : hasSubscribed x host i evs) : hasSubscribed x host i (evs ++ [ev]) := by
  obtain ⟨n, e, h⟩ := h
  refine ⟨min n evs.length, e, ?_⟩
  rw [List.take_append_of_le_length (Nat.min_le_right _ _)]
  rcases Nat.le_total n evs.length with hn | hn
  · rw [Nat.min_eq_left hn]; exact h
  · rw [Nat.min_eq_right hn, List.take_length]; rwa [List.take_of_length_le hn] at h

/-- A connected client has a set of endpoints exactly if it has subscribed before. -/
theorem hasSubscribed_iff (x : Ext) (host : EID) (store : MemStore) (evs : List Ev) (i : Nat) (s : Session)
    (hs : (run x host (Ws.init store) evs).sessions[i]? = some s) (ha : s.alive = true) :
    hasSubscribed x host i evs ↔ s.endpoints.isSome = true := by
  have some_of : ∀ (evs : List Ev) (v), (V (run x host (Ws.init store) evs))[i]? = some v → v.1 = true → v.2.2 ≠ none → hasSubscribed x host i evs := by
    intro evs
    induction evs using List.reverseRecOn with
    | nil => intro v hv; simp [run, Ws.init, V] at hv
    | append_singleton evs ev ih =>
      intro v' hv hl hn
      have t := Track.run x host store (evs ++ [ev])
      by_cases he : v'.2.2.getD [] = []
      · rw [run_snoc] at hv
        rcases step_view x host (run x host (Ws.init store) evs) ev with ⟨-, q⟩ | ⟨hlen, q⟩
        · rw [q, List.getElem?_append] at hv
          split at hv
          · exact hasSubscribed_snoc _ (ih v' hv hl hn)
          · have := List.mem_of_getElem? hv
            simp only [List.mem_singleton] at this
            rw [this] at hn; exact absurd rfl hn
        · have hk : i < (V (run x host (Ws.init store) evs)).length := by rw [← hlen]; exact (List.getElem?_eq_some_iff.mp hv).1
          obtain ⟨w, hw, g1, g2⟩ := q i _ (List.getElem?_eq_getElem hk)
          rw [hw] at hv
          cases hv
          rcases g2 with g2 | g2
          · exact hasSubscribed_snoc _ (ih _ (List.getElem?_eq_getElem hk) (g1 hl) fun h => hn (g2.mpr h))
          · exact absurd he g2
      · obtain ⟨e, l, he⟩ := List.exists_cons_of_ne_nil he
        refine ⟨(evs ++ [ev]).length, e, ?_⟩
        rw [List.take_length]
        exact (((t.sess i v' hv).2 hl).2 e).mp (by rw [he]; exact List.mem_cons_self)
  have keep : ∀ (evs : List Ev) (n : Nat) (e : EID), subscribed x host i e (evs.take n).reverse = true →
      ∃ v, (V (run x host (Ws.init store) evs))[i]? = some v ∧ v.2.2 ≠ none := by
    intro evs
    induction evs using List.reverseRecOn with
    | nil => intro n e h; simp [subscribed] at h
    | append_singleton evs ev ih =>
      intro n e h
      by_cases hn : n ≤ evs.length
      · rw [List.take_append_of_le_length hn] at h
        obtain ⟨v, hv, hne⟩ := ih n e h
        rw [run_snoc]
        rcases step_view x host (run x host (Ws.init store) evs) ev with ⟨-, q⟩ | ⟨hlen, q⟩
        · rw [q]
          exact ⟨v, by rw [List.getElem?_append_left (List.getElem?_eq_some_iff.mp hv).1]; exact hv, hne⟩
        · obtain ⟨w, hw, -, g⟩ := q i v hv
          refine ⟨w, hw, fun hw0 => ?_⟩
          rcases g with g | g
          · exact hne (g.mp hw0)
          · rw [hw0] at g; exact g rfl
      · rw [List.take_of_length_le (by simp; omega)] at h
        have t := Track.run x host store (evs ++ [ev])
        have hc := connected_of_subscribed h
        obtain ⟨s, hs, ha, -⟩ := sess_of_connected t hc
        refine ⟨view s, V_get hs, fun hn => ?_⟩
        have := (((t.sess i _ (V_get hs)).2 ha).2 e).mpr h
        rw [hn] at this; cases this
  constructor
  · rintro ⟨n, e, h⟩
    obtain ⟨v, hv, hne⟩ := keep evs n e h
    rw [V_get hs] at hv
    cases hv
    exact Option.isSome_iff_ne_none.mpr hne
  · exact fun h => some_of evs _ (V_get hs) ha (Option.isSome_iff_ne_none.mp h)

end Dtn.Ws
