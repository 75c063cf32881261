import Verif.Lemmas.Ws

namespace Dtn.Ws
open Spec.WsSpec

variable {x : Ext} {host : EID}

theorem connected_lt {i evs} (h : connected i evs = true) : i < opened evs := by
  induction evs with
  | nil => cases h
  | cons ev evs ih =>
    cases ev with
    | connect =>
      simp only [connected, opened] at *
      split at h
      · omega
      · exact Nat.lt_succ_of_lt (ih h)
    | ended j =>
      simp only [connected, opened] at *
      split at h
      · cases h
      · exact ih h
    | _ => exact ih h

theorem not_connected_of_ge {i evs} (h : opened evs ≤ i) : connected i evs = false := by
  cases hc : connected i evs with
  | false => rfl
  | true => exact absurd (connected_lt hc) (by omega)

theorem fresh {i evs} (h : opened evs ≤ i) : chosen i evs = .data .json ∧ ∀ e, subscribed x host i e evs = false := by
  induction evs with
  | nil => exact ⟨rfl, fun _ => rfl⟩
  | cons ev evs ih =>
    cases ev with
    | connect => exact ih (by simp only [opened] at h; omega)
    | text j msg =>
      have h' : opened evs ≤ i := h
      have := not_connected_of_ge h'
      simp only [chosen, subscribed, this]
      simpa using ih h'
    | ended j =>
      have h' : opened evs ≤ i := h
      refine ⟨(ih h').1, fun e => ?_⟩
      simp only [subscribed]
      split
      · rfl
      · exact (ih h').2 e
    | _ => exact ih h

theorem connected_of_subscribed {i e evs} (h : subscribed x host i e evs = true) : connected i evs = true := by
  induction evs with
  | nil => cases h
  | cons ev evs ih =>
    cases ev with
    | connect =>
      simp only [connected]
      split
      · rfl
      · exact ih h
    | ended j =>
      simp only [subscribed] at h
      simp only [connected]
      split
      · rename_i hj; rw [if_pos hj] at h; cases h
      · rename_i hj; rw [if_neg hj] at h; exact ih h
    | text j msg =>
      simp only [connected]
      simp only [subscribed] at h
      by_cases hc : j = i ∧ connected i evs = true
      · exact hc.2
      · rw [if_neg hc] at h; exact ih h
    | _ => exact ih h

/-- The state agrees with the history. -/
structure Track (x : Ext) (host : EID) (evs : List Ev) (h : Hub) : Prop where
  len : (V h).length = opened evs
  sess : ∀ i v, (V h)[i]? = some v → v.1 = connected i evs ∧
    (v.1 = true → v.2.1 = chosen i evs ∧ ∀ e, e ∈ v.2.2.getD [] ↔ subscribed x host i e evs = true)
  reg : ∀ e, e ∈ Registry.eids h.apps.agents ↔ registered e evs = true
  nodup : (Registry.eids h.apps.agents).Nodup
  deliv : ∀ e i, D h.apps e = some i → subscribed x host i e evs = true

theorem Track.init (store : MemStore) : Track x host [] (init store) := by
  refine ⟨rfl, ?_, ?_, ?_, ?_⟩ <;> simp [Ws.init, V, Registry.eids, registered, D, Registry.find]

theorem Track.quiet {evs h h'} (t : Track x host evs h) (q : Quiet h h') : Track x host evs h' :=
  ⟨by rw [q.v]; exact t.len, by rw [q.v]; exact t.sess, by rw [q.ids]; exact t.reg, by rw [q.ids]; exact t.nodup,
   fun e i => by rw [q.d]; exact t.deliv e i⟩

/-- An event that the specification ignores. -/
structure Ignored (x : Ext) (host : EID) (ev : Ev) (evs : List Ev) : Prop where
  o : opened (ev :: evs) = opened evs
  c : ∀ i, connected i (ev :: evs) = connected i evs
  s : ∀ i e, subscribed x host i e (ev :: evs) = subscribed x host i e evs
  m : ∀ i, chosen i (ev :: evs) = chosen i evs
  r : ∀ e, registered e (ev :: evs) = registered e evs

theorem Track.ignored {ev evs h} (t : Track x host evs h) (g : Ignored x host ev evs) : Track x host (ev :: evs) h :=
  ⟨by rw [g.o]; exact t.len, fun i v hv => by simp only [g.c, g.m, g.s]; exact t.sess i v hv,
   fun e => by rw [g.r]; exact t.reg e, t.nodup, fun e i hd => by rw [g.s]; exact t.deliv e i hd⟩

theorem V_get {h : Hub} {i : Nat} {s : Session} (hs : h.sessions[i]? = some s) : (V h)[i]? = some (view s) := by
  simp [V, hs]

theorem Track.live {evs h i} (t : Track x host evs h) (f : Session → Hub) :
    (∃ s, h.sessions[i]? = some s ∧ s.alive = true ∧ connected i evs = true ∧ h.live i f = f s) ∨
    (connected i evs = false ∧ h.live i f = h) := by
  rcases live_eq h i f with ⟨s, hs, ha, he⟩ | ⟨hs, he⟩
  · exact Or.inl ⟨s, hs, ha, by rw [← (t.sess i _ (V_get hs)).1]; exact ha, he⟩
  · right
    refine ⟨?_, he⟩
    cases hh : h.sessions[i]? with
    | none =>
      apply not_connected_of_ge
      rw [← t.len]
      have := List.getElem?_eq_none_iff.mp hh
      simpa [V] using this
    | some s =>
      rw [← (t.sess i _ (V_get hh)).1]; exact hs s hh

theorem Track.subs {evs h h' i e msg arg} (t : Track x host evs h) (hc : connected i evs = true)
    (hm : parseCmd msg = .subscribe arg) (ha : meant x host arg = some e) (hr : e ∈ Registry.eids h.apps.agents)
    (s : Subs h h' i e) : Track x host (.text i msg :: evs) h' := by
  have hreg := (t.reg e).mp hr
  have cm : ∀ k, chosen k (.text i msg :: evs) = chosen k evs := by
    intro k; simp only [chosen, hm]; split <;> rfl
  have sm : ∀ k e', subscribed x host k e' (.text i msg :: evs) = if k = i ∧ e' = e then true else subscribed x host k e' evs := by
    intro k e'
    simp only [subscribed, hm, ha, Option.some.injEq]
    by_cases hk : k = i
    · subst hk
      by_cases he : e' = e
      · subst he; simp [hc, hreg]
      · have : ¬ e = e' := fun h => he h.symm
        simp [hc, he, this]
    · have : ¬ i = k := fun h => hk h.symm
      simp [hk, this]
  refine ⟨?_, ?_, by rw [s.ids]; exact t.reg, by rw [s.ids]; exact t.nodup, ?_⟩
  · rw [s.v, List.length_modify]; exact t.len
  · intro k v hv
    rw [s.v, List.getElem?_modify] at hv
    cases hk : (V h)[k]? with
    | none => rw [hk] at hv; simp at hv
    | some w =>
      rw [hk] at hv
      obtain ⟨h1, h2⟩ := t.sess k w hk
      by_cases hik : i = k
      · subst hik
        simp only [if_true, Option.map_eq_map, Option.map_some, Option.some.injEq] at hv
        subst hv
        refine ⟨h1, fun hw => ⟨by rw [cm]; exact (h2 hw).1, fun e' => ?_⟩⟩
        rw [sm]
        have := (h2 hw).2 e'
        simp only [Option.getD_some, true_and]
        split
        · rename_i hin
          split
          · rename_i he; subst he; simp [hin]
          · exact this
        · rw [List.mem_append, List.mem_singleton, this]
          split
          · rename_i he; simp [he]
          · rename_i he; simp [he]
      · simp only [hik, if_false, Option.map_eq_map, Option.map_some, Option.some.injEq] at hv
        subst hv
        have hki : ¬ k = i := fun h => hik h.symm
        refine ⟨h1, fun hw => ⟨by rw [cm]; exact (h2 hw).1, fun e' => ?_⟩⟩
        rw [sm]; simp only [hki, false_and, if_false]
        exact (h2 hw).2 e'
  · intro e' k hd
    rw [s.d] at hd
    rw [sm]
    by_cases he : e' = e
    · rw [if_pos he] at hd; cases hd; simp [he]
    · rw [if_neg he] at hd
      split
      · rfl
      · exact t.deliv e' k hd

theorem Track.unsubs {evs h h' i e msg a} (t : Track x host evs h) (hc : connected i evs = true)
    (hm : parseCmd msg = .unsubscribe (some a)) (ha : x.parseEid a = some e)
    (s : Unsubs h h' i e) : Track x host (.text i msg :: evs) h' := by
  have cm : ∀ k, chosen k (.text i msg :: evs) = chosen k evs := by
    intro k; simp only [chosen, hm]; split <;> rfl
  have sm : ∀ k e', subscribed x host k e' (.text i msg :: evs) = if k = i ∧ e' = e then false else subscribed x host k e' evs := by
    intro k e'
    simp only [subscribed, hm, ha, Option.some.injEq]
    by_cases hk : k = i
    · subst hk
      by_cases he : e' = e
      · subst he; simp [hc]
      · have : ¬ e = e' := fun h => he h.symm
        simp [hc, he, this]
    · have : ¬ i = k := fun h => hk h.symm
      simp [hk, this]
  refine ⟨?_, ?_, by rw [s.ids]; exact t.reg, by rw [s.ids]; exact t.nodup, ?_⟩
  · rw [s.v, List.length_modify]; exact t.len
  · intro k v hv
    rw [s.v, List.getElem?_modify] at hv
    cases hk : (V h)[k]? with
    | none => rw [hk] at hv; simp at hv
    | some w =>
      rw [hk] at hv
      obtain ⟨h1, h2⟩ := t.sess k w hk
      by_cases hik : i = k
      · subst hik
        simp only [if_true, Option.map_eq_map, Option.map_some, Option.some.injEq] at hv
        subst hv
        refine ⟨h1, fun hw => ⟨by rw [cm]; exact (h2 hw).1, fun e' => ?_⟩⟩
        rw [sm]
        have := (h2 hw).2 e'
        have mm : e' ∈ (Option.map (fun l => List.filter (fun e' => decide (e' ≠ e)) l) w.2.2).getD [] ↔
            e' ∈ w.2.2.getD [] ∧ e' ≠ e := by
          cases w.2.2 <;> simp
        dsimp only
        rw [mm, this]
        by_cases he : e' = e <;> simp [he]
      · simp only [hik, if_false, Option.map_eq_map, Option.map_some, Option.some.injEq] at hv
        subst hv
        have hki : ¬ k = i := fun h => hik h.symm
        refine ⟨h1, fun hw => ⟨by rw [cm]; exact (h2 hw).1, fun e' => ?_⟩⟩
        rw [sm]; simp only [hki, false_and, if_false]
        exact (h2 hw).2 e'
  · intro e' k hd
    rw [s.d] at hd
    rw [sm]
    by_cases he : e' = e
    · rw [if_pos he] at hd; cases hd
    · rw [if_neg he] at hd
      rw [if_neg (fun h => he h.2)]
      exact t.deliv e' k hd

theorem Track.mode {evs h i m msg f} (t : Track x host evs h) (hc : connected i evs = true)
    (hm : ∀ k, chosen k (.text i msg :: evs) = if i = k ∧ connected k evs = true then m else chosen k evs)
    (hs : ∀ k e, subscribed x host k e (.text i msg :: evs) = subscribed x host k e evs)
    (hf : ∀ s, view (f s) = ((view s).1, m, (view s).2.2)) : Track x host (.text i msg :: evs) (h.upd i f) := by
  have hv := V_upd h i f (fun v => (v.1, m, v.2.2)) hf
  refine ⟨?_, ?_, t.reg, t.nodup, fun e k hd => by rw [hs]; exact t.deliv e k hd⟩
  · rw [hv, List.length_modify]; exact t.len
  · intro k v hk
    rw [hv, List.getElem?_modify] at hk
    cases hw : (V h)[k]? with
    | none => rw [hw] at hk; simp at hk
    | some w =>
      rw [hw] at hk
      obtain ⟨h1, h2⟩ := t.sess k w hw
      by_cases hik : i = k
      · subst hik
        simp only [if_true, Option.map_eq_map, Option.map_some, Option.some.injEq] at hk
        subst hk
        exact ⟨h1, fun hw => ⟨by rw [hm]; simp [hc], fun e' => by rw [hs]; exact (h2 hw).2 e'⟩⟩
      · simp only [hik, if_false, Option.map_eq_map, Option.map_some, Option.some.injEq] at hk
        subst hk
        exact ⟨h1, fun hw => ⟨by rw [hm]; simp [hik, (h2 hw).1], fun e' => by rw [hs]; exact (h2 hw).2 e'⟩⟩

theorem Track.text {evs h i s} (t : Track x host evs h) (hs : h.sessions[i]? = some s) (ha : s.alive = true)
    (hc : connected i evs = true) (msg) : Track x host (.text i msg :: evs) (handleText x host h i s msg) := by
  have ig : (∀ k e, subscribed x host k e (.text i msg :: evs) = subscribed x host k e evs) →
      (∀ k, chosen k (.text i msg :: evs) = chosen k evs) → Ignored x host (.text i msg) evs :=
    fun a b => ⟨rfl, fun _ => rfl, a, b, fun _ => rfl⟩
  unfold handleText
  cases hp : parseCmd msg with
  | node =>
    exact (t.ignored (ig (fun k e => by simp only [subscribed, hp, ite_self]) (fun k => by simp only [chosen, hp, ite_self]))).quiet
      (quiet_upd _ _ _ fun _ => rfl)
  | unknown m =>
    exact (t.ignored (ig (fun k e => by simp only [subscribed, hp, ite_self]) (fun k => by simp only [chosen, hp, ite_self]))).quiet
      (quiet_upd _ _ _ fun _ => rfl)
  | ignored =>
    exact t.ignored (ig (fun k e => by simp only [subscribed, hp, ite_self]) (fun k => by simp only [chosen, hp, ite_self]))
  | bundle =>
    exact t.mode (m := .bundle) hc (fun k => by simp only [chosen, hp]) (fun k e => by simp only [subscribed, hp, ite_self])
      fun _ => rfl
  | data =>
    exact t.mode (m := .data .cbor) hc (fun k => by simp only [chosen, hp]) (fun k e => by simp only [subscribed, hp, ite_self])
      fun _ => rfl
  | json =>
    exact t.mode (m := .data .json) hc (fun k => by simp only [chosen, hp]) (fun k e => by simp only [subscribed, hp, ite_self])
      fun _ => rfl
  | subscribe arg =>
    dsimp only
    rcases subscribe_cases x host h i arg with ⟨e, h1, h2, h3⟩ | ⟨h1, h2⟩
    · exact t.subs hc hp h1 h2 h3
    · refine (t.ignored (ig (fun k e => ?_) (fun k => by simp only [chosen, hp, ite_self]))).quiet h2
      have : ¬ (meant x host arg = some e ∧ registered e evs = true) := fun hh => h1 e hh.1 ((t.reg e).mpr hh.2)
      simp only [subscribed, hp, if_neg this, ite_self]
  | unsubscribe arg =>
    dsimp only
    rcases unsubscribe_cases x h i s arg with ⟨a, e, h1, h2, h3, h4⟩ | ⟨h1, h2⟩
    · subst h1; exact t.unsubs hc hp h2 h4
    · refine (t.ignored (ig (fun k e => ?_) (fun k => by simp only [chosen, hp, ite_self]))).quiet h2
      cases arg with
      | none => simp only [subscribed, hp, ite_self]
      | some a =>
        simp only [subscribed, hp]
        by_cases hk : i = k ∧ connected k evs = true
        · rw [if_pos hk]
          by_cases he : x.parseEid a = some e
          · rw [if_pos he]
            have hn := h1 a e rfl he
            obtain ⟨rfl, _⟩ := hk
            have := ((t.sess i _ (V_get hs)).2 ha).2 e
            simp only [view, hn, Option.getD_none, List.not_mem_nil, false_iff] at this
            simp only [Bool.not_eq_true] at this
            exact this.symm
          · rw [if_neg he]
        · rw [if_neg hk]

theorem Track.step {evs h} (t : Track x host evs h) (ev) : Track x host (ev :: evs) (step x host h ev) := by
  have plain : ∀ ev h', Quiet h h' → Ignored x host ev evs → Track x host (ev :: evs) h' := fun ev h' q g => (t.ignored g).quiet q
  cases ev with
  | connect =>
    simp only [Ws.step]
    have hv : V { h with sessions := h.sessions ++ [{}] } = V h ++ [(true, .data .json, none)] := by simp [V, view]
    refine ⟨?_, ?_, t.reg, t.nodup, fun e i hd => t.deliv e i hd⟩
    · rw [hv, List.length_append, t.len]; rfl
    · intro i v hi
      rw [hv, List.getElem?_append] at hi
      simp only [connected]
      by_cases hlt : i < (V h).length
      · rw [if_pos hlt] at hi
        rw [t.len] at hlt
        rw [if_neg (by omega)]
        exact t.sess i v hi
      · rw [if_neg hlt] at hi
        have : i = (V h).length := by
          have := (List.getElem?_eq_some_iff.mp hi).1
          simp at this; omega
        subst this
        simp only [Nat.sub_self, List.getElem?_cons_zero, Option.some.injEq] at hi
        subst hi
        rw [if_pos t.len.symm]
        refine ⟨rfl, fun _ => ?_⟩
        have f := fresh (x := x) (host := host) (i := (V h).length) (evs := evs) (by rw [t.len]; exact Nat.le_refl _)
        refine ⟨f.1.symm, fun e => ?_⟩
        simp only [Option.getD_none, List.not_mem_nil, false_iff]
        simp only [subscribed, f.2 e]; simp
  | text i msg =>
    simp only [Ws.step]
    rcases t.live (i := i) (fun s => handleText x host h i s msg) with ⟨s, hs, ha, hc, he⟩ | ⟨hc, he⟩
    · rw [he]; exact t.text hs ha hc msg
    · rw [he]
      refine plain _ _ .rfl' ⟨rfl, fun _ => rfl, fun k e => ?_, fun k => ?_, fun _ => rfl⟩
      · simp only [subscribed]; rw [if_neg]; rintro ⟨rfl, h⟩; rw [hc] at h; cases h
      · simp only [chosen]; rw [if_neg]; rintro ⟨rfl, h⟩; rw [hc] at h; cases h
  | binary i bin =>
    simp only [Ws.step]
    have g : Ignored x host (.binary i bin) evs := ⟨rfl, fun _ => rfl, fun _ _ => rfl, fun _ => rfl, fun _ => rfl⟩
    rcases t.live (i := i) (fun s => handleBinary x h i s bin) with ⟨s, hs, ha, hc, he⟩ | ⟨hc, he⟩
    · rw [he]; exact plain _ _ (quiet_binary _ _ _ _ _) g
    · rw [he]; exact plain _ _ .rfl' g
  | ping i m =>
    simp only [Ws.step]
    have g : Ignored x host (.ping i m) evs := ⟨rfl, fun _ => rfl, fun _ _ => rfl, fun _ => rfl, fun _ => rfl⟩
    rcases t.live (i := i) (fun _ => h.upd i fun s => s.say (.ping m)) with ⟨s, hs, ha, hc, he⟩ | ⟨hc, he⟩
    · rw [he]; exact plain _ _ (quiet_upd _ _ _ fun _ => rfl) g
    · rw [he]; exact plain _ _ .rfl' g
  | pump i =>
    simp only [Ws.step]
    have g : Ignored x host (.pump i) evs := ⟨rfl, fun _ => rfl, fun _ _ => rfl, fun _ => rfl, fun _ => rfl⟩
    rcases t.live (i := i) (fun s => pump x h i s) with ⟨s, hs, ha, hc, he⟩ | ⟨hc, he⟩
    · rw [he]; exact plain _ _ (quiet_pump _ _ _ _) g
    · rw [he]; exact plain _ _ .rfl' g
  | ended i =>
    simp only [Ws.step]
    rcases t.live (i := i) (fun s => endSession h i s) with ⟨s, hs, ha, hc, he⟩ | ⟨hc, he⟩
    · rw [he]
      have n := ends_endSession h i s
      have hsub := ((t.sess i _ (V_get hs)).2 ha).2
      refine ⟨?_, ?_, by rw [n.ids]; exact t.reg, by rw [n.ids]; exact t.nodup, ?_⟩
      · rw [n.v, List.length_modify]; exact t.len
      · intro k v hk
        rw [n.v, List.getElem?_modify] at hk
        cases hw : (V h)[k]? with
        | none => rw [hw] at hk; simp at hk
        | some w =>
          rw [hw] at hk
          obtain ⟨h1, h2⟩ := t.sess k w hw
          by_cases hik : i = k
          · subst hik
            simp only [if_true, Option.map_eq_map, Option.map_some, Option.some.injEq] at hk
            subst hk
            exact ⟨by simp [connected], fun h => by cases h⟩
          · simp only [hik, if_false, Option.map_eq_map, Option.map_some, Option.some.injEq] at hk
            subst hk
            simp only [connected, chosen, subscribed, if_neg hik]
            exact ⟨h1, h2⟩
      · intro e k hd
        rw [n.d] at hd
        split at hd
        · cases hd
        · rename_i hin
          have hsb := t.deliv e k hd
          simp only [subscribed]
          rw [if_neg]
          · exact hsb
          · rintro rfl
            exact hin ((hsub e).mpr hsb)
    · rw [he]
      refine plain _ _ .rfl' ⟨rfl, fun k => ?_, fun k e => ?_, fun k => rfl, fun _ => rfl⟩
      · simp only [connected]; split
        · rename_i h; subst h; exact hc.symm
        · rfl
      · simp only [subscribed]; split
        · rename_i hk; subst hk
          cases hb : subscribed x host i e evs with
          | false => rfl
          | true => rw [connected_of_subscribed hb] at hc; cases hc
        · rfl
  | register e =>
    simp only [Ws.step]
    refine ⟨t.len, t.sess, ?_, Apps.nodup_eids_step t.nodup _, ?_⟩
    · intro e'
      dsimp only
      rw [Apps.eids_step]
      simp only [registered]
      have := t.reg e'
      by_cases he : e = e'
      · subst he; by_cases hi : e ∈ Registry.eids h.apps.agents <;> simp [hi]
      · have he' : ¬ e' = e := fun h => he h.symm
        by_cases hi : e ∈ Registry.eids h.apps.agents <;> simp [hi, he, he', this]
    · intro e' i hd
      dsimp only at hd
      rw [D_register] at hd
      exact t.deliv e' i hd
  | unregister e =>
    simp only [Ws.step]
    refine ⟨t.len, t.sess, ?_, Apps.nodup_eids_step t.nodup _, ?_⟩
    · intro e'
      dsimp only
      rw [Apps.eids_step]
      simp only [registered]
      rw [t.nodup.mem_erase_iff, t.reg e']
      by_cases he : e = e'
      · simp [he]
      · have he' : ¬ e' = e := fun h => he h.symm
        simp [he, he']
    · intro e' i hd
      dsimp only at hd
      rw [D_unregister _ t.nodup] at hd
      split at hd
      · cases hd
      · exact t.deliv e' i hd
  | deliver e b =>
    simp only [Ws.step]
    exact plain _ _ (quiet_deliver _ _ _) ⟨rfl, fun _ => rfl, fun _ _ => rfl, fun _ => rfl, fun _ => rfl⟩
  | pop e =>
    simp only [Ws.step]
    exact plain _ _ (quiet_pop _ _) ⟨rfl, fun _ => rfl, fun _ _ => rfl, fun _ => rfl, fun _ => rfl⟩

theorem Track.run (x host store) (evs : List Ev) : Track x host evs.reverse (run x host (Ws.init store) evs) := by
  induction evs using List.reverseRecOn with
  | nil => exact Track.init store
  | append_singleton evs ev ih =>
    rw [run_snoc, List.reverse_append]
    exact ih.step ev

end Dtn.Ws
