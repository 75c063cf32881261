import Verif.Lemmas.WsTrack

namespace Dtn.Ws
open Spec Spec.WsSpec

variable {x : Ext} {host : EID}

theorem present_eq (x : Ext) (m b) : present x m b = shown x m b := by
  unfold present shown
  cases m with
  | bundle => rfl
  | data f => dsimp only; cases x.hasPayload b <;> rfl

theorem merge_append_right {α : Type} {xs ys l : List α} (h : Merge xs ys l) (o : List α) : Merge xs (ys ++ o) (l ++ o) := by
  induction o generalizing ys l with
  | nil => simpa using h
  | cons a o ih =>
    have := ih (h.snoc_right a)
    simpa using this

theorem merge_append_left {α : Type} {xs ys l : List α} (h : Merge xs ys l) (o : List α) : Merge (xs ++ o) ys (l ++ o) := by
  induction o generalizing xs l with
  | nil => simpa using h
  | cons a o ih =>
    have := ih (h.snoc_left a)
    simpa using this

/-- The books of one session. -/
structure Book (x : Ext) (handed : List Bundle) (s : Session) : Prop where
  out : ∃ other, Merge (s.handled.flatMap fun p => shown x p.1 p.2) other s.out
  live : s.alive = true → handed = s.handled.map (·.2) ++ s.chan
  dead : s.alive = false → s.chan = [] ∧ ∃ lost, handed = s.handled.map (·.2) ++ lost

structure Books (x : Ext) (h : Hub) : Prop where
  sess : ∀ i s, h.sessions[i]? = some s → Book x (handedTo h i) s
  later : ∀ i, h.sessions.length ≤ i → handedTo h i = []

/-- Only messages are added. -/
structure Talk (h h' : Hub) : Prop where
  pushed : h'.apps.pushed = h.apps.pushed
  len : h'.sessions.length = h.sessions.length
  sess : ∀ (i : Nat) (s' : Session), h'.sessions[i]? = some s' → ∃ (s : Session) (o : List Msg), h.sessions[i]? = some s ∧ s'.alive = s.alive ∧ s'.handled = s.handled ∧
    s'.chan = s.chan ∧ s'.out = s.out ++ o

theorem Talk.rfl' {h : Hub} : Talk h h := ⟨rfl, rfl, fun _ s hs => ⟨s, [], hs, rfl, rfl, rfl, by simp⟩⟩

theorem Talk.trans {a b c : Hub} (p : Talk a b) (q : Talk b c) : Talk a c := by
  refine ⟨q.pushed.trans p.pushed, q.len.trans p.len, fun i s' hs => ?_⟩
  obtain ⟨s, o, h1, h2, h3, h4, h5⟩ := q.sess i s' hs
  obtain ⟨s0, o0, g1, g2, g3, g4, g5⟩ := p.sess i s h1
  exact ⟨s0, o0 ++ o, g1, h2.trans g2, h3.trans g3, h4.trans g4, by rw [h5, g5, List.append_assoc]⟩

theorem upd_get {h : Hub} {i f k s'} (hs : (h.upd i f).sessions[k]? = some s') :
    ∃ s, h.sessions[k]? = some s ∧ s' = if i = k then f s else s := by
  unfold Hub.upd at hs
  simp only [List.getElem?_modify] at hs
  cases hk : h.sessions[k]? with
  | none => rw [hk] at hs; simp at hs
  | some s =>
    rw [hk] at hs
    refine ⟨s, rfl, ?_⟩
    by_cases hik : i = k
    · simp only [hik, if_true, Option.map_eq_map, Option.map_some, Option.some.injEq] at hs ⊢; exact hs.symm
    · simp only [hik, if_false, Option.map_eq_map, Option.map_some, Option.some.injEq] at hs ⊢; exact hs.symm

theorem upd_len (h : Hub) (i f) : (h.upd i f).sessions.length = h.sessions.length := by
  simp [Hub.upd]

theorem talk_upd (h : Hub) (i f) (hf : ∀ s, (f s).alive = s.alive ∧ (f s).handled = s.handled ∧ (f s).chan = s.chan ∧
    ∃ o, (f s).out = s.out ++ o) : Talk h (h.upd i f) := by
  refine ⟨rfl, upd_len _ _ _, fun k s' hs => ?_⟩
  obtain ⟨s, h1, h2⟩ := upd_get hs
  by_cases hik : i = k
  · rw [if_pos hik] at h2; subst h2
    obtain ⟨a, b, c, o, d⟩ := hf s
    exact ⟨s, o, h1, a, b, c, d⟩
  · rw [if_neg hik] at h2; subst h2
    exact ⟨s', [], h1, rfl, rfl, rfl, by simp⟩

theorem talk_say (h : Hub) (i m) : Talk h (h.upd i fun s => s.say m) :=
  talk_upd _ _ _ fun _ => ⟨rfl, rfl, rfl, [m], rfl⟩

theorem talk_apps (h : Hub) (a : Apps) (ha : a.pushed = h.apps.pushed) : Talk h { h with apps := a } :=
  ⟨ha, rfl, fun _ s hs => ⟨s, [], hs, rfl, rfl, rfl, by simp⟩⟩

theorem pushed_pop (s : Apps) (e) : (s.step (.pop e)).pushed = s.pushed := by
  simp only [Apps.step]
  split
  · rfl
  · split <;> rfl

theorem talk_fetchOne (x i m h e) : Talk h (fetchOne x i m h e) := by
  unfold fetchOne
  split
  · exact .rfl'
  · dsimp only
    split
    · exact talk_apps _ _ (pushed_pop _ _)
    · exact (talk_apps _ _ (pushed_pop _ _)).trans (talk_upd _ _ _ fun _ => ⟨rfl, rfl, rfl, _, rfl⟩)

theorem talk_fetchNew (x i h) : Talk h (fetchNew x i h) := by
  unfold fetchNew
  split
  · exact .rfl'
  · rename_i s _
    have : ∀ l h, Talk h (List.foldl (fetchOne x i s.mode) h l) := by
      intro l
      induction l with
      | nil => intro h; exact .rfl'
      | cons e l ih => intro h; exact (talk_fetchOne _ _ _ _ _).trans (ih _)
    exact this _ _

theorem talk_subscribeTo (h i e) : Talk h (subscribeTo i e h) :=
  (talk_apps h (h.apps.step (.subscribe e i)) rfl).trans (talk_upd _ _ _ fun _ => ⟨rfl, rfl, rfl, [_], rfl⟩)

theorem talk_text (x host h i s msg) : Talk h (handleText x host h i s msg) := by
  unfold handleText
  split
  · exact talk_say _ _ _
  · exact talk_upd _ _ _ fun _ => ⟨rfl, rfl, rfl, [_], rfl⟩
  · exact talk_upd _ _ _ fun _ => ⟨rfl, rfl, rfl, [_], rfl⟩
  · exact talk_upd _ _ _ fun _ => ⟨rfl, rfl, rfl, [_], rfl⟩
  · unfold unsubscribe
    split
    · exact .rfl'
    · split
      · exact talk_say _ _ _
      · rename_i e _
        split
        · exact (talk_apps h (h.apps.step (.unsubscribe e)) rfl).trans (talk_upd _ _ _ fun _ => ⟨rfl, rfl, rfl, [_], rfl⟩)
        · exact talk_say _ _ _
  · unfold subscribe
    split
    · exact talk_say _ _ _
    · split
      · split
        · exact (talk_subscribeTo _ _ _).trans (talk_fetchNew _ _ _)
        · exact talk_say _ _ _
      · split
        · split
          · exact talk_say _ _ _
          · exact talk_subscribeTo _ _ _
        · exact talk_say _ _ _
  · exact talk_say _ _ _
  · exact .rfl'

theorem talk_binary (x h i s bin) : Talk h (handleBinary x h i s bin) := by
  have sub : ∀ (b : Bundle) m, Talk h (({ h with submitted := h.submitted ++ [b] } : Hub).upd i fun s => s.say m) := fun b m =>
    Talk.trans (b := { h with submitted := h.submitted ++ [b] })
      ⟨rfl, rfl, fun _ s hs => ⟨s, [], hs, rfl, rfl, rfl, by simp⟩⟩ (talk_say _ _ _)
  unfold handleBinary
  split
  · split
    · exact sub _ _
    · exact talk_say _ _ _
  · split
    · split
      · exact sub _ _
      · exact .rfl'
    · exact talk_say _ _ _

theorem Book.talk {handed} {s s' : Session} (b : Book x handed s) (ha : s'.alive = s.alive) (hh : s'.handled = s.handled)
    (hc : s'.chan = s.chan) {o} (ho : s'.out = s.out ++ o) : Book x handed s' := by
  refine ⟨?_, fun h => ?_, fun h => ?_⟩
  · obtain ⟨other, hm⟩ := b.out
    rw [hh, ho]; exact ⟨other ++ o, merge_append_right hm o⟩
  · rw [hh, hc]; exact b.live (ha ▸ h)
  · rw [hh, hc]; exact b.dead (ha ▸ h)

theorem Books.talk {h h'} (b : Books x h) (t : Talk h h') : Books x h' := by
  have hd : ∀ i, handedTo h' i = handedTo h i := fun i => by unfold handedTo; rw [t.pushed]
  refine ⟨fun i s' hs => ?_, fun i hi => ?_⟩
  · obtain ⟨s, o, h1, h2, h3, h4, h5⟩ := t.sess i s' hs
    rw [hd]; exact (b.sess i s h1).talk h2 h3 h4 h5
  · rw [hd]; rw [t.len] at hi; exact b.later i hi

theorem Books.step {h} (b : Books x h) (ev) : Books x (step x host h ev) := by
  cases ev with
  | connect =>
    simp only [Ws.step]
    refine ⟨fun i s hs => ?_, fun i hi => ?_⟩
    · simp only at hs
      rw [List.getElem?_append] at hs
      split at hs
      · exact b.sess i s hs
      · rename_i hlt
        have : i = h.sessions.length := by
          have := (List.getElem?_eq_some_iff.mp hs).1
          simp at this; omega
        subst this
        simp only [Nat.sub_self, List.getElem?_cons_zero, Option.some.injEq] at hs
        subst hs
        have hz := b.later h.sessions.length (Nat.le_refl _)
        refine ⟨⟨[], .nil⟩, fun _ => ?_, fun h => by cases h⟩
        exact hz
    · simp only [List.length_append, List.length_cons, List.length_nil] at hi
      exact b.later i (by omega)
  | text i msg =>
    simp only [Ws.step]
    rcases live_eq h i (fun s => handleText x host h i s msg) with ⟨s, _, _, he⟩ | ⟨_, he⟩
    · rw [he]; exact b.talk (talk_text _ _ _ _ _ _)
    · rw [he]; exact b
  | binary i bin =>
    simp only [Ws.step]
    rcases live_eq h i (fun s => handleBinary x h i s bin) with ⟨s, _, _, he⟩ | ⟨_, he⟩
    · rw [he]; exact b.talk (talk_binary _ _ _ _ _)
    · rw [he]; exact b
  | ping i m =>
    simp only [Ws.step]
    rcases live_eq h i (fun _ => h.upd i fun s => s.say (.ping m)) with ⟨s, _, _, he⟩ | ⟨_, he⟩
    · rw [he]; exact b.talk (talk_say _ _ _)
    · rw [he]; exact b
  | pump i =>
    simp only [Ws.step]
    rcases live_eq h i (fun s => pump x h i s) with ⟨s, hs, ha, he⟩ | ⟨_, he⟩
    · rw [he]
      unfold pump
      split
      · exact b
      · rename_i bd rest hch
        refine ⟨fun k s' hk => ?_, fun k hk => ?_⟩
        · obtain ⟨s0, h1, h2⟩ := upd_get hk
          have bk := b.sess k s0 h1
          by_cases hik : i = k
          · subst hik
            rw [hs] at h1; cases h1
            rw [if_pos rfl] at h2; subst h2
            obtain ⟨other, hm⟩ := bk.out
            refine ⟨⟨other, ?_⟩, fun _ => ?_, fun h => ?_⟩
            · simp only [List.flatMap_append, List.flatMap_cons, List.flatMap_nil, List.append_nil, present_eq]
              exact merge_append_left hm _
            · have := bk.live ha
              rw [hch] at this
              change handedTo h i = _
              simpa using this
            · simp only at h; rw [ha] at h; cases h
          · rw [if_neg hik] at h2; subst h2; exact bk
        · rw [upd_len] at hk; exact b.later k hk
    · rw [he]; exact b
  | ended i =>
    simp only [Ws.step]
    rcases live_eq h i (fun s => endSession h i s) with ⟨s, hs, ha, he⟩ | ⟨_, he⟩
    · rw [he]
      obtain ⟨c1, -, -, c4⟩ := clear_foldl (s.endpoints.getD []) h
      have hd : ∀ k, handedTo (endSession h i s) k = handedTo h k := by
        intro k; unfold handedTo endSession; dsimp only [Hub.upd]; rw [c4]
      refine ⟨fun k s' hk => ?_, fun k hk => ?_⟩
      · rw [hd]
        unfold endSession at hk
        obtain ⟨s0, h1, h2⟩ := upd_get hk
        rw [c1] at h1
        have bk := b.sess k s0 h1
        by_cases hik : i = k
        · subst hik
          rw [hs] at h1; cases h1
          rw [if_pos rfl] at h2; subst h2
          exact ⟨bk.out, fun h => (by cases h), fun _ => ⟨rfl, s.chan, bk.live ha⟩⟩
        · rw [if_neg hik] at h2; subst h2; exact bk
      · rw [hd]
        unfold endSession at hk
        rw [upd_len, c1] at hk
        exact b.later k hk
    · rw [he]; exact b
  | register e => exact b.talk (talk_apps _ _ rfl)
  | unregister e => exact b.talk (talk_apps _ _ rfl)
  | pop e => exact b.talk (talk_apps _ _ (pushed_pop _ _))
  | deliver e bd =>
    simp only [Ws.step]
    unfold deliver
    cases hf : Registry.find h.apps.agents e with
    | none => exact b
    | some a =>
      dsimp only
      generalize hroom : roomFor h a = room
      cases hp : (a.push bd room).2 with
      | none =>
        refine b.talk (talk_apps _ _ ?_)
        simp only [Apps.step, hf, hp]
      | some ch =>
        dsimp only
        have hch : a.delivery = some ch ∧ room = true := by
          unfold AppAgent.push at hp
          split at hp
          · rename_i c hc
            cases room with
            | false => simp at hp
            | true => simp only [Bool.not_true, Bool.false_eq_true, if_false, Option.some.injEq] at hp; rw [hc, hp]; exact ⟨rfl, rfl⟩
          · cases hp
        obtain ⟨hd, rfl⟩ := hch
        unfold roomFor at hroom
        rw [hd] at hroom
        dsimp only at hroom
        have hpu : (h.apps.step (.deliver e bd true)).pushed = h.apps.pushed ++ [(e, ch, bd)] := by
          simp only [Apps.step, hf, hp]
        have hand : ∀ k f, handedTo (({ h with apps := h.apps.step (.deliver e bd true) } : Hub).upd ch f) k =
            handedTo h k ++ if ch = k then [bd] else [] := by
          intro k f
          unfold handedTo Hub.upd
          dsimp only
          rw [hpu, List.filter_append, List.map_append]
          congr 1
          by_cases hk : ch = k <;> simp [hk]
        unfold roomIn at hroom
        cases hs : h.sessions[ch]? with
        | none => rw [hs] at hroom; cases hroom
        | some s =>
          rw [hs] at hroom
          simp only [Bool.and_eq_true] at hroom
          refine ⟨fun k s' hk => ?_, fun k hk => ?_⟩
          · rw [hand]
            obtain ⟨s0, h1, h2⟩ := upd_get hk
            have bk := b.sess k s0 h1
            by_cases hik : ch = k
            · subst hik
              dsimp only at h1
              rw [hs] at h1; cases h1
              rw [if_pos rfl] at h2 ⊢; subst h2
              refine ⟨bk.out, fun _ => ?_, fun h => ?_⟩
              · rw [bk.live hroom.1, List.append_assoc]
              · simp only at h; rw [hroom.1] at h; cases h
            · rw [if_neg hik] at h2 ⊢; subst h2
              simpa using bk
          · rw [hand]
            rw [upd_len] at hk
            have hlt := (List.getElem?_eq_some_iff.mp hs).1
            rw [if_neg (by rintro rfl; exact absurd hlt (by simpa using hk))]
            simpa using b.later k hk

theorem Books.run (x host store) (evs : List Ev) : Books x (run x host (Ws.init store) evs) := by
  induction evs using List.reverseRecOn with
  | nil => exact ⟨fun i s h => by simp [Ws.run, Ws.init] at h, fun i _ => rfl⟩
  | append_singleton evs ev ih => rw [run_snoc]; exact ih.step ev

end Dtn.Ws
