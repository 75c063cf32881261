import Verif.Lemmas.EclaOrder
/-! What other events leave unchanged for one connection of an external convergence layer. -/

namespace Dtn.Ecla
open Spec.Ecla

/-- Address, phase and written packets of connection `c`. -/
def State.see (s : State) (c : Nat) : Option (Addr × Phase × List Out) := (s.conns[c]?).map fun k => (k.addr, k.phase, k.written)

/-- The bundles received from address `a`. -/
def State.got (s : State) (a : Addr) : List Bundle := (s.received.filter fun r => r.1 = a).map fun r => r.2

/-- Addresses of web sockets are not used twice. -/
def State.Uniq (s : State) : Prop := ∀ (c : Nat) m p w, s.see c = some (.number m, p, w) → m < s.nextId ∧
  ∀ d q v, s.see d = some (.number m, q, v) → d = c

/-- Nothing happens on connection `c` with address `a`, except that packets are written. -/
structure Quiet (c : Nat) (a : Addr) (s t : State) : Prop where
  conn : ∀ b p w, s.see c = some (b, p, w) → ∃ v, t.see c = some (b, p, v) ∧ w <+: v
  mods : AList.get? t.modules a = AList.get? s.modules a
  recv : t.got a = s.got a

theorem Quiet.refl (c a s) : Quiet c a s s := ⟨fun _ _ w h => ⟨w, h, List.prefix_refl _⟩, rfl, rfl⟩

theorem Quiet.trans {c a s t u} (h : Quiet c a s t) (g : Quiet c a t u) : Quiet c a s u := by
  refine ⟨fun b p w hw => ?_, g.mods.trans h.mods, g.recv.trans h.recv⟩
  obtain ⟨v, hv, h1⟩ := h.conn b p w hw
  obtain ⟨v', hv', h2⟩ := g.conn b p v hv
  exact ⟨v', hv', h1.trans h2⟩

theorem Quiet.of_see {c a} {s t : State} (h : t.see c = s.see c) (hm : AList.get? t.modules a = AList.get? s.modules a)
    (hr : t.received = s.received) : Quiet c a s t :=
  ⟨fun _ _ w hw => ⟨w, h.trans hw, List.prefix_refl _⟩, hm, by unfold State.got; rw [hr]⟩

theorem see_congr {s t : State} (h : t.conns = s.conns) (c) : t.see c = s.see c := by unfold State.see; rw [h]

theorem see_send (s : State) (a p c) : (s.send a p).see c = s.see c := by
  unfold State.send
  split
  · rfl
  · simp only [State.see]
    rw [map_modify_of _ _ _ (fun k : Conn => (k.addr, k.phase, k.written))]
    intro k
    unfold Conn.offer; split <;> rfl

theorem see_setPhase_ne (s : State) {c d} (p) (h : d ≠ c) : (s.setPhase d p).see c = s.see c := by
  simp only [State.see, State.setPhase, List.getElem?_modify, if_neg h]
  cases s.conns[c]? <;> rfl

theorem see_setPhase_self (s : State) (c) (p) : (s.setPhase c p).see c = (s.see c).map fun x => (x.1, p, x.2.2) := by
  simp only [State.see, State.setPhase, List.getElem?_modify, if_true]
  cases s.conns[c]? <;> rfl

theorem see_setPhase (s : State) (d p) (c : Nat) (b q w) (h : (s.setPhase d p).see c = some (b, q, w)) : ∃ r, s.see c = some (b, r, w) := by
  by_cases hd : d = c
  · subst hd
    rw [see_setPhase_self] at h
    cases hs : s.see d with
    | none => rw [hs] at h; cases h
    | some x =>
      rw [hs] at h
      simp only [Option.map_some, Option.some.injEq, Prod.mk.injEq] at h
      obtain ⟨rfl, -, rfl⟩ := h
      exact ⟨x.2.1, rfl⟩
  · exact ⟨q, by rw [← see_setPhase_ne s p hd]; exact h⟩

@[simp] theorem send_received (s : State) (a p) : (s.send a p).received = s.received := by unfold State.send; split <;> rfl
@[simp] theorem send_encounters (s : State) (a p) : (s.send a p).encounters = s.encounters := by unfold State.send; split <;> rfl

theorem sendAll_more (ch p) (s : State) (r ms) : (sendAll ch p s r ms).1.received = s.received ∧
    (sendAll ch p s r ms).1.encounters = s.encounters ∧ ∀ c, (sendAll ch p s r ms).1.see c = s.see c := by
  induction ms generalizing s r with
  | nil => simp [sendAll]
  | cons x ms ih =>
    obtain ⟨a, m⟩ := x
    unfold sendAll
    split
    · split
      · exact ⟨rfl, rfl, fun _ => rfl⟩
      · obtain ⟨h1, h2, h3⟩ := ih (s.send a p) (some true)
        exact ⟨by rw [h1]; simp, by rw [h2]; simp, fun c => by rw [h3, see_send]⟩
    · exact ih s r

theorem close_more (s : State) (d a) : (s.close d a).received = s.received ∧ (s.close d a).encounters = s.encounters ∧
    (s.close d a).modules = s.modules ∧ ∀ c, c ≠ d → (s.close d a).see c = s.see c := by
  unfold State.close
  split
  · exact ⟨rfl, rfl, rfl, fun _ _ => rfl⟩
  · exact ⟨rfl, rfl, rfl, fun _ _ => rfl⟩
  · exact ⟨rfl, rfl, rfl, fun c hc => see_setPhase_ne s _ hc.symm⟩

theorem quiet_register {c a} (s : State) {d b} (m n) (hd : c ≠ d) (hb : a ≠ b) : Quiet c a s (s.register d b m n) := by
  have closed : ∀ q, Quiet c a s ((s.send b q).close d b) := by
    intro q
    obtain ⟨h1, -, h3, h4⟩ := close_more (s.send b q) d b
    exact .of_see (by rw [h4 c hd, see_send]) (by rw [h3]; simp) (by rw [h1]; simp)
  unfold State.register
  split
  · exact closed _
  · split
    · dsimp only
      split
      · exact .of_see (by rw [see_send, see_send]; rfl) (by simp [AList.get?_insert, hb]) (by simp)
      · exact .of_see (by rw [see_send]; rfl) (by simp [AList.get?_insert, hb]) (by simp)
    · exact closed _

theorem quiet_handlePacket {c a} (s : State) {d b} (p) (hd : c ≠ d) (hb : a ≠ b) : Quiet c a s (s.handlePacket d b p) := by
  unfold State.handlePacket
  split
  · exact .of_see (see_setPhase_ne s _ hd.symm) rfl rfl
  · split
    · exact .refl _ _ _
    · split
      · exact .refl _ _ _
      · split
        · split
          · exact ⟨fun _ _ w h => ⟨w, h, List.prefix_refl _⟩, rfl, by simp [State.got, hb.symm]⟩
          · exact .of_see rfl rfl rfl
          · exact .of_see (see_setPhase_ne s _ hd.symm) rfl rfl
          · exact .refl _ _ _
        · split
          · exact quiet_register s _ _ hd hb
          · exact .refl _ _ _

theorem see_some {s : State} {c : Nat} {k : Conn} (h : s.conns[c]? = some k) : s.see c = some (k.addr, k.phase, k.written) := by
  simp [State.see, h]

/-- Is the event one of connection `c` itself? -/
def own (c : Nat) : Ev → Bool
  | .packet d _ | .proceed d | .stop d => d == c
  | _ => false

theorem see_accept (s : State) (k : Conn) {t : State} (ht : t.conns = s.conns ++ [k]) (c b p w) (h : s.see c = some (b, p, w)) :
    t.see c = some (b, p, w) := by
  have hc : c < s.conns.length := by
    rcases Nat.lt_or_ge c s.conns.length with hc | hc
    · exact hc
    · simp [State.see, List.getElem?_eq_none hc] at h
  unfold State.see
  rw [ht, List.getElem?_append_left hc]
  exact h

theorem quiet_step {s t : State} {e : Ev} {c m p w} (hu : s.Uniq) (hc : s.see c = some (.number m, p, w)) (ho : own c e = false)
    (hs : step s e = some t) : Quiet c (.number m) s t := by
  cases e with
  | acceptTcp addr =>
    cases hs
    exact ⟨fun b p w h => ⟨w, see_accept s _ rfl c b p w h, List.prefix_refl _⟩, rfl, rfl⟩
  | acceptWs =>
    cases hs
    exact ⟨fun b p w h => ⟨w, see_accept s _ rfl c b p w h, List.prefix_refl _⟩, rfl, rfl⟩
  | proceed d =>
    have hd : d ≠ c := by simpa [own] using ho
    simp only [step] at hs
    unfold State.proceed at hs
    split at hs
    · cases hs
    · rename_i k hk
      have hk' := see_some hk
      have hne : Addr.number m ≠ k.addr := by
        intro e
        rw [← e] at hk'
        exact hd ((hu c m p w hc).2 d _ _ hk')
      repeat' split at hs
      all_goals first
        | cases hs; done
        | (cases hs; refine .of_see ?_ ?_ rfl
           · exact see_setPhase_ne s _ hd
           · first
             | rfl
             | (rw [AList.get?_insert]; exact if_neg hne)
             | (rw [AList.get?_erase]; exact if_neg hne))
  | packet d q =>
    have hd : d ≠ c := by simpa [own] using ho
    simp only [step] at hs
    split at hs
    · cases hs
    · rename_i k hk
      have hk' := see_some hk
      have hne : Addr.number m ≠ k.addr := by
        intro e
        rw [← e] at hk'
        exact hd ((hu c m p w hc).2 d _ _ hk')
      split at hs
      · split at hs
        · cases hs; exact .of_see (see_setPhase_ne s _ hd) rfl rfl
        · split at hs
          · split at hs
            · cases hs; exact .of_see (see_setPhase_ne s _ hd) rfl rfl
            · cases hs
          · cases hs; exact quiet_handlePacket s q hd.symm hne
      · cases hs
  | stop d =>
    have hd : d ≠ c := by simpa [own] using ho
    simp only [step] at hs
    split at hs
    · cases hs
    · split at hs
      · cases hs; exact .of_see (see_setPhase_ne s _ hd) rfl rfl
      · cases hs
  | write d =>
    simp only [step] at hs
    split at hs
    · cases hs
    · rename_i k hk
      split at hs
      · cases hs
      · rename_i o q hq
        cases hs
        refine ⟨?_, rfl, rfl⟩
        intro b p w hw
        by_cases hd : d = c
        · subst hd
          rw [see_some hk] at hw
          simp only [Option.some.injEq, Prod.mk.injEq] at hw
          obtain ⟨rfl, rfl, rfl⟩ := hw
          refine ⟨k.written ++ [o], ?_, List.prefix_append _ _⟩
          simp only [State.see]
          rw [List.getElem?_set_self (List.getElem?_eq_some_iff.mp hk).1]
          rfl
        · refine ⟨w, ?_, List.prefix_refl _⟩
          unfold State.see at hw ⊢
          rw [List.getElem?_set_ne hd]
          exact hw
  | submit n dest b =>
    simp only [step] at hs
    split at hs
    · cases hs
      unfold State.submit
      split
      · exact .of_see rfl rfl rfl
      · split
        · exact .of_see rfl rfl rfl
        · rename_i bb
          obtain ⟨h1, -, h3⟩ := sendAll_more (fun m => decide (m.name = n)) (.data dest bb) s (some false) s.modules
          exact .of_see (h3 c) (by rw [(sendAll_fields _ _ _ _ _).1]) h1
    · cases hs
  | announce =>
    simp only [step] at hs
    split at hs
    · cases hs
      unfold State.announce
      split
      · exact .of_see rfl rfl rfl
      · obtain ⟨h1, -, h3⟩ := sendAll_more (fun m => m.beacon) .beacon s (some false) s.modules
        exact .of_see (h3 c) (by dsimp only; rw [(sendAll_fields _ _ _ _ _).1]) h1
    · cases hs

/-- The connection goes on by itself: it does not begin again, and starts serving with a module that is not registered. -/
theorem own_step {s t : State} {e : Ev} {c m p w} (hc : s.see c = some (.number m, p, w)) (he : e = .proceed c ∨ e = .stop c)
    (hs : step s e = some t) : t.got (.number m) = s.got (.number m) ∧ ∃ q, t.see c = some (.number m, q, w) ∧ q ≠ .accepted ∧
      (q = .entered → p = .accepted) ∧
      (q = .serving → p = .entered ∧ ∃ k, AList.get? t.modules (.number m) = some k ∧ k.active = false) := by
  have key : ∀ q, (s.setPhase c q).see c = some (.number m, q, w) := fun q => by rw [see_setPhase_self, hc]; rfl
  rcases he with rfl | rfl
  · simp only [step] at hs
    unfold State.proceed at hs
    split at hs
    · cases hs
    · rename_i k hk
      have hk' := (see_some hk).symm.trans hc
      simp only [Option.some.injEq, Prod.mk.injEq] at hk'
      obtain ⟨h1, rfl, rfl⟩ := hk'
      rw [h1] at hs
      simp only [Addr.layer] at hs
      split at hs
      · split at hs
        · cases hs; exact ⟨rfl, _, key _, by simp, by simp, by simp⟩
        · rename_i hp _
          cases hs; exact ⟨rfl, _, key _, by simp, fun _ => hp, by simp⟩
      · split at hs
        · cases hs; exact ⟨rfl, _, key _, by simp, by simp, by simp⟩
        · rename_i hp _
          cases hs; exact ⟨rfl, _, key _, by simp, by simp, fun _ => ⟨hp, _, AList.get?_insert_self _ _ _, rfl⟩⟩
      · cases hs; exact ⟨rfl, _, key _, by simp, by simp, by simp⟩
      · split at hs
        · cases hs; exact ⟨rfl, _, key _, by simp, by simp, by simp⟩
        · split at hs
          · split at hs
            · cases hs; exact ⟨rfl, _, key _, by simp, by simp, by simp⟩
            · cases hs; exact ⟨rfl, _, key _, by simp, by simp, by simp⟩
          · cases hs; exact ⟨rfl, _, key _, by simp, by simp, by simp⟩
      · split at hs
        · cases hs; exact ⟨rfl, _, key _, by simp, by simp, by simp⟩
        · cases hs; exact ⟨rfl, _, key _, by simp, by simp, by simp⟩
      · split at hs
        · cases hs; exact ⟨rfl, _, key _, by simp, by simp, by simp⟩
        · cases hs; exact ⟨rfl, _, key _, by simp, by simp, by simp⟩
      · cases hs
      · cases hs
      · cases hs
  · simp only [step] at hs
    split at hs
    · cases hs
    · split at hs
      · cases hs; exact ⟨rfl, _, key _, by simp, by simp, by simp⟩
      · cases hs

theorem see_register (s : State) (c a m n) (d : Nat) (b p w) (h : (s.register c a m n).see d = some (b, p, w)) :
    ∃ q, s.see d = some (b, q, w) := by
  have closed : ∀ q, ((s.send a q).close c a).see d = some (b, p, w) → ∃ q, s.see d = some (b, q, w) := by
    intro q h
    unfold State.close at h
    split at h
    · rw [see_send] at h; exact ⟨p, h⟩
    · replace h : (s.send a q).see d = some (b, p, w) := h
      rw [see_send] at h; exact ⟨p, h⟩
    · obtain ⟨r, hr⟩ := see_setPhase (s.send a q) c .crashed d b p w h
      rw [see_send] at hr; exact ⟨r, hr⟩
  unfold State.register at h
  split at h
  · exact closed _ h
  · split at h
    · dsimp only at h
      split at h
      · rw [see_send, see_send] at h; exact ⟨p, h⟩
      · rw [see_send] at h; exact ⟨p, h⟩
    · exact closed _ h

theorem nextId_register (s : State) (c a m n) : (s.register c a m n).nextId = s.nextId := by
  unfold State.register
  split
  · rw [(close_fields _ _ _).2.2.2.1]; simp
  · split
    · dsimp only
      split <;> simp
    · rw [(close_fields _ _ _).2.2.2.1]; simp

/-- Connections other than a new one were there before, with the same address. -/
theorem see_back {s t : State} {e : Ev} (hs : step s e = some t) (d : Nat) (b p w) (h : t.see d = some (b, p, w)) :
    (∃ q v, s.see d = some (b, q, v)) ∨ (d = s.conns.length ∧ (∀ m, b = .number m → m = s.nextId ∧ t.nextId = s.nextId + 1)) := by
  have grow : ∀ k : Conn, t.conns = s.conns ++ [k] → (∃ q v, s.see d = some (b, q, v)) ∨ (d = s.conns.length ∧ b = k.addr) := by
    intro k hk
    unfold State.see at h ⊢
    rw [hk] at h
    by_cases hd : d < s.conns.length
    · rw [List.getElem?_append_left hd] at h
      exact .inl ⟨p, w, h⟩
    · rw [List.getElem?_append_right (by omega)] at h
      by_cases he : d = s.conns.length
      · subst he
        simp only [Nat.sub_self, List.getElem?_cons_zero, Option.map_some, Option.some.injEq, Prod.mk.injEq] at h
        exact .inr ⟨rfl, h.1.symm⟩
      · rw [List.getElem?_eq_none (by simp; omega)] at h
        cases h
  cases e with
  | acceptTcp addr =>
    cases hs
    rcases grow _ rfl with h | ⟨h1, h2⟩
    · exact .inl h
    · exact .inr ⟨h1, fun m hm => by rw [h2] at hm; cases hm⟩
  | acceptWs =>
    cases hs
    rcases grow _ rfl with h | ⟨h1, h2⟩
    · exact .inl h
    · refine .inr ⟨h1, fun m hm => ?_⟩
      rw [h2] at hm
      cases hm
      exact ⟨rfl, rfl⟩
  | proceed c =>
    left
    simp only [step] at hs
    unfold State.proceed at hs
    split at hs
    · cases hs
    · repeat' split at hs
      all_goals first
        | cases hs; done
        | (cases hs
           obtain ⟨r, hr⟩ := see_setPhase s c _ d b p w h
           exact ⟨r, w, hr⟩)
  | packet c q =>
    left
    have crashed : ∀ u : State, u.conns = (s.crash c).conns → u.see d = some (b, p, w) → ∃ q v, s.see d = some (b, q, v) := by
      intro u hu h
      rw [see_congr hu] at h
      obtain ⟨r, hr⟩ := see_setPhase s c _ d b p w h
      exact ⟨r, w, hr⟩
    simp only [step] at hs
    split at hs
    · cases hs
    · split at hs
      · split at hs
        · cases hs; exact crashed _ rfl h
        · split at hs
          · split at hs
            · cases hs; exact crashed _ rfl h
            · cases hs
          · cases hs
            unfold State.handlePacket at h
            split at h
            · exact crashed _ rfl h
            · split at h
              · exact ⟨p, w, h⟩
              · split at h
                · exact ⟨p, w, h⟩
                · split at h
                  · split at h
                    · exact ⟨p, w, h⟩
                    · exact ⟨p, w, h⟩
                    · exact crashed _ rfl h
                    · exact ⟨p, w, h⟩
                  · split at h
                    · obtain ⟨r, hr⟩ := see_register s _ _ _ _ d b p w h
                      exact ⟨r, w, hr⟩
                    · exact ⟨p, w, h⟩
      · cases hs
  | stop c =>
    left
    simp only [step] at hs
    split at hs
    · cases hs
    · split at hs
      · cases hs
        obtain ⟨r, hr⟩ := see_setPhase s c _ d b p w h
        exact ⟨r, w, hr⟩
      · cases hs
  | write c =>
    left
    simp only [step] at hs
    split at hs
    · cases hs
    · rename_i k hk
      split at hs
      · cases hs
      · cases hs
        by_cases hd : c = d
        · subst hd
          unfold State.see at h
          rw [List.getElem?_set_self (List.getElem?_eq_some_iff.mp hk).1] at h
          simp only [Option.map_some, Option.some.injEq, Prod.mk.injEq] at h
          exact ⟨k.phase, k.written, by rw [see_some hk, h.1]⟩
        · unfold State.see at h
          rw [List.getElem?_set_ne hd] at h
          exact ⟨p, w, h⟩
  | submit n dest bb =>
    left
    simp only [step] at hs
    split at hs
    · cases hs
      unfold State.submit at h
      split at h
      · exact ⟨p, w, h⟩
      · split at h
        · exact ⟨p, w, h⟩
        · rename_i b'
          replace h : (sendAll (fun m => decide (m.name = n)) (.data dest b') s (some false) s.modules).1.see d = some (b, p, w) := h
          rw [(sendAll_more _ _ _ _ _).2.2] at h
          exact ⟨p, w, h⟩
    · cases hs
  | announce =>
    left
    simp only [step] at hs
    split at hs
    · cases hs
      unfold State.announce at h
      split at h
      · exact ⟨p, w, h⟩
      · replace h : (sendAll (fun m => m.beacon) .beacon s (some false) s.modules).1.see d = some (b, p, w) := h
        rw [(sendAll_more _ _ _ _ _).2.2] at h
        exact ⟨p, w, h⟩
    · cases hs

theorem nextId_step {s t : State} {e : Ev} (hs : step s e = some t) : s.nextId ≤ t.nextId := by
  cases e with
  | acceptTcp addr => cases hs; exact Nat.le_refl _
  | acceptWs => cases hs; exact Nat.le_succ _
  | proceed c =>
    simp only [step] at hs
    unfold State.proceed at hs
    repeat' split at hs
    all_goals first
      | cases hs; done
      | (cases hs; exact Nat.le_refl _)
  | packet c q =>
    simp only [step] at hs
    split at hs
    · cases hs
    · split at hs
      · split at hs
        · cases hs; exact Nat.le_refl _
        · split at hs
          · split at hs
            · cases hs; exact Nat.le_refl _
            · cases hs
          · cases hs
            unfold State.handlePacket
            split
            · exact Nat.le_refl _
            · split
              · exact Nat.le_refl _
              · split
                · exact Nat.le_refl _
                · split
                  · split <;> exact Nat.le_refl _
                  · split
                    · exact Nat.le_of_eq (nextId_register _ _ _ _ _).symm
                    · exact Nat.le_refl _
      · cases hs
  | stop c =>
    simp only [step] at hs
    repeat' split at hs
    all_goals first
      | cases hs; done
      | (cases hs; exact Nat.le_refl _)
  | write c =>
    simp only [step] at hs
    repeat' split at hs
    all_goals first
      | cases hs; done
      | (cases hs; exact Nat.le_refl _)
  | submit n dest bb =>
    simp only [step] at hs
    split at hs
    · cases hs
      unfold State.submit
      split
      · exact Nat.le_refl _
      · split
        · exact Nat.le_refl _
        · exact Nat.le_of_eq (sendAll_fields _ _ _ _ _).2.2.2.2.1.symm
    · cases hs
  | announce =>
    simp only [step] at hs
    split at hs
    · cases hs
      unfold State.announce
      split
      · exact Nat.le_refl _
      · exact Nat.le_of_eq (sendAll_fields _ _ _ _ _).2.2.2.2.1.symm
    · cases hs

theorem see_lt {s : State} {c : Nat} {x} (h : s.see c = some x) : c < s.conns.length := by
  rcases Nat.lt_or_ge c s.conns.length with hc | hc
  · exact hc
  · simp [State.see, List.getElem?_eq_none hc] at h

theorem Uniq.step {s t : State} {e : Ev} (hu : s.Uniq) (hs : step s e = some t) : t.Uniq := by
  have hn := nextId_step hs
  intro c m p w hc
  rcases see_back hs c _ p w hc with ⟨q, v, h⟩ | ⟨h1, h2⟩
  · obtain ⟨g1, g2⟩ := hu c m q v h
    refine ⟨by omega, ?_⟩
    intro d q' v' hd
    rcases see_back hs d _ q' v' hd with ⟨q2, v2, h'⟩ | ⟨h1', h2'⟩
    · exact g2 d q2 v2 h'
    · have := (h2' m rfl).1
      omega
  · obtain ⟨g1, g2⟩ := h2 m rfl
    refine ⟨by omega, ?_⟩
    intro d q' v' hd
    rcases see_back hs d _ q' v' hd with ⟨q2, v2, h'⟩ | ⟨h1', h2'⟩
    · have := (hu d m q2 v2 h').1
      omega
    · omega

theorem Uniq.run {s t : State} {evs : List Ev} (hu : s.Uniq) (hs : run s evs = some t) : t.Uniq := by
  induction evs generalizing s with
  | nil => cases hs; exact hu
  | cons e evs ih =>
    unfold Dtn.Ecla.run at hs
    cases h : Dtn.Ecla.step s e with
    | none => rw [h] at hs; cases hs
    | some u => rw [h] at hs; exact ih (Uniq.step hu h) hs

theorem uniq_after {clas tcp evs s} (h : After clas tcp evs s) : s.Uniq := by
  refine Uniq.run ?_ h
  intro c m p w hc
  simp [State.see, start] at hc

theorem register_inputs (s : State) (c a m n) : (s.register c a m n).received = s.received ∧ (s.register c a m n).encounters = s.encounters := by
  unfold State.register
  split
  · obtain ⟨h1, h2, -⟩ := close_more (s.send a .invalidName) c a
    exact ⟨h1.trans (by simp), h2.trans (by simp)⟩
  · split
    · dsimp only
      split <;> simp
    · obtain ⟨h1, h2, -⟩ := close_more (s.send a .alreadyRegistered) c a
      exact ⟨h1.trans (by simp), h2.trans (by simp)⟩

/-- Where the bundles and announcements of a node come from. -/
theorem inputs_step {s t : State} {e : Ev} (hs : step s e = some t) : (t.received = s.received ∧ t.encounters = s.encounters) ∨
    ∃ c q k, e = .packet c q ∧ s.conns[c]? = some k ∧
      ((∃ b, q = .data (some b) ∧ t.received = s.received ++ [(k.addr, b)] ∧ t.encounters = s.encounters) ∨
       ∃ eid addr, q = .beacon eid addr .fine ∧ t.received = s.received ∧ t.encounters = s.encounters ++ [(eid, addr)]) := by
  cases e with
  | acceptTcp addr => cases hs; exact .inl ⟨rfl, rfl⟩
  | acceptWs => cases hs; exact .inl ⟨rfl, rfl⟩
  | proceed c =>
    left
    simp only [step] at hs
    unfold State.proceed at hs
    repeat' split at hs
    all_goals first
      | cases hs; done
      | (cases hs; exact ⟨rfl, rfl⟩)
  | packet c q =>
    simp only [step] at hs
    split at hs
    · cases hs
    · rename_i k hk
      split at hs
      · split at hs
        · cases hs; exact .inl ⟨rfl, rfl⟩
        · split at hs
          · split at hs
            · cases hs; exact .inl ⟨rfl, rfl⟩
            · cases hs
          · simp only [Option.some.injEq] at hs
            unfold State.handlePacket at hs
            split at hs
            · subst hs; exact .inl ⟨rfl, rfl⟩
            · split at hs
              · subst hs; exact .inl ⟨rfl, rfl⟩
              · split at hs
                · subst hs; exact .inl ⟨rfl, rfl⟩
                · split at hs
                  · split at hs
                    · rename_i b _
                      subst hs; exact .inr ⟨c, _, k, rfl, hk, .inl ⟨b, rfl, rfl, rfl⟩⟩
                    · rename_i eid addr _
                      subst hs; exact .inr ⟨c, _, k, rfl, hk, .inr ⟨eid, addr, rfl, rfl, rfl⟩⟩
                    · subst hs; exact .inl ⟨rfl, rfl⟩
                    · subst hs; exact .inl ⟨rfl, rfl⟩
                  · split at hs
                    · subst hs; exact .inl (register_inputs _ _ _ _ _)
                    · subst hs; exact .inl ⟨rfl, rfl⟩
      · cases hs
  | stop c =>
    left
    simp only [step] at hs
    repeat' split at hs
    all_goals first
      | cases hs; done
      | (cases hs; exact ⟨rfl, rfl⟩)
  | write c =>
    left
    simp only [step] at hs
    repeat' split at hs
    all_goals first
      | cases hs; done
      | (cases hs; exact ⟨rfl, rfl⟩)
  | submit n dest bb =>
    left
    simp only [step] at hs
    split at hs
    · cases hs
      unfold State.submit
      split
      · exact ⟨rfl, rfl⟩
      · split
        · exact ⟨rfl, rfl⟩
        · obtain ⟨h1, h2, -⟩ := sendAll_more (fun m => decide (m.name = n)) (.data dest (by assumption)) s (some false) s.modules
          exact ⟨h1, h2⟩
    · cases hs
  | announce =>
    left
    simp only [step] at hs
    split at hs
    · cases hs
      unfold State.announce
      split
      · exact ⟨rfl, rfl⟩
      · obtain ⟨h1, h2, -⟩ := sendAll_more (fun m => m.beacon) .beacon s (some false) s.modules
        exact ⟨h1, h2⟩
    · cases hs

/-- Bundles come from addresses that were given out. -/
def State.Known (s : State) : Prop := ∀ r ∈ s.received, ∀ m, r.1 = .number m → m < s.nextId

theorem Known.step {s t : State} {e : Ev} (h : s.Known) (hu : s.Uniq) (hs : step s e = some t) : t.Known := by
  have hn := nextId_step hs
  intro r hr m hm
  rcases inputs_step hs with ⟨h1, -⟩ | ⟨c, q, k, -, hk, ⟨b, -, h1, -⟩ | ⟨eid, addr, -, h1, -⟩⟩
  · rw [h1] at hr; have := h r hr m hm; omega
  · rw [h1, List.mem_append, List.mem_singleton] at hr
    rcases hr with hr | rfl
    · have := h r hr m hm; omega
    · have h2 := see_some hk
      dsimp only at hm
      rw [hm] at h2
      have := (hu c m _ _ h2).1; omega
  · rw [h1] at hr; have := h r hr m hm; omega

theorem known_after {clas tcp evs s} (h : After clas tcp evs s) : s.Known := by
  have hk : (start clas tcp).Known := by intro r hr; simp [start] at hr
  have hu : (start clas tcp).Uniq := by intro c m p w hc; simp [State.see, start] at hc
  unfold After at h
  generalize start clas tcp = u at h hk hu
  induction evs generalizing u with
  | nil => cases h; exact hk
  | cons e evs ih =>
    unfold Dtn.Ecla.run at h
    cases he : Dtn.Ecla.step u e with
    | none => rw [he] at h; cases h
    | some v => rw [he] at h; exact ih v h (Known.step hk hu he) (Uniq.step hu he)

/-- The bundle in a packet. -/
def bundleIn : Packet → List Bundle
  | .data (some b) => [b]
  | _ => []

/-- What a packet of the connection itself does. -/
theorem packet_step {s t : State} {c m p w q} (hc : s.see c = some (.number m, p, w)) (hw : .websocket ∈ s.connectors)
    (hs : step s (.packet c q) = some t) : p = .serving ∧ ∃ r v, t.see c = some (.number m, r, v) ∧ w <+: v ∧ r ≠ .accepted ∧ r ≠ .entered ∧
      ((r ≠ .serving ∧ t.got (.number m) = s.got (.number m)) ∨
       (r = .serving ∧
        ((AList.get? s.modules (.number m) = none ∧ AList.get? t.modules (.number m) = none ∧ t.got (.number m) = s.got (.number m)) ∨
         (∃ k, AList.get? s.modules (.number m) = some k ∧ k.active = true ∧ AList.get? t.modules (.number m) = some k ∧
          t.got (.number m) = s.got (.number m) ++ bundleIn q) ∨
         (∃ k, AList.get? s.modules (.number m) = some k ∧ k.active = false ∧ t.got (.number m) = s.got (.number m) ∧
          ∃ k', AList.get? t.modules (.number m) = some k' ∧ (k'.active = true → ∃ n b o, q = .register n b o))))) := by
  have crashed : ∀ u : State, u.conns = (s.crash c).conns → u.see c = some (.number m, .crashed, w) := by
    intro u hu
    rw [see_congr hu]
    unfold State.crash
    rw [see_setPhase_self, hc]; rfl
  have bad : ∀ u : State, u.conns = (s.crash c).conns → u.received = s.received → ∃ r v, u.see c = some (.number m, r, v) ∧ w <+: v ∧ r ≠ .accepted ∧ r ≠ .entered ∧
      ((r ≠ .serving ∧ u.got (.number m) = s.got (.number m)) ∨
       (r = .serving ∧
        ((AList.get? s.modules (.number m) = none ∧ AList.get? u.modules (.number m) = none ∧ u.got (.number m) = s.got (.number m)) ∨
         (∃ k, AList.get? s.modules (.number m) = some k ∧ k.active = true ∧ AList.get? u.modules (.number m) = some k ∧
          u.got (.number m) = s.got (.number m) ++ bundleIn q) ∨
         (∃ k, AList.get? s.modules (.number m) = some k ∧ k.active = false ∧ u.got (.number m) = s.got (.number m) ∧
          ∃ k', AList.get? u.modules (.number m) = some k' ∧ (k'.active = true → ∃ n b o, q = .register n b o))))) := by
    intro u h1 h2
    exact ⟨.crashed, w, crashed u h1, List.prefix_refl _, by simp, by simp, .inl ⟨by simp, by unfold State.got; rw [h2]⟩⟩
  simp only [step] at hs
  split at hs
  · cases hs
  · rename_i k hk
    have hk' := (see_some hk).symm.trans hc
    simp only [Option.some.injEq, Prod.mk.injEq] at hk'
    obtain ⟨h1, rfl, rfl⟩ := hk'
    split at hs
    · rename_i hsv
      refine ⟨hsv, ?_⟩
      rw [hsv] at hc
      rw [h1] at hs
      split at hs
      · cases hs; exact bad _ rfl rfl
      · split at hs
        · split at hs
          · cases hs; exact bad _ rfl rfl
          · cases hs
        · simp only [Option.some.injEq] at hs
          unfold State.handlePacket at hs
          split at hs
          · subst hs; exact bad _ rfl rfl
          · split at hs
            · rename_i hm
              subst hs; exact ⟨.serving, k.written, hc, List.prefix_refl _, by simp, by simp, .inr ⟨rfl, .inl ⟨hm, hm, rfl⟩⟩⟩
            · rename_i k0 hm
              split at hs
              · rename_i hn; exact absurd hw hn
              · split at hs
                · rename_i ha
                  split at hs
                  · subst hs; refine ⟨.serving, k.written, hc, List.prefix_refl _, by simp, by simp, .inr ⟨rfl, .inr (.inl ⟨k0, hm, ha, hm, ?_⟩)⟩⟩
                    simp [State.got, bundleIn]
                  · subst hs; refine ⟨.serving, k.written, hc, List.prefix_refl _, by simp, by simp, .inr ⟨rfl, .inr (.inl ⟨k0, hm, ha, hm, ?_⟩)⟩⟩
                    simp [State.got, bundleIn]
                  · subst hs; exact bad _ rfl rfl
                  · subst hs; refine ⟨.serving, k.written, hc, List.prefix_refl _, by simp, by simp, .inr ⟨rfl, .inr (.inl ⟨k0, hm, ha, hm, ?_⟩)⟩⟩
                    rename_i n1 n2 n3
                    cases q with
                    | data b =>
                      cases b with
                      | none => simp [bundleIn]
                      | some b => exact absurd rfl (n1 b)
                    | _ => simp [bundleIn]
                · rename_i ha
                  have ha : k0.active = false := by simpa using ha
                  split at hs
                  · rename_i n bb o _
                    unfold State.register at hs
                    split at hs
                    · unfold State.close at hs
                      split at hs
                      · subst hs; exact ⟨.serving, k.written, by rw [see_send]; exact hc, List.prefix_refl _, by simp, by simp,
                          .inr ⟨rfl, .inr (.inr ⟨k0, hm, ha, by simp [State.got], k0, by simpa using hm, fun hh => by rw [ha] at hh; cases hh⟩)⟩⟩
                      · subst hs; exact ⟨.serving, k.written, by change (s.send (.number m) .invalidName).see c = _; rw [see_send]; exact hc, List.prefix_refl _, by simp, by simp,
                          .inr ⟨rfl, .inr (.inr ⟨k0, hm, ha, by simp [State.got], k0, by simpa using hm, fun hh => by rw [ha] at hh; cases hh⟩)⟩⟩
                      · subst hs; refine ⟨.crashed, k.written, ?_, List.prefix_refl _, by simp, by simp, .inl ⟨by simp, by simp [State.got, State.crash, State.setPhase]⟩⟩
                        change ((s.send (.number m) .invalidName).setPhase c .crashed).see c = _
                        rw [see_setPhase_self, see_send, hc]; rfl
                    · split at hs
                      · dsimp only at hs
                        split at hs
                        · subst hs; exact ⟨.serving, k.written, by rw [see_send, see_send]; exact hc, List.prefix_refl _, by simp, by simp,
                            .inr ⟨rfl, .inr (.inr ⟨k0, hm, ha, by simp [State.got], _, (by simp only [send_modules]; exact AList.get?_insert_self _ _ _), fun _ => ⟨n, bb, o, rfl⟩⟩)⟩⟩
                        · subst hs; exact ⟨.serving, k.written, by rw [see_send]; exact hc, List.prefix_refl _, by simp, by simp,
                            .inr ⟨rfl, .inr (.inr ⟨k0, hm, ha, by simp [State.got], _, (by simp only [send_modules]; exact AList.get?_insert_self _ _ _), fun _ => ⟨n, bb, o, rfl⟩⟩)⟩⟩
                      · unfold State.close at hs
                        split at hs
                        · subst hs; exact ⟨.serving, k.written, by rw [see_send]; exact hc, List.prefix_refl _, by simp, by simp,
                            .inr ⟨rfl, .inr (.inr ⟨k0, hm, ha, by simp [State.got], k0, by simpa using hm, fun hh => by rw [ha] at hh; cases hh⟩)⟩⟩
                        · subst hs; exact ⟨.serving, k.written, by change (s.send (.number m) .alreadyRegistered).see c = _; rw [see_send]; exact hc, List.prefix_refl _, by simp, by simp,
                            .inr ⟨rfl, .inr (.inr ⟨k0, hm, ha, by simp [State.got], k0, by simpa using hm, fun hh => by rw [ha] at hh; cases hh⟩)⟩⟩
                        · subst hs; refine ⟨.crashed, k.written, ?_, List.prefix_refl _, by simp, by simp, .inl ⟨by simp, by simp [State.got, State.crash, State.setPhase]⟩⟩
                          change ((s.send (.number m) .alreadyRegistered).setPhase c .crashed).see c = _
                          rw [see_setPhase_self, see_send, hc]; rfl
                  · subst hs; exact ⟨.serving, k.written, hc, List.prefix_refl _, by simp, by simp,
                      .inr ⟨rfl, .inr (.inr ⟨k0, hm, ha, rfl, k0, hm, fun hh => by rw [ha] at hh; cases hh⟩)⟩⟩
    · cases hs

end Dtn.Ecla
