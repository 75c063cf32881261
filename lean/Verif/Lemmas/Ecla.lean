import Verif.Spec.Ecla
import Verif.Lemmas.AList
/-! Lemmas about the external convergence layers. -/

namespace Dtn.Ecla
open Spec.Ecla

/-- Connection `c` has this address and is in this phase. -/
def State.At (s : State) (c : Nat) (a : Addr) (p : Phase) : Prop :=
  (s.conns[c]?).map (fun k => (k.addr, k.phase)) = some (a, p)

theorem at_of {s : State} {c : Nat} {k : Conn} (h : s.conns[c]? = some k) : s.At c k.addr k.phase := by
  simp [State.At, h]

theorem State.At.uniq {s : State} {c : Nat} {a b : Addr} {p q : Phase} (h : s.At c a p) (g : s.At c b q) :
    a = b ∧ p = q := by
  have := h.symm.trans g
  simpa using this

theorem at_congr {s t : State} (h : t.conns = s.conns) (c a p) : t.At c a p ↔ s.At c a p := by
  simp [State.At, h]

/-! ### Sending -/

@[simp] theorem send_peers (s : State) (a p) : (s.send a p).peers = s.peers := by
  unfold State.send; split <;> rfl
@[simp] theorem send_modules (s : State) (a p) : (s.send a p).modules = s.modules := by
  unfold State.send; split <;> rfl
@[simp] theorem send_clas (s : State) (a p) : (s.send a p).clas = s.clas := by
  unfold State.send; split <;> rfl
@[simp] theorem send_connectors (s : State) (a p) : (s.send a p).connectors = s.connectors := by
  unfold State.send; split <;> rfl
@[simp] theorem send_nextId (s : State) (a p) : (s.send a p).nextId = s.nextId := by
  unfold State.send; split <;> rfl
@[simp] theorem send_created (s : State) (a p) : (s.send a p).created = s.created := by
  unfold State.send; split <;> rfl
@[simp] theorem send_poisoned (s : State) (a p) : (s.send a p).poisoned = s.poisoned := by
  unfold State.send; split <;> rfl
@[simp] theorem send_wsPoisoned (s : State) (a p) : (s.send a p).wsPoisoned = s.wsPoisoned := by
  unfold State.send; split <;> rfl
@[simp] theorem send_announcing (s : State) (a p) : (s.send a p).announcing = s.announcing := by
  unfold State.send; split <;> rfl

theorem map_modify_of {α β : Type} (l : List α) (c : Nat) (f : α → α) (g : α → β) (h : ∀ x, g (f x) = g x) (i : Nat) :
    ((l.modify c f)[i]?).map g = (l[i]?).map g := by
  rw [List.getElem?_modify]
  split
  · cases l[i]? <;> simp [h]
  · cases l[i]? <;> simp

theorem offer_shape (k : Conn) (p : Out) : ((k.offer p).addr, (k.offer p).phase) = (k.addr, k.phase) := by
  unfold Conn.offer; split <;> rfl

@[simp] theorem send_at (s : State) (a p c b q) : (s.send a p).At c b q ↔ s.At c b q := by
  unfold State.send
  split
  · rfl
  · simp only [State.At]
    rw [map_modify_of _ _ _ (fun k : Conn => (k.addr, k.phase)) (fun k => offer_shape k p)]

theorem setPhase_at (s : State) (c d a p r) :
    (s.setPhase c p).At d a r ↔ if d = c then (∃ q, s.At c a q) ∧ r = p else s.At d a r := by
  simp only [State.At, State.setPhase, List.getElem?_modify]
  by_cases h : d = c
  · subst h
    cases hk : s.conns[d]? with
    | none => simp
    | some k => simp [eq_comm]
  · simp only [if_neg h]
    cases hk : s.conns[d]? with
    | none => simp
    | some k => simp [Ne.symm h]

/-! ### What holds whatever happens -/

/-- Names of active modules are of the permitted length and not those of configured layers, which stay. -/
structure Basic (clas : List Bytes) (s : State) : Prop where
  len : ∀ a m, AList.get? s.modules a = some m → m.active = true → m.name ≠ [] ∧ m.name.length ≤ 64
  fresh : ∀ a m, AList.get? s.modules a = some m → m.active = true → m.name ∉ clas
  stay : ∀ n ∈ clas, n ∈ s.clas
  made : ∀ n ∈ s.created, n ≠ [] ∧ n.length ≤ 64

theorem Basic.congr {clas s t} (h : Basic clas s) (hm : t.modules = s.modules) (hc : t.clas = s.clas)
    (hn : t.created = s.created) : Basic clas t :=
  ⟨by rw [hm]; exact h.len, by rw [hm]; exact h.fresh, by rw [hc]; exact h.stay, by rw [hn]; exact h.made⟩

theorem sendAll_fields (ch p) (s : State) (r) (ms) :
    (sendAll ch p s r ms).1.modules = s.modules ∧ (sendAll ch p s r ms).1.clas = s.clas ∧
    (sendAll ch p s r ms).1.created = s.created ∧ (sendAll ch p s r ms).1.peers = s.peers ∧
    (sendAll ch p s r ms).1.nextId = s.nextId ∧ (sendAll ch p s r ms).1.wsPoisoned = s.wsPoisoned ∧
    (sendAll ch p s r ms).1.connectors = s.connectors ∧
    (∀ c b q, (sendAll ch p s r ms).1.At c b q ↔ s.At c b q) := by
  induction ms generalizing s r with
  | nil => simp [sendAll]
  | cons x ms ih =>
    obtain ⟨a, m⟩ := x
    unfold sendAll
    split
    · split
      · exact ⟨rfl, rfl, rfl, rfl, rfl, rfl, rfl, fun _ _ _ => Iff.rfl⟩
      · simpa using ih (s.send a p) (some true)
    · exact ih s r

theorem close_fields (s : State) (c a) :
    (s.close c a).modules = s.modules ∧ (s.close c a).clas = s.clas ∧ (s.close c a).created = s.created ∧
    (s.close c a).nextId = s.nextId ∧ (s.close c a).wsPoisoned = s.wsPoisoned ∧
    (s.close c a).connectors = s.connectors := by
  unfold State.close
  split <;> exact ⟨rfl, rfl, rfl, rfl, rfl, rfl⟩

theorem basic_register {clas s} (h : Basic clas s) (c a m n) : Basic clas (s.register c a m n) := by
  unfold State.register
  split
  · obtain ⟨h1, h2, h3, -⟩ := close_fields (s.send a .invalidName) c a
    exact h.congr (by simp [h1]) (by simp [h2]) (by simp [h3])
  · rename_i hn
    rw [not_or, Nat.not_lt] at hn
    split
    · rename_i hc
      have key : Basic clas { s with
          modules := AList.insert s.modules a { m with name := n, active := true }
          clas := s.clas ++ [n]
          created := s.created ++ [n] } := by
        refine ⟨?_, ?_, ?_, ?_⟩
        · intro b k hk ha
          simp only [AList.get?_insert] at hk
          split at hk
          · obtain rfl := Option.some.inj hk
            exact ⟨hn.1, hn.2⟩
          · exact h.len b k hk ha
        · intro b k hk ha
          simp only [AList.get?_insert] at hk
          split at hk
          · obtain rfl := Option.some.inj hk
            exact fun hh => hc (h.stay _ hh)
          · exact h.fresh b k hk ha
        · intro k hk
          exact List.mem_append_left _ (h.stay k hk)
        · intro k hk
          rcases List.mem_append.mp hk with hk | hk
          · exact h.made k hk
          · rw [List.mem_singleton.mp hk]; exact ⟨hn.1, hn.2⟩
      dsimp only
      split
      · exact key.congr (by simp) (by simp) (by simp)
      · exact key.congr (by simp) (by simp) (by simp)
    · obtain ⟨h1, h2, h3, -⟩ := close_fields (s.send a .alreadyRegistered) c a
      exact h.congr (by simp [h1]) (by simp [h2]) (by simp [h3])

theorem basic_step {clas s t e} (h : Basic clas s) (hs : step s e = some t) : Basic clas t := by
  cases e with
  | acceptTcp a => cases hs; exact h.congr rfl rfl rfl
  | acceptWs => cases hs; exact h.congr rfl rfl rfl
  | stop c =>
    simp only [step] at hs
    split at hs
    · cases hs
    · split at hs <;> cases hs
      exact h.congr rfl rfl rfl
  | write c =>
    simp only [step] at hs
    split at hs
    · cases hs
    · split at hs <;> cases hs
      exact h.congr rfl rfl rfl
  | submit n d b =>
    simp only [step] at hs
    split at hs
    · cases hs
      unfold State.submit
      split
      · exact h.congr rfl rfl rfl
      · split
        · exact h.congr rfl rfl rfl
        · rename_i b
          obtain ⟨h1, h2, h3, -⟩ := sendAll_fields (fun m => decide (m.name = n)) (.data d b) s (some false) s.modules
          exact h.congr h1 h2 h3
    · cases hs
  | announce =>
    simp only [step] at hs
    split at hs
    · cases hs
      unfold State.announce
      split
      · exact h.congr rfl rfl rfl
      · obtain ⟨h1, h2, h3, -⟩ := sendAll_fields (fun m => m.beacon) .beacon s (some false) s.modules
        exact h.congr h1 h2 h3
    · cases hs
  | packet c p =>
    simp only [step] at hs
    split at hs
    · cases hs
    · split at hs
      · split at hs
        · cases hs; exact h.congr rfl rfl rfl
        · split at hs
          · split at hs <;> cases hs
            exact h.congr rfl rfl rfl
          · cases hs
            unfold State.handlePacket
            split
            · exact h.congr rfl rfl rfl
            · split
              · exact h
              · split
                · exact h
                · split
                  · split <;> exact h.congr rfl rfl rfl
                  · split
                    · exact basic_register h _ _ _ _
                    · exact h
      · cases hs
  | proceed c =>
    simp only [step, State.proceed] at hs
    split at hs
    · cases hs
    · rename_i k hk
      split at hs
      · split at hs <;> cases hs <;> exact h.congr rfl rfl rfl
      · split at hs
        · cases hs; exact h.congr rfl rfl rfl
        · cases hs
          refine ⟨?_, ?_, h.stay, h.made⟩
          · intro b m hm ha
            simp only [AList.get?_insert] at hm
            split at hm
            · obtain rfl := Option.some.inj hm; cases ha
            · exact h.len b m hm ha
          · intro b m hm ha
            simp only [AList.get?_insert] at hm
            split at hm
            · obtain rfl := Option.some.inj hm; cases ha
            · exact h.fresh b m hm ha
      · split at hs
        · cases hs; exact h.congr rfl rfl rfl
        · split at hs <;> cases hs <;> exact h.congr rfl rfl rfl
      · split at hs
        · cases hs; exact h.congr rfl rfl rfl
        · split at hs
          · rename_i m hm
            split at hs
            · rename_i ha
              cases hs
              refine ⟨h.len, h.fresh, ?_, h.made⟩
              intro n hn
              simp only [ne_eq, decide_not, List.mem_filter, Bool.not_eq_eq_eq_not, Bool.not_true,
                decide_eq_false_iff_not]
              exact ⟨h.stay n hn, fun e => h.fresh _ m hm ha (e ▸ hn)⟩
            · cases hs; exact h.congr rfl rfl rfl
          · cases hs; exact h.congr rfl rfl rfl
      · split at hs
        · cases hs; exact h.congr rfl rfl rfl
        · cases hs
          refine ⟨?_, ?_, h.stay, h.made⟩
          · intro b m hm ha
            simp only [AList.get?_erase] at hm
            split at hm
            · cases hm
            · exact h.len b m hm ha
          · intro b m hm ha
            simp only [AList.get?_erase] at hm
            split at hm
            · cases hm
            · exact h.fresh b m hm ha
      · split at hs <;> cases hs <;> exact h.congr rfl rfl rfl
      all_goals cases hs

theorem run_snoc (s : State) (evs : List Ev) (e : Ev) :
    run s (evs ++ [e]) = (run s evs).bind fun t => step t e := by
  induction evs generalizing s with
  | nil => simp [run]
  | cons x evs ih =>
    simp only [List.cons_append, run]
    cases step s x with
    | none => rfl
    | some t => simpa using ih t

theorem run_append (s : State) (evs fs : List Ev) :
    run s (evs ++ fs) = (run s evs).bind fun t => run t fs := by
  induction evs generalizing s with
  | nil => simp [run]
  | cons x evs ih =>
    simp only [List.cons_append, run]
    cases step s x with
    | none => rfl
    | some t => simpa using ih t

theorem basic_run {clas s evs t} (h : Basic clas s) (hr : run s evs = some t) : Basic clas t := by
  induction evs generalizing s with
  | nil => cases hr; exact h
  | cons e evs ih =>
    simp only [run] at hr
    cases hs : step s e with
    | none => simp [hs] at hr
    | some u => rw [hs] at hr; exact ih (basic_step h hs) hr

theorem basic_start (clas tcp) : Basic clas (start clas tcp) := by
  refine ⟨?_, ?_, fun n hn => hn, ?_⟩ <;> simp [start]

theorem basic_after {clas tcp evs s} (h : After clas tcp evs s) : Basic clas s := basic_run (basic_start clas tcp) h

end Dtn.Ecla
