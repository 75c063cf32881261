import Verif.Spec.Locks
import Verif.Lemmas.EclaLocks
/-! Threads that take locks in a fixed order do not deadlock; the order of the daemon's locks. -/

namespace Dtn.Locks
open Spec.Locks

/-- From `held` on, the actions take only locks of greater rank than those held and give everything back. -/
def Ok (rank : Lock → Nat) : List Lock → List Act → Prop
  | held, [] => held = []
  | held, .acq l :: r => (∀ h ∈ held, rank h < rank l) ∧ Ok rank (l :: held) r
  | held, .rel l :: r => Ok rank (held.erase l) r

theorem ok_step {rank ts t t'} (h : Ok rank t.held t.rest) (hs : stepThread ts t = some t') : Ok rank t'.held t'.rest := by
  unfold stepThread at hs
  split at hs
  · cases hs
  · rename_i l r he
    rw [he] at h
    split at hs
    · cases hs
    · cases hs; exact h.2
  · rename_i l r he
    rw [he] at h
    cases hs; exact h

theorem step_cases {ts us i} (h : step ts i = some us) :
    ∃ t t', ts[i]? = some t ∧ stepThread ts t = some t' ∧ us = ts.set i t' := by
  unfold step at h
  split at h
  · cases h
  · rename_i t ht
    cases hst : stepThread ts t with
    | none => simp [hst] at h
    | some t' =>
      rw [hst] at h
      cases h
      exact ⟨t, t', ht, hst, rfl⟩

theorem ok_run {rank ts is ts'} (h : ∀ t ∈ ts, Ok rank t.held t.rest) (hr : run ts is = some ts') :
    ∀ t ∈ ts', Ok rank t.held t.rest := by
  induction is generalizing ts with
  | nil => cases hr; exact h
  | cons i is ih =>
    simp only [run] at hr
    cases hs : step ts i with
    | none => simp [hs] at hr
    | some us =>
      rw [hs] at hr
      refine ih ?_ hr
      obtain ⟨t, t', ht, hst, rfl⟩ := step_cases hs
      intro u hu
      rcases List.mem_or_eq_of_mem_set hu with hu | rfl
      · exact h u hu
      · exact ok_step (h t (List.mem_of_getElem? ht)) hst

/-- If nothing moves, an unfinished thread waits for a lock held by an unfinished thread that waits for a lock of
greater rank. -/
theorem waits {rank ts} (h : ∀ t ∈ ts, Ok rank t.held t.rest) (hd : ∀ i, step ts i = none) {t : Thread} (ht : t ∈ ts)
    {l r} (hr : t.rest = .acq l :: r) : ∃ u ∈ ts, ∃ l' r', u.rest = .acq l' :: r' ∧ rank l < rank l' := by
  have stuck : ∀ u ∈ ts, stepThread ts u = none := by
    intro u hu
    obtain ⟨i, hi⟩ := List.getElem?_of_mem hu
    have := hd i
    simpa [step, hi] using this
  have h1 := stuck t ht
  unfold stepThread at h1
  rw [hr] at h1
  dsimp only at h1
  split at h1
  · rename_i hany
    obtain ⟨u, hu, hl⟩ := List.any_eq_true.mp hany
    have hl : l ∈ u.held := by simpa using hl
    have hok := h u hu
    cases hrest : u.rest with
    | nil =>
      rw [hrest] at hok
      rw [show u.held = [] from hok] at hl
      cases hl
    | cons a r' =>
      cases a with
      | rel l' =>
        have := stuck u hu
        unfold stepThread at this
        rw [hrest] at this
        cases this
      | acq l' =>
        rw [hrest] at hok
        exact ⟨u, hu, l', r', hrest, hok.1 l hl⟩
  · cases h1

theorem no_deadlock {rank ts B} (hB : ∀ l, rank l < B) (h : ∀ t ∈ ts, Ok rank t.held t.rest) : ¬ Deadlock ts := by
  rintro ⟨hnf, hd⟩
  have key : ∀ n, ∀ t ∈ ts, ∀ l r, t.rest = .acq l :: r → B - rank l = n → False := by
    intro n
    induction n using Nat.strongRecOn with
    | _ n ih =>
      intro t ht l r hr hn
      obtain ⟨u, hu, l', r', hr', hlt⟩ := waits h hd ht hr
      have := hB l'
      have := hB l
      exact ih (B - rank l') (by omega) u hu l' r' hr' rfl
  apply hnf
  intro t ht
  cases hrest : t.rest with
  | nil => rfl
  | cons a r =>
    exfalso
    cases a with
    | acq l => exact key _ t ht l r hrest rfl
    | rel l =>
      obtain ⟨i, hi⟩ := List.getElem?_of_mem ht
      have := hd i
      simp [step, hi, stepThread, hrest] at this

/-! ### Every schedule ends -/

/-- What the threads still do. -/
def left (ts : List Thread) : Nat := (ts.map fun t => t.rest.length).sum

theorem sum_set {ts : List Thread} {i t t'} (h : ts[i]? = some t) (hl : t.rest.length = t'.rest.length + 1) :
    left ts = left (ts.set i t') + 1 := by
  induction ts generalizing i with
  | nil => cases h
  | cons u ts ih =>
    cases i with
    | zero => cases h; simp [left]; omega
    | succ i =>
      have := ih (i := i) h
      simp only [left, List.set_cons_succ, List.map_cons, List.sum_cons] at this ⊢
      omega

theorem left_step {ts us i} (h : step ts i = some us) : left ts = left us + 1 := by
  obtain ⟨t, t', ht, hst, rfl⟩ := step_cases h
  refine sum_set ht ?_
  unfold stepThread at hst
  split at hst
  · cases hst
  · rename_i he
    split at hst
    · cases hst
    · cases hst; simp [he]
  · rename_i he
    cases hst; simp [he]

theorem left_run {ts is us} (h : run ts is = some us) : left ts = left us + is.length := by
  induction is generalizing ts with
  | nil => cases h; rfl
  | cons i is ih =>
    simp only [run] at h
    cases hs : step ts i with
    | none => simp [hs] at h
    | some vs =>
      rw [hs] at h
      have := ih h
      have := left_step hs
      simp; omega

theorem left_begin (cs : List Call) : left (begin cs) = size cs := by
  simp [left, begin, size, Function.comp_def]

theorem run_append {ts is js us} (h : run ts is = some us) : run ts (is ++ js) = run us js := by
  induction is generalizing ts with
  | nil => cases h; rfl
  | cons i is ih =>
    simp only [run, List.cons_append] at h ⊢
    cases hs : step ts i with
    | none => simp [hs] at h
    | some vs =>
      rw [hs] at h
      exact ih h

theorem rest_le {ts : List Thread} {t} (h : t ∈ ts) : t.rest.length ≤ left ts := by
  induction h with
  | head => simp [left]
  | tail _ _ ih => simp only [left, List.map_cons, List.sum_cons] at ih ⊢; omega

theorem can_finish {rank ts B} (hB : ∀ l, rank l < B) (h : ∀ t ∈ ts, Ok rank t.held t.rest) :
    ∃ js us, run ts js = some us ∧ Finished us := by
  generalize hn : left ts = n
  induction n generalizing ts with
  | zero =>
    refine ⟨[], ts, rfl, ?_⟩
    intro t ht
    exact List.length_eq_zero_iff.mp (by have := rest_le ht; omega)
  | succ n ih =>
    have hnd := no_deadlock hB h
    by_cases hf : Finished ts
    · exact ⟨[], ts, rfl, hf⟩
    · have : ∃ i us, step ts i = some us := by
        apply Classical.byContradiction
        intro hno
        apply hnd
        refine ⟨hf, fun i => ?_⟩
        cases hs : step ts i with
        | none => rfl
        | some us => exact absurd ⟨i, us, hs⟩ hno
      obtain ⟨i, us, hs⟩ := this
      have hrun : run ts [i] = some us := by simp [run, hs]
      obtain ⟨js, vs, hjs, hfin⟩ := ih (ok_run h hrun) (by have := left_step hs; omega)
      exact ⟨i :: js, vs, by simpa [run, hs] using hjs, hfin⟩

/-! ### The calls -/

/-- The actions leave the held locks as they were. -/
def Bal (rank : Lock → Nat) (held : List Lock) (as : List Act) : Prop := ∀ r, Ok rank held r → Ok rank held (as ++ r)

theorem Bal.nil {rk held} : Bal rk held [] := fun _ h => h

theorem Bal.append {rk held as bs} (ha : Bal rk held as) (hb : Bal rk held bs) : Bal rk held (as ++ bs) := by
  intro r h
  rw [List.append_assoc]
  exact ha _ (hb _ h)

theorem Bal.flatMap {α rk held} {f : α → List Act} {xs : List α} (h : ∀ x ∈ xs, Bal rk held (f x)) :
    Bal rk held (xs.flatMap f) := by
  induction xs with
  | nil => exact Bal.nil
  | cons x xs ih =>
    rw [List.flatMap_cons]
    exact (h x List.mem_cons_self).append (ih fun y hy => h y (List.mem_cons_of_mem _ hy))

theorem Bal.inside {rk held l as} (hl : ∀ h ∈ held, rk h < rk l) (h : Bal rk (l :: held) as) :
    Bal rk held (inside l as) := by
  intro r hr
  refine ⟨hl, ?_⟩
  show Ok rk (l :: held) ((as ++ [.rel l]) ++ r)
  rw [List.append_assoc]
  apply h
  show Ok rk ((l :: held).erase l) r
  rw [List.erase_cons_head]
  exact hr

theorem Bal.brief {rk held l} (hl : ∀ h ∈ held, rk h < rk l) : Bal rk held (brief l) := Bal.inside hl Bal.nil

theorem Bal.briefs {rk ls} : Bal rk [] (briefs ls) := Bal.flatMap fun _ _ => Bal.brief (by simp)

theorem Bal.ok {rk as} (h : Bal rk [] as) : Ok rk [] as := by
  have := h [] rfl
  simpa using this

/-- The order of the locks: with `p`, `PEERS` before `CONFIG`, else after; with `m`, `MODULE_MAP` before
`CONNECTORS_MAP`, else after. -/
def rank (p m : Bool) : Lock → Nat
  | .session _ => 0
  | .modules => if m then 1 else 2
  | .connectors => if m then 2 else 1
  | .peers => if p then 3 else 4
  | .config => if p then 4 else 3
  | .core => 5
  | _ => 6

theorem rank_lt {p m} (l : Lock) : rank p m l < 7 := by
  cases p <;> cases m <;> cases l <;> simp [rank]

theorem bal_handed {p m h} : Bal (rank p m) [.core] (Handed.acts h) := by
  cases h with
  | kept => exact Bal.nil
  | removed => exact Bal.brief (by cases p <;> cases m <;> simp [rank])

theorem bal_pieces {p m ps} : Bal (rank p m) [] (pieces ps) := by
  refine Bal.flatMap fun x _ => ?_
  cases x with
  | one l => exact Bal.brief (by simp)
  | deliver h =>
    exact Bal.inside (by simp) (bal_handed.append (Bal.brief (by cases p <;> cases m <;> simp [rank])))

theorem bal_replicate {rk l k n} (h : rk k < rk l) : Bal rk [k] (briefs (List.replicate n l)) := by
  refine Bal.flatMap fun x hx => ?_
  rw [(List.mem_replicate.mp hx).2]
  exact Bal.brief (by simpa using h)

theorem erase_ofEcla {held : List EclaLocks.Lock} {l} : (held.map ofEcla).erase (ofEcla l) = (held.erase l).map ofEcla := by
  induction held with
  | nil => rfl
  | cons k held ih =>
    by_cases h : k = l
    · subst h; simp
    · have : ofEcla k ≠ ofEcla l := by cases k <;> cases l <;> simp_all [ofEcla]
      rw [List.map_cons, List.erase_cons_tail (by simpa using this), List.erase_cons_tail (by simpa using h), ih,
        List.map_cons]

theorem ok_ofEcla {rk : EclaLocks.Lock → Nat} {rk' : Lock → Nat} (h : ∀ k l, rk k < rk l → rk' (ofEcla k) < rk' (ofEcla l))
    {held as} (ho : EclaLocks.Ok rk held as) : Ok rk' (held.map ofEcla) (as.map ofEclaAct) := by
  induction as generalizing held with
  | nil => rw [show held = [] from ho]; rfl
  | cons a as ih =>
    cases a with
    | acq l =>
      refine ⟨?_, ih ho.2⟩
      intro k hk
      obtain ⟨k', hk', rfl⟩ := List.mem_map.mp hk
      exact h _ _ (ho.1 k' hk')
    | rel l =>
      show Ok rk' ((held.map ofEcla).erase (ofEcla l)) _
      rw [erase_ofEcla]
      exact ih ho

/-- Every call keeps to the order that fits the calls it runs with. -/
theorem ok_acts {p m : Bool} {c : Call}
    (hp : if p then c ≠ .indexPage ∧ ∀ a n b m d, c ≠ .startup a n b m d else ∀ ks ps, c = .janitor ks ps → Kind.dynamic ∉ ks)
    (hm : ∀ e, c = .ecla e → if m then ∀ ls, e ≠ .submit ls else
      (∃ ls, e = .submit ls) ∨ (∃ l, e = .connect l) ∨ (∃ l b, e = .disconnect l b) ∨ e = .unknown) :
    Ok (rank p m) [] c.acts := by
  cases c with
  | plain ls => exact Bal.briefs.ok
  | indexPage =>
    cases p with
    | true => exact absurd rfl hp.1
    | false =>
      refine (Bal.append Bal.briefs (Bal.inside (by simp) (Bal.append (Bal.brief (by simp [rank])) ?_))).ok
      refine Bal.inside (by simp [rank]) (Bal.brief (by simp [rank]))
  | verbosePage => exact (Bal.inside (by simp) (Bal.brief (by simp [rank]))).ok
  | fetch h => exact (Bal.append (Bal.brief (by simp)) (Bal.inside (by simp) bal_handed)).ok
  | websocket n ps =>
    refine (Bal.inside (by simp) (Bal.flatMap fun x _ => ?_)).ok
    cases x with
    | none => exact Bal.brief (by cases p <;> simp [rank])
    | some hs =>
      refine Bal.inside (by simp [rank]) (Bal.flatMap fun h _ => ?_)
      cases h with
      | kept => exact Bal.nil
      | removed => exact Bal.brief (by simp [rank])
  | processing ps => exact bal_pieces.ok
  | route ls n =>
    exact (Bal.append Bal.briefs (Bal.inside (by simp) (bal_replicate (by cases p <;> simp [rank])))).ok
  | janitor ks ps =>
    refine (Bal.append (Bal.inside (by simp) (Bal.flatMap fun k hk => ?_)) bal_pieces).ok
    cases k with
    | static => exact Bal.nil
    | dynamic =>
      cases p with
      | false => exact absurd hk (hp ks ps rfl)
      | true => exact Bal.append (Bal.brief (by simp [rank])) (Bal.brief (by simp [rank]))
  | startup a n b k d =>
    cases p with
    | true => exact absurd rfl (hp.2 a n b k d)
    | false =>
      refine (Bal.append (Bal.append (Bal.append (Bal.append (Bal.append Bal.briefs ?_) Bal.briefs) ?_)
        (Bal.brief (by simp))) Bal.briefs).ok
      · exact Bal.inside (by simp) (bal_replicate (by simp [rank]))
      · exact Bal.inside (by simp) (bal_replicate (by simp [rank]))
  | ecla e =>
    cases m with
    | true =>
      refine ok_ofEcla (rk := EclaLocks.rank) ?_ (held := []) (EclaLocks.ok_acts (hm e rfl))
      intro k l; cases p <;> cases k <;> cases l <;> simp [EclaLocks.rank, rank, ofEcla]
    | false =>
      refine ok_ofEcla (rk := EclaLocks.rank') ?_ (held := []) (EclaLocks.ok_submit (hm e rfl))
      intro k l; cases p <;> cases k <;> cases l <;> simp [EclaLocks.rank', rank, ofEcla]

theorem ok_begin {cs : List Call} (h1 : NoStartPage cs ∨ NoDynamicPeer cs)
    (h2 : NoModuleSubmission cs ∨ OnlyModuleSubmissions cs) :
    ∃ p m, ∀ t ∈ begin cs, Ok (rank p m) t.held t.rest := by
  classical
  refine ⟨decide (NoStartPage cs), decide (NoModuleSubmission cs), ?_⟩
  intro t ht
  obtain ⟨c, hc, rfl⟩ := List.mem_map.mp ht
  refine ok_acts ?_ ?_
  · by_cases h : NoStartPage cs
    · simpa [h] using h c hc
    · rcases h1 with h1 | h1
      · exact absurd h1 h
      · simp only [h, decide_false, Bool.false_eq_true, if_false]
        rintro ks ps rfl
        exact h1 ks ps hc
  · rintro e rfl
    by_cases h : NoModuleSubmission cs
    · simp only [h, decide_true, if_true]
      rintro ls rfl
      exact h ls hc
    · rcases h2 with h2 | h2
      · exact absurd h2 h
      · simpa [h] using h2 e hc

/-! ### Two threads that hold what the other wants -/

/-- A lock held by a thread that never runs again stays held, and whoever wants it waits for ever. -/
structure Stuck (ts : List Thread) : Prop where
  a : ∃ t r, ts[0]? = some t ∧ Lock.config ∈ t.held ∧ t.rest = .acq .peers :: r
  b : ∃ t r, ts[1]? = some t ∧ Lock.peers ∈ t.held ∧ t.rest = .acq .config :: r

theorem Stuck.blocked {ts l} (h : Stuck ts) (hl : l = .config ∨ l = .peers) :
    (ts.any fun u => u.held.contains l) = true := by
  obtain ⟨⟨t, r, ht, hc, _⟩, ⟨t', r', ht', hc', _⟩⟩ := h
  rcases hl with rfl | rfl
  · exact List.any_eq_true.mpr ⟨t, List.mem_of_getElem? ht, by simpa using hc⟩
  · exact List.any_eq_true.mpr ⟨t', List.mem_of_getElem? ht', by simpa using hc'⟩

theorem Stuck.step {ts us i} (h : Stuck ts) (hs : step ts i = some us) : Stuck us ∧ 2 ≤ i := by
  have hb := h.blocked (l := .config) (.inl rfl)
  have hb' := h.blocked (l := .peers) (.inr rfl)
  obtain ⟨⟨t, r, ht, hc, hr⟩, ⟨t', r', ht', hc', hr'⟩⟩ := h
  obtain ⟨u, u', hu, hst, rfl⟩ := step_cases hs
  match i with
  | 0 =>
    rw [ht] at hu; cases hu
    unfold stepThread at hst
    rw [hr] at hst
    simp only [hb', if_true] at hst
    cases hst
  | 1 =>
    rw [ht'] at hu; cases hu
    unfold stepThread at hst
    rw [hr'] at hst
    simp only [hb, if_true] at hst
    cases hst
  | i + 2 =>
    refine ⟨⟨⟨t, r, ?_, hc, hr⟩, ⟨t', r', ?_, hc', hr'⟩⟩, by omega⟩
    · rw [List.getElem?_set_ne (by omega)]; exact ht
    · rw [List.getElem?_set_ne (by omega)]; exact ht'

theorem Stuck.run {ts us is} (h : Stuck ts) (hr : run ts is = some us) : Stuck us := by
  induction is generalizing ts with
  | nil => cases hr; exact h
  | cons i is ih =>
    simp only [Locks.run] at hr
    cases hs : Locks.step ts i with
    | none => simp [hs] at hr
    | some vs => rw [hs] at hr; exact ih (h.step hs).1 hr

/-- Whoever still has to take one of the two locks never gets past that point. -/
theorem Stuck.wants {ts us is l} {i : Nat} {t : Thread} (h : Stuck ts) (hr : Locks.run ts is = some us) (hl : l = .config ∨ l = .peers)
    (ht : ts[i]? = some t) (hw : Act.acq l ∈ t.rest) :
    ∃ u : Thread, us[i]? = some u ∧ Act.acq l ∈ u.rest := by
  induction is generalizing ts t with
  | nil => cases hr; exact ⟨t, ht, hw⟩
  | cons j is ih =>
    simp only [Locks.run] at hr
    cases hs : Locks.step ts j with
    | none => simp [hs] at hr
    | some vs =>
      rw [hs] at hr
      obtain ⟨hv, -⟩ := h.step hs
      have hbl := h.blocked hl
      obtain ⟨v, v', hvj, hst, rfl⟩ := step_cases hs
      by_cases e : j = i
      · subst e
        rw [ht] at hvj; cases hvj
        have hlt : j < ts.length := (List.getElem?_eq_some_iff.mp ht).1
        refine ih hv hr (List.getElem?_set_self hlt) ?_
        unfold stepThread at hst
        split at hst
        · cases hst
        · rename_i k r he
          split at hst
          · cases hst
          · rename_i hk
            cases hst
            rw [he] at hw
            rcases List.mem_cons.mp hw with hw | hw
            · cases hw; exact absurd hbl hk
            · exact hw
        · rename_i k r he
          cases hst
          rw [he] at hw
          rcases List.mem_cons.mp hw with hw | hw
          · cases hw
          · exact hw
      · exact ih hv hr (by rw [List.getElem?_set_ne e]; exact ht) hw

theorem none_held (cs : List Call) (l : Lock) : ((begin cs).any fun u => u.held.contains l) = false := by
  induction cs with
  | nil => rfl
  | cons c cs ih => simp [begin]

theorem step0 {h h' l r r'} {cs : List Call} (hl : l ∉ h) (hl' : l ∉ h') :
    step (⟨h, .acq l :: r⟩ :: ⟨h', r'⟩ :: begin cs) 0 = some (⟨l :: h, r⟩ :: ⟨h', r'⟩ :: begin cs) := by
  simp only [step, List.getElem?_cons_zero, stepThread, List.any_cons, none_held]
  simp [hl, hl']

theorem step0' {h h' l r r'} {cs : List Call} :
    step (⟨h, .rel l :: r⟩ :: ⟨h', r'⟩ :: begin cs) 0 = some (⟨h.erase l, r⟩ :: ⟨h', r'⟩ :: begin cs) := by
  simp [step, stepThread]

theorem step1 {h h' l r r'} {cs : List Call} (hl : l ∉ h) (hl' : l ∉ h') :
    step (⟨h, r⟩ :: ⟨h', .acq l :: r'⟩ :: begin cs) 1 = some (⟨h, r⟩ :: ⟨l :: h', r'⟩ :: begin cs) := by
  simp only [step, List.getElem?_cons_succ, List.getElem?_cons_zero, stepThread, List.any_cons, none_held]
  simp [hl, hl']

theorem sweep_first {ks : List Kind} (h : Kind.dynamic ∈ ks) : ∃ r, ks.flatMap Kind.stillValid = .acq .config :: r := by
  induction ks with
  | nil => cases h
  | cons k ks ih =>
    cases k with
    | dynamic => exact ⟨_, rfl⟩
    | static =>
      obtain ⟨r, hr⟩ := ih (by simpa using h)
      exact ⟨r, by rw [List.flatMap_cons, hr]; rfl⟩

theorem reach_stuck {ks ps} (cs : List Call) (h : Kind.dynamic ∈ ks) :
    ∃ ts, run (begin (.indexPage :: .janitor ks ps :: cs)) (List.replicate 11 0 ++ [1]) = some ts ∧ Stuck ts ∧
      ∀ i : Nat, ts[i + 2]? = (begin cs)[i]? := by
  obtain ⟨r, hr⟩ := sweep_first h
  refine ⟨⟨[.config], brief .peers ++ inside .core (brief .store) ++ [.rel .config]⟩ ::
    ⟨[.peers], .acq .config :: (r ++ [.rel .peers] ++ pieces ps)⟩ :: begin cs, ?_, ?_, ?_⟩
  · show run (⟨[], Call.indexPage.acts⟩ :: ⟨[], (Call.janitor ks ps).acts⟩ :: begin cs) _ = _
    simp only [Call.acts, hr, briefs, brief, inside, List.flatMap_cons, List.flatMap_nil, List.replicate_succ,
      List.replicate_zero, List.cons_append, List.nil_append, List.append_nil, run]
    simp [step0, step0', step1, List.erase_cons_head]
  · exact ⟨⟨_, _, rfl, by simp, rfl⟩, ⟨_, _, rfl, by simp, rfl⟩⟩
  · intro i; rfl

end Dtn.Locks
