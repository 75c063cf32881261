import Verif.Spec.External
import Verif.Lemmas.AList
import Mathlib.Data.List.Induction
/-! Invariants of `routing/erouting/processing.rs`. -/

namespace Dtn.Routing.External
open Spec

/-! ### Printing -/

theorem constraintName_inj {a b : Constraint} {x y : List Char}
    (hx : x = [] ∨ ∃ z, x = ',' :: z) (hy : y = [] ∨ ∃ z, y = ',' :: z)
    (h : constraintName a ++ x = constraintName b ++ y) : a = b ∧ x = y := by
  rcases hx with rfl | ⟨_, rfl⟩ <;> rcases hy with rfl | ⟨_, rfl⟩ <;>
  cases a <;> cases b <;> simp [constraintName] at h <;> simp_all

theorem printConstraints_cons (c : Constraint) (cs : List Constraint) :
    ∃ x, printConstraints (c :: cs) = constraintName c ++ x ∧
      ((cs = [] ∧ x = []) ∨ (cs ≠ [] ∧ x = ',' :: ' ' :: printConstraints cs)) := by
  cases cs with
  | nil => exact ⟨[], by simp [printConstraints], .inl ⟨rfl, rfl⟩⟩
  | cons d ds => exact ⟨',' :: ' ' :: printConstraints (d :: ds), by simp [printConstraints], .inr ⟨by simp, rfl⟩⟩

theorem constraintName_ne_nil (c : Constraint) : constraintName c ≠ [] := by cases c <;> simp [constraintName]

theorem printConstraints_inj : ∀ {l m : List Constraint}, printConstraints l = printConstraints m → l = m
  | [], [], _ => rfl
  | [], c :: cs, h => by
    obtain ⟨x, hx, -⟩ := printConstraints_cons c cs
    rw [hx] at h
    have := constraintName_ne_nil c
    simp [printConstraints] at h
    exact absurd h.1.symm this.symm
  | c :: cs, [], h => by
    obtain ⟨x, hx, -⟩ := printConstraints_cons c cs
    rw [hx] at h
    have := constraintName_ne_nil c
    simp [printConstraints] at h
    exact absurd h.1 this
  | c :: cs, d :: ds, h => by
    obtain ⟨x, hx, hx'⟩ := printConstraints_cons c cs
    obtain ⟨y, hy, hy'⟩ := printConstraints_cons d ds
    rw [hx, hy] at h
    obtain ⟨rfl, rfl⟩ := constraintName_inj
      (by rcases hx' with ⟨_, h⟩ | ⟨_, h⟩ <;> simp [h]) (by rcases hy' with ⟨_, h⟩ | ⟨_, h⟩ <;> simp [h]) h
    rcases hx' with ⟨rfl, rfl⟩ | ⟨h1, h2⟩
    · rcases hy' with ⟨rfl, _⟩ | ⟨_, h⟩
      · rfl
      · simp at h
    · rcases hy' with ⟨_, h⟩ | ⟨_, h⟩
      · rw [h] at h2; simp at h2
      · rw [h2] at h
        simp only [List.cons.injEq, true_and] at h
        rw [printConstraints_inj h]

theorem not_brace_name (c : Constraint) : '{' ∉ constraintName c := by cases c <;> decide

theorem not_brace (l : List Constraint) : '{' ∉ printConstraints l := by
  induction l with
  | nil => simp [printConstraints]
  | cons c cs ih =>
    obtain ⟨x, hx, hx'⟩ := printConstraints_cons c cs
    rw [hx]
    rcases hx' with ⟨_, rfl⟩ | ⟨_, rfl⟩ <;> simp [not_brace_name, ih]

theorem split_last {a b : List Char} {c : Char} {x y : List Char} (hx : c ∉ x) (hy : c ∉ y)
    (h : a ++ c :: x = b ++ c :: y) : a = b ∧ x = y := by
  rcases List.append_eq_append_iff.mp h with ⟨w, hw, hw'⟩ | ⟨w, hw, hw'⟩
  · cases w with
    | nil => simp_all
    | cons d ds =>
      simp at hw'
      exact absurd (by rw [hw'.2]; simp) hx
  · cases w with
    | nil => simp_all
    | cons d ds =>
      simp at hw'
      exact absurd (by rw [hw'.2]; simp) hy

/-- Packs that print alike have the same id and the same constraints in the same order. -/
theorem print_inj {g h : Held} (e : g.print = h.print) : g.pack.id = h.pack.id ∧ g.order = h.order := by
  have e' := congrArg String.toList e
  simp only [Held.print, String.toList_ofList] at e'
  have e'' : (g.pack.id.toList ++ [' ']) ++ '{' :: (printConstraints g.order ++ ['}']) =
      (h.pack.id.toList ++ [' ']) ++ '{' :: (printConstraints h.order ++ ['}']) := by simpa using e'
  obtain ⟨h1, h2⟩ := split_last (by simp [not_brace]) (by simp [not_brace]) e''
  exact ⟨String.toList_inj.mp (by simpa using h1), printConstraints_inj (by simpa using h2)⟩

theorem print_congr {g h : Held} (h1 : g.pack.id = h.pack.id) (h2 : g.order = h.order) : g.print = h.print := by
  simp [Held.print, h1, h2]

theorem Held.valid_iff (h : Held) : h.valid = true ↔ h.order.Nodup ∧ ∀ c, c ∈ h.order ↔ h.pack.has c = true := by
  unfold Held.valid
  simp only [Bool.and_eq_true, decide_eq_true_eq, List.all_eq_true, beq_iff_eq]
  constructor
  · rintro ⟨h1, h2⟩
    refine ⟨h1, fun c => ?_⟩
    have := h2 c (by cases c <;> simp [allConstraints])
    rw [← this]; simp
  · rintro ⟨h1, h2⟩
    refine ⟨h1, fun c _ => ?_⟩
    have := h2 c
    cases hc : h.pack.has c <;> simp_all

theorem names_of_print {r : Response} {bp : Held} (hr : r.bp.valid = true) (hb : bp.valid = true)
    (e : r.bp.print = bp.print) : Names r bp.pack := by
  obtain ⟨h1, h2⟩ := print_inj e
  rw [Held.valid_iff] at hr hb
  refine ⟨h1, fun c => ?_⟩
  have a := hr.2 c
  have b := hb.2 c
  rw [h2] at a
  have := a.symm.trans b
  cases h3 : r.bp.pack.has c <;> cases h4 : bp.pack.has c <;> simp_all

theorem print_of_alike {g h : Held} (hg : g.valid = true) (hh : h.valid = true) (h1 : OneConstraint h) (a : Alike g h) :
    g.print = h.print := by
  rw [Held.valid_iff] at hg hh
  refine print_congr a.1 ?_
  have small : ∀ (l : List Constraint) (p : Constraint → Bool), l.Nodup → (∀ c, c ∈ l ↔ p c = true) →
      (∀ c d, p c = true → p d = true → c = d) → l = [] ∨ ∃ c, l = [c] := by
    intro l p hn hm ho
    match l with
    | [] => exact .inl rfl
    | [c] => exact .inr ⟨c, rfl⟩
    | c :: d :: l =>
      have : c = d := ho c d ((hm c).mp (by simp)) ((hm d).mp (by simp))
      subst this
      simp at hn
  have same : ∀ c, c ∈ g.order ↔ c ∈ h.order := fun c => by rw [hg.2, hh.2, a.2]
  rcases small h.order h.pack.has hh.1 hh.2 h1 with e | ⟨c, e⟩
  · rw [e] at same ⊢
    exact List.eq_nil_iff_forall_not_mem.mpr fun c hc => by simpa using (same c).mp hc
  · rw [e] at same ⊢
    rcases small g.order g.pack.has hg.1 hg.2 (fun c d hc hd => h1 c d (by rw [← a.2]; exact hc) (by rw [← a.2]; exact hd))
      with e' | ⟨d, e'⟩
    · have := (same c).mpr (by simp)
      rw [e'] at this
      cases this
    · have := (same c).mpr (by simp)
      rw [e'] at this ⊢
      simp at this
      rw [this]

theorem says_unpack (running : List Cla) (r : Response) : Says running r (unpack running r) := by
  refine ⟨?_, rfl⟩
  unfold unpack
  simp only
  induction r.clas with
  | nil => exact .nil
  | cons h hs ih =>
    cases hf : running.find? fun c => h.agent = c.name with
    | none =>
      rw [List.filterMap_cons_none (by rw [hf]; rfl)]
      refine .unknown ?_ ih
      intro c hc e
      have := List.find?_eq_none.mp hf c hc
      simp [e] at this
    | some c =>
      rw [List.filterMap_cons_some (by rw [hf]; rfl)]
      have h1 := List.mem_of_find?_eq_some hf
      have h2 := List.find?_some hf
      simp at h2
      have := HopsMean.known (h := h) c h1 h2.symm ih
      rw [h2] at this
      exact this

/-! ### Requests -/

theorem received_append (xs ys : List Ev) : received (xs ++ ys) = received xs ++ received ys := by
  induction xs with
  | nil => rfl
  | cons x xs ih => cases x <;> simp [received, ih]

theorem run_append (s : State) (xs ys : List Ev) : run s (xs ++ ys) = (run s xs).bind fun t => run t ys := by
  induction xs generalizing s with
  | nil => rfl
  | cons x xs ih =>
    simp only [List.cons_append, run]
    cases step s x with
    | none => rfl
    | some t => simp [ih]

/-- Where the response with number `k` came from. -/
def Origin (evs : List Ev) (i k : Nat) (bp : Held) : Prop :=
  ∃ evs1 c r evs2, evs = evs1 ++ .response c r :: evs2 ∧ (received evs1).length = k ∧
    (∃ s1, run {} evs1 = some s1 ∧ i < s1.reqs.length) ∧ r.bp.print = bp.print ∧ r.bp.valid = true

theorem Origin.mono {evs i k bp} (h : Origin evs i k bp) (e : Ev) : Origin (evs ++ [e]) i k bp := by
  obtain ⟨a, c, r, b, rfl, h1, h2, h3⟩ := h
  exact ⟨a, c, r, b ++ [e], by simp, h1, h2, h3⟩

/-- What holds of every request. -/
structure ReqOk (evs : List Ev) (n i : Nat) (q : Req) : Prop where
  valid : q.bp.valid = true
  origin : ∀ k, q.slot = .value k → k < n ∧ Origin evs i k q.bp
  got : ∀ k, q.pc = .got k ∨ q.pc = .unregistered k → q.slot = .value k
  early : q.pc = .start ∨ q.pc = .checked → q.slot = .empty
  late : q.pc = .lost ∨ q.pc = .reported → q.slot ≠ .empty

/-- What holds of every answer. -/
def AnsOk (evs : List Ev) (inbox : List Response) (i : Nat) (q : Req) (a : Answer) : Prop :=
  q.pc = .done ∧ (a = nothing ∨ ∃ k r running, q.slot = .value k ∧ inbox[k]? = some r ∧ r.bp.print = q.bp.print ∧
    a = unpack running r ∧ Ev.run i running ∈ evs)

/-- What holds after the events `evs`. -/
structure Inv (evs : List Ev) (s : State) : Prop where
  inbox : s.inbox = received evs
  req : ∀ i q, s.reqs[i]? = some q → ReqOk evs s.inbox.length i q
  inj : ∀ (i j : Nat) (p q : Req) (k : Nat), s.reqs[i]? = some p → s.reqs[j]? = some q → p.slot = .value k → q.slot = .value k → i = j
  map : ∀ key j, AList.get? s.responses key = some j → ∃ q, s.reqs[j]? = some q ∧ q.bp.print = key ∧ q.pc ≠ .start ∧
    q.pc ≠ .checked ∧ ∀ k, q.slot ≠ .value k
  held : ∀ i q, s.reqs[i]? = some q → q.slot = .empty → q.pc = .registered ∨ q.pc = .waiting →
    AList.get? s.responses q.bp.print = some i
  ans : ∀ i a, (i, a) ∈ s.answers → ∃ q, s.reqs[i]? = some q ∧ AnsOk evs s.inbox i q a
  once : (s.answers.map Prod.fst).Nodup

theorem getElem?_mod {l : List Req} {j i : Nat} {f : Req → Req} {q : Req} (h : (l.modify j f)[i]? = some q) :
    ∃ p, l[i]? = some p ∧ ((i = j ∧ q = f p) ∨ (i ≠ j ∧ q = p)) := by
  rw [List.getElem?_modify] at h
  cases hp : l[i]? with
  | none => rw [hp] at h; simp at h
  | some p =>
    rw [hp] at h
    refine ⟨p, rfl, ?_⟩
    by_cases e : j = i
    · left; simp [e] at h; exact ⟨e.symm, h.symm⟩
    · right; simp [e] at h; exact ⟨fun x => e x.symm, h.symm⟩

theorem mod_getElem? {l : List Req} {j i : Nat} {f : Req → Req} {p : Req} (h : l[i]? = some p) :
    (l.modify j f)[i]? = some (if i = j then f p else p) := by
  rw [List.getElem?_modify, h]
  by_cases e : j = i
  · simp [e]
  · have : ¬ i = j := fun x => e x.symm
    simp [e, this]

theorem ReqOk.mono {evs n i q} (h : ReqOk evs n i q) (e : Ev) : ReqOk (evs ++ [e]) n i q :=
  ⟨h.valid, fun k hk => ⟨(h.origin k hk).1, (h.origin k hk).2.mono e⟩, h.got, h.early, h.late⟩

theorem AnsOk.mono {evs inbox i q a} (h : AnsOk evs inbox i q a) (e : Ev) : AnsOk (evs ++ [e]) inbox i q a := by
  refine ⟨h.1, ?_⟩
  rcases h.2 with h | ⟨k, r, running, h1, h2, h3, h4, h5⟩
  · exact .inl h
  · exact .inr ⟨k, r, running, h1, h2, h3, h4, by simp [h5]⟩

/-- An event that is no response only extends the history. -/
theorem Inv.mono {evs s} (I : Inv evs s) (e : Ev) (he : received [e] = []) : Inv (evs ++ [e]) s where
  inbox := by rw [received_append, he, List.append_nil]; exact I.inbox
  req := fun i q h => (I.req i q h).mono e
  inj := I.inj
  map := I.map
  held := I.held
  ans := fun i a h => let ⟨q, h1, h2⟩ := I.ans i a h; ⟨q, h1, h2.mono e⟩
  once := I.once

/-- Only these parts of the state matter. -/
theorem Inv.same {evs s t} (I : Inv evs s) (h1 : t.reqs = s.reqs) (h2 : t.responses = s.responses)
    (h3 : t.inbox = s.inbox) (h4 : t.answers = s.answers) : Inv evs t where
  inbox := by rw [h3]; exact I.inbox
  req := by rw [h1, h3]; exact I.req
  inj := by rw [h1]; exact I.inj
  map := by rw [h1, h2]; exact I.map
  held := by rw [h1, h2]; exact I.held
  ans := by rw [h1, h3, h4]; exact I.ans
  once := by rw [h4]; exact I.once

theorem Inv.send {evs s} (I : Inv evs s) (p : Packet) : Inv evs (s.send p) := by
  unfold State.send
  split
  · exact I
  · exact I.same rfl rfl rfl rfl

theorem hangUp_bp (r : Req) : r.hangUp.bp = r.bp := by unfold Req.hangUp; split <;> rfl
theorem hangUp_pc (r : Req) : r.hangUp.pc = r.pc := by unfold Req.hangUp; split <;> rfl
theorem hangUp_slot (r : Req) : r.hangUp.slot ≠ .empty ∧ (r.slot ≠ .empty → r.hangUp.slot = r.slot) ∧
    ∀ k, r.hangUp.slot = .value k ↔ r.slot = .value k := by
  unfold Req.hangUp
  split
  · rename_i h; simp [h]
  · rename_i h; simp [h]

theorem Inv.unregister {evs s} (I : Inv evs s) (key : String) : Inv evs (s.unregister key) := by
  unfold State.unregister
  cases hm : AList.get? s.responses key with
  | none => exact I
  | some j =>
    obtain ⟨qj, hj, hkey, hst, hch, hval⟩ := I.map key j hm
    dsimp only
    constructor
    · exact I.inbox
    · intro i q hq
      obtain ⟨p, hp, hpq⟩ := getElem?_mod hq
      rcases hpq with ⟨rfl, rfl⟩ | ⟨_, rfl⟩
      · have R := I.req i p hp
        obtain rfl : qj = p := by rw [hj] at hp; exact Option.some.inj hp
        refine ⟨by rw [hangUp_bp]; exact R.valid, fun k hk => ?_, fun k hk => ?_, fun h => ?_, fun _ => (hangUp_slot _).1⟩
        · rw [hangUp_bp]; exact R.origin k (((hangUp_slot _).2.2 k).mp hk)
        · rw [hangUp_pc] at hk; exact ((hangUp_slot _).2.2 k).mpr (R.got k hk)
        · rw [hangUp_pc] at h; rcases h with h | h
          · exact absurd h hst
          · exact absurd h hch
      · exact I.req i _ hp
    · intro a b p q k hp hq h1 h2
      obtain ⟨p', hp', e1⟩ := getElem?_mod hp
      obtain ⟨q', hq', e2⟩ := getElem?_mod hq
      have h1' : p'.slot = .value k := by
        rcases e1 with ⟨_, rfl⟩ | ⟨_, rfl⟩
        · exact ((hangUp_slot _).2.2 k).mp h1
        · exact h1
      have h2' : q'.slot = .value k := by
        rcases e2 with ⟨_, rfl⟩ | ⟨_, rfl⟩
        · exact ((hangUp_slot _).2.2 k).mp h2
        · exact h2
      exact I.inj a b p' q' k hp' hq' h1' h2'
    · intro key' i h
      by_cases e : key' = key
      · subst e; simp [AList.get?_erase_self] at h
      · rw [AList.get?_erase_of_ne _ e] at h
        obtain ⟨q, h1, h2, h3, h4, h5⟩ := I.map key' i h
        refine ⟨_, mod_getElem? h1, ?_⟩
        split
        · rw [hangUp_bp, hangUp_pc]
          exact ⟨h2, h3, h4, fun k hk => h5 k (((hangUp_slot _).2.2 k).mp hk)⟩
        · exact ⟨h2, h3, h4, h5⟩
    · intro i q hq hs hpc
      obtain ⟨p, hp, hpq⟩ := getElem?_mod hq
      rcases hpq with ⟨rfl, rfl⟩ | ⟨hne, rfl⟩
      · exact absurd hs (hangUp_slot _).1
      · have := I.held i _ hp hs hpc
        show AList.get? (AList.erase s.responses key) _ = some i
        by_cases e : q.bp.print = key
        · rw [e, hm] at this
          exact absurd (Option.some.inj this).symm hne
        · rw [AList.get?_erase_of_ne _ e]; exact this
    · intro i a h
      obtain ⟨q, h1, h2, h3⟩ := I.ans i a h
      refine ⟨_, mod_getElem? h1, ?_⟩
      split
      · refine ⟨by rw [hangUp_pc]; exact h2, ?_⟩
        rcases h3 with h3 | ⟨k, r, running, g1, g2⟩
        · exact .inl h3
        · exact .inr ⟨k, r, running, ((hangUp_slot _).2.2 k).mpr g1, by rw [hangUp_bp]; exact g2⟩
      · exact ⟨h2, h3⟩
    · exact I.once

theorem unregister_other {evs s} (I : Inv evs s) (key : String) {i : Nat} {q : Req} (h : s.reqs[i]? = some q)
    (hp : q.pc = .start ∨ q.pc = .checked ∨ q.slot ≠ .empty) : (s.unregister key).reqs[i]? = some q := by
  unfold State.unregister
  cases hm : AList.get? s.responses key with
  | none => exact h
  | some j =>
    obtain ⟨qj, hj, hkey, hst, hch, hval⟩ := I.map key j hm
    simp only
    rw [mod_getElem? h]
    split
    · rename_i e
      subst e
      rw [h] at hj
      obtain rfl := Option.some.inj hj
      rcases hp with hp | hp | hp
      · exact absurd hp hst
      · exact absurd hp hch
      · unfold Req.hangUp; rw [if_neg hp]
    · rfl

theorem unregister_get? (s : State) (key : String) : AList.get? (s.unregister key).responses key = none := by
  unfold State.unregister
  cases hm : AList.get? s.responses key with
  | none => exact hm
  | some j => exact AList.get?_erase_self _ _

/-- Moving a request that is not done. -/
theorem Inv.goto {evs s} (I : Inv evs s) {i : Nat} {q : Req} (hq : s.reqs[i]? = some q) (hd : q.pc ≠ .done) (pc : PC)
    (R : ReqOk evs s.inbox.length i { q with pc })
    (hm : pc = .start ∨ pc = .checked → ∀ key, AList.get? s.responses key ≠ some i)
    (hh : q.slot = .empty → pc = .registered ∨ pc = .waiting → AList.get? s.responses q.bp.print = some i) :
    Inv evs (s.goto i pc) := by
  unfold State.goto
  constructor
  · exact I.inbox
  · intro j p hp
    obtain ⟨p', hp', e⟩ := getElem?_mod hp
    rcases e with ⟨rfl, rfl⟩ | ⟨_, rfl⟩
    · obtain rfl : q = p' := by rw [hq] at hp'; exact Option.some.inj hp'
      exact R
    · exact I.req j _ hp'
  · intro a b p r k hp hr h1 h2
    obtain ⟨p', hp', e1⟩ := getElem?_mod hp
    obtain ⟨r', hr', e2⟩ := getElem?_mod hr
    exact I.inj a b p' r' k hp' hr' (by rcases e1 with ⟨_, rfl⟩ | ⟨_, rfl⟩ <;> exact h1)
      (by rcases e2 with ⟨_, rfl⟩ | ⟨_, rfl⟩ <;> exact h2)
  · intro key j h
    obtain ⟨p, h1, h2, h3, h4, h5⟩ := I.map key j h
    refine ⟨_, mod_getElem? h1, ?_⟩
    split
    · rename_i e
      subst e
      exact ⟨h2, fun e => hm (.inl e) key h, fun e => hm (.inr e) key h, h5⟩
    · exact ⟨h2, h3, h4, h5⟩
  · intro j p hp hs hpc
    obtain ⟨p', hp', e⟩ := getElem?_mod hp
    rcases e with ⟨rfl, rfl⟩ | ⟨_, rfl⟩
    · obtain rfl : q = p' := by rw [hq] at hp'; exact Option.some.inj hp'
      exact hh hs hpc
    · exact I.held j _ hp' hs hpc
  · intro j a h
    obtain ⟨p, h1, h2⟩ := I.ans j a h
    refine ⟨_, mod_getElem? h1, ?_⟩
    split
    · rename_i e
      subst e
      rw [hq] at h1
      obtain rfl := Option.some.inj h1
      exact absurd h2.1 hd
    · exact h2
  · exact I.once

theorem Inv.answer {evs s} (I : Inv evs s) {i : Nat} {q : Req} (hq : s.reqs[i]? = some q) (hd : q.pc ≠ .done) (a : Answer)
    (A : AnsOk evs s.inbox i { q with pc := .done } a) : Inv evs (s.answer i a) := by
  have G : Inv evs (s.goto i .done) := I.goto hq hd .done
    ⟨(I.req i q hq).valid, (I.req i q hq).origin, by simp, by simp, by simp⟩ (by simp) (by simp)
  have hi : ∀ b, (i, b) ∉ s.answers := by
    intro b hb
    obtain ⟨p, h1, h2⟩ := I.ans i b hb
    rw [hq] at h1
    obtain rfl := Option.some.inj h1
    exact hd h2.1
  unfold State.answer
  refine ⟨G.inbox, G.req, G.inj, G.map, G.held, ?_, ?_⟩
  · intro j b h
    simp only [List.mem_append, List.mem_singleton, Prod.mk.injEq] at h
    rcases h with h | ⟨rfl, rfl⟩
    · exact G.ans j b h
    · refine ⟨_, mod_getElem? hq, ?_⟩
      rw [if_pos rfl]
      exact A
  · simp only [List.map_append, List.map_cons, List.map_nil]
    rw [List.nodup_append]
    refine ⟨I.once, by simp, ?_⟩
    intro x hx y hy e
    simp at hy
    subst hy
    subst e
    obtain ⟨⟨x, b⟩, hb, rfl⟩ := List.mem_map.mp hx
    exact hi b hb

theorem unregister_inbox (s : State) (key : String) : (s.unregister key).inbox = s.inbox := by
  unfold State.unregister; split <;> rfl

theorem send_reqs (s : State) (p : Packet) : (s.send p).reqs = s.reqs := by unfold State.send; split <;> rfl
theorem send_responses (s : State) (p : Packet) : (s.send p).responses = s.responses := by
  unfold State.send; split <;> rfl
theorem send_inbox (s : State) (p : Packet) : (s.send p).inbox = s.inbox := by unfold State.send; split <;> rfl

theorem Inv.register {evs s} (I : Inv evs s) {i : Nat} {q : Req} (hq : s.reqs[i]? = some q) (hc : q.pc = .checked) :
    Inv evs ((s.register q.bp.print i).goto i .registered) := by
  have U := I.unregister q.bp.print
  have hq' := unregister_other I q.bp.print hq (.inr (.inl hc))
  have hn := unregister_get? s q.bp.print
  have R := U.req i q hq'
  unfold State.register State.goto
  generalize s.unregister q.bp.print = t at *
  dsimp only
  constructor
  · exact U.inbox
  · intro j p hp
    obtain ⟨p', hp', e⟩ := getElem?_mod hp
    rcases e with ⟨rfl, rfl⟩ | ⟨_, rfl⟩
    · obtain rfl : q = p' := by rw [hq'] at hp'; exact Option.some.inj hp'
      exact ⟨R.valid, R.origin, by simp, by simp, by simp⟩
    · exact U.req j _ hp'
  · intro a b p r k hp hr h1 h2
    obtain ⟨p', hp', e1⟩ := getElem?_mod hp
    obtain ⟨r', hr', e2⟩ := getElem?_mod hr
    exact U.inj a b p' r' k hp' hr' (by rcases e1 with ⟨_, rfl⟩ | ⟨_, rfl⟩ <;> exact h1)
      (by rcases e2 with ⟨_, rfl⟩ | ⟨_, rfl⟩ <;> exact h2)
  · intro key j h
    rw [AList.get?_insert] at h
    split at h
    · rename_i e
      subst e
      obtain rfl := Option.some.inj h
      refine ⟨_, mod_getElem? hq', ?_⟩
      rw [if_pos rfl]
      refine ⟨rfl, by simp, by simp, fun k hk => ?_⟩
      have := R.early (.inr hc)
      simp only at hk
      rw [this] at hk
      cases hk
    · obtain ⟨p, h1, h2, h3, h4, h5⟩ := U.map key j h
      refine ⟨_, mod_getElem? h1, ?_⟩
      split
      · exact ⟨h2, by simp, by simp, h5⟩
      · exact ⟨h2, h3, h4, h5⟩
  · intro j p hp hs hpc
    obtain ⟨p', hp', e⟩ := getElem?_mod hp
    rcases e with ⟨rfl, rfl⟩ | ⟨hne, rfl⟩
    · obtain rfl : q = p' := by rw [hq'] at hp'; exact Option.some.inj hp'
      simp
    · have := U.held j _ hp' hs hpc
      rw [AList.get?_insert]
      split
      · rename_i e
        rw [e, hn] at this
        cases this
      · exact this
  · intro j a h
    obtain ⟨p, h1, h2⟩ := U.ans j a h
    refine ⟨_, mod_getElem? h1, ?_⟩
    split
    · rename_i e
      subst e
      rw [hq'] at h1
      obtain rfl := Option.some.inj h1
      rw [h2.1] at hc
      cases hc
    · exact h2
  · exact U.once

theorem Inv.runReq {evs s i running t} (I : Inv evs s) (h : s.runReq i running = some t) :
    Inv (evs ++ [.run i running]) t := by
  replace I := I.mono (.run i running) rfl
  unfold State.runReq at h
  cases hq : s.reqs[i]? with
  | none => rw [hq] at h; cases h
  | some q =>
    rw [hq] at h
    simp only at h
    have R := I.req i q hq
    have hni : q.pc = .start ∨ q.pc = .checked → ∀ key, AList.get? s.responses key ≠ some i := by
      intro hp key hk
      obtain ⟨p, h1, _, h2, h3, _⟩ := I.map key i hk
      rw [hq] at h1
      obtain rfl := Option.some.inj h1
      rcases hp with hp | hp
      · exact h2 hp
      · exact h3 hp
    cases hpc : q.pc with
    | start =>
      rw [hpc] at h
      simp only at h
      split at h
      · obtain rfl := Option.some.inj h
        exact I.answer hq (by simp [hpc]) _ ⟨rfl, .inl rfl⟩
      · obtain rfl := Option.some.inj h
        exact I.goto hq (by simp [hpc]) _ ⟨R.valid, R.origin, by simp, fun _ => R.early (.inl hpc), by simp⟩
          (fun _ => hni (.inl hpc)) (by simp)
    | checked =>
      rw [hpc] at h
      obtain rfl := Option.some.inj h
      exact I.register hq hpc
    | registered =>
      rw [hpc] at h
      obtain rfl := Option.some.inj h
      refine (I.send _).goto (by rw [send_reqs]; exact hq) (by simp [hpc]) _ ?_ (by simp) ?_
      · rw [send_inbox]; exact ⟨R.valid, R.origin, by simp, by simp, by simp⟩
      · intro hs _
        rw [send_responses]
        exact I.held i q hq hs (.inl hpc)
    | waiting =>
      rw [hpc] at h
      simp only at h
      split at h
      · cases h
      · rename_i k hs
        obtain rfl := Option.some.inj h
        exact I.goto hq (by simp [hpc]) _ ⟨R.valid, R.origin, by simp; exact hs, by simp, by simp⟩ (by simp) (by simp)
      · rename_i hs
        obtain rfl := Option.some.inj h
        exact I.goto hq (by simp [hpc]) _ ⟨R.valid, R.origin, by simp, by simp, by simp [hs]⟩ (by simp) (by simp)
    | got k =>
      rw [hpc] at h
      obtain rfl := Option.some.inj h
      have hs := R.got k (.inl hpc)
      refine (I.unregister _).goto (unregister_other I _ hq (.inr (.inr (by simp [hs])))) (by simp [hpc]) _ ?_
        (by simp) (by simp)
      rw [unregister_inbox]
      exact ⟨R.valid, R.origin, by simp; exact hs, by simp, by simp⟩
    | unregistered k =>
      rw [hpc] at h
      have hs := R.got k (.inr hpc)
      simp only at h
      split at h
      · cases h
      · rename_i p hp
        split at h
        · obtain rfl := Option.some.inj h
          exact I.answer hq (by simp [hpc]) _ ⟨rfl, .inl rfl⟩
        · rename_i hpr
          obtain rfl := Option.some.inj h
          exact I.answer hq (by simp [hpc]) _
            ⟨rfl, .inr ⟨k, p, running, hs, hp, not_not.mp hpr, rfl, by simp⟩⟩
    | lost =>
      rw [hpc] at h
      obtain rfl := Option.some.inj h
      refine (I.send _).goto (by rw [send_reqs]; exact hq) (by simp [hpc]) _ ?_ (by simp) (by simp)
      rw [send_inbox]
      exact ⟨R.valid, R.origin, by simp, by simp, fun _ => R.late (.inl hpc)⟩
    | reported =>
      rw [hpc] at h
      obtain rfl := Option.some.inj h
      exact (I.unregister _).answer (unregister_other I _ hq (.inr (.inr (R.late (.inr hpc))))) (by simp [hpc]) _
        ⟨rfl, .inl rfl⟩
    | done => rw [hpc] at h; cases h

theorem Inv.runTimer {evs s i t} (I : Inv evs s) (h : s.runTimer i = some t) : Inv (evs ++ [.timer i]) t := by
  replace I := I.mono (.timer i) rfl
  unfold State.runTimer at h
  cases hq : s.reqs[i]? with
  | none => rw [hq] at h; cases h
  | some q =>
    rw [hq] at h
    simp only at h
    have R := I.req i q hq
    split at h
    · rename_i hpc
      split at h
      · rename_i hs
        obtain rfl := Option.some.inj h
        have hh := I.held i q hq hs (.inr hpc)
        constructor
        · exact I.inbox
        · intro j p hp
          obtain ⟨p', hp', e⟩ := getElem?_mod hp
          rcases e with ⟨rfl, rfl⟩ | ⟨_, rfl⟩
          · obtain rfl : q = p' := by rw [hq] at hp'; exact Option.some.inj hp'
            exact ⟨R.valid, by simp, by simp, by simp, by simp⟩
          · exact I.req j _ hp'
        · intro a b p r k hp hr h1 h2
          obtain ⟨p', hp', e1⟩ := getElem?_mod hp
          obtain ⟨r', hr', e2⟩ := getElem?_mod hr
          exact I.inj a b p' r' k hp' hr' (by rcases e1 with ⟨_, rfl⟩ | ⟨_, rfl⟩ <;> first | exact h1 | cases h1)
            (by rcases e2 with ⟨_, rfl⟩ | ⟨_, rfl⟩ <;> first | exact h2 | cases h2)
        · intro key j h
          obtain ⟨p, h1, h2, h3, h4, h5⟩ := I.map key j h
          refine ⟨_, mod_getElem? h1, ?_⟩
          split
          · exact ⟨h2, by simp, by simp, by simp⟩
          · exact ⟨h2, h3, h4, h5⟩
        · intro j p hp hs hpc
          obtain ⟨p', hp', e⟩ := getElem?_mod hp
          rcases e with ⟨rfl, rfl⟩ | ⟨_, rfl⟩
          · cases hs
          · exact I.held j _ hp' hs hpc
        · intro j a h
          obtain ⟨p, h1, h2⟩ := I.ans j a h
          refine ⟨_, mod_getElem? h1, ?_⟩
          split
          · rename_i e
            subst e
            rw [hq] at h1
            obtain rfl := Option.some.inj h1
            rw [h2.1] at hpc
            cases hpc
          · exact h2
        · exact I.once
      · rename_i k hs
        obtain rfl := Option.some.inj h
        exact I.goto hq (by simp [hpc]) _ ⟨R.valid, R.origin, by simp; exact hs, by simp, by simp⟩ (by simp) (by simp)
      · rename_i hs
        obtain rfl := Option.some.inj h
        exact I.goto hq (by simp [hpc]) _ ⟨R.valid, R.origin, by simp, by simp, by simp [hs]⟩ (by simp) (by simp)
    · cases h

theorem Inv.takeResponse {evs s c r} (I : Inv evs s) (hs : run {} evs = some s) (hr : r.bp.valid = true) :
    Inv (evs ++ [.response c r]) (s.takeResponse r) := by
  have hin : s.inbox ++ [r] = received (evs ++ [.response c r]) := by
    rw [received_append, ← I.inbox]; rfl
  have hreq : ∀ i q, s.reqs[i]? = some q → ReqOk (evs ++ [.response c r]) (s.inbox ++ [r]).length i q := by
    intro i q h
    have R := (I.req i q h).mono (.response c r)
    exact ⟨R.valid, fun k hk => ⟨by have := (R.origin k hk).1; simp; omega, (R.origin k hk).2⟩, R.got, R.early, R.late⟩
  have hans : ∀ i q a, AnsOk evs s.inbox i q a → AnsOk (evs ++ [.response c r]) (s.inbox ++ [r]) i q a := by
    intro i q a h
    refine ⟨h.1, ?_⟩
    rcases h.2 with h | ⟨k, r', running, h1, h2, h3, h4, h5⟩
    · exact .inl h
    · refine .inr ⟨k, r', running, h1, ?_, h3, h4, by simp [h5]⟩
      rw [List.getElem?_append_left (List.getElem?_eq_some_iff.mp h2).1]
      exact h2
  unfold State.takeResponse
  dsimp only
  cases hm : AList.get? s.responses r.bp.print with
  | none =>
    exact ⟨hin, hreq, I.inj, I.map, I.held, fun i a h => let ⟨q, h1, h2⟩ := I.ans i a h; ⟨q, h1, hans i q a h2⟩, I.once⟩
  | some j =>
    obtain ⟨qj, hj, hkey, hst, hch, hval⟩ := I.map _ j hm
    dsimp only
    have fresh : ∀ (i : Nat) (q : Req) (k : Nat), s.reqs[i]? = some q → q.slot = .value k → k < s.inbox.length :=
      fun i q k h1 h2 => ((I.req i q h1).origin k h2).1
    have hnew : ∀ (q : Req) k, (if q.slot = .empty then { q with slot := .value s.inbox.length } else q).slot = .value k →
        (q.slot = .empty ∧ k = s.inbox.length) ∨ q.slot = .value k := by
      intro q k h
      split at h
      · rename_i e; left; simp at h; exact ⟨e, h.symm⟩
      · exact .inr h
    constructor
    · exact hin
    · intro i q hq
      obtain ⟨p, hp, hpq⟩ := getElem?_mod hq
      rcases hpq with ⟨rfl, rfl⟩ | ⟨_, rfl⟩
      · have R := hreq i p hp
        obtain rfl : qj = p := by rw [hj] at hp; exact Option.some.inj hp
        split
        · rename_i e
          refine ⟨R.valid, ?_, ?_, ?_, by simp⟩
          · intro k hk
            simp at hk
            subst hk
            refine ⟨by simp, evs, c, r, [], by simp, by rw [I.inbox], ⟨s, hs, ?_⟩, hkey.symm, hr⟩
            exact (List.getElem?_eq_some_iff.mp hp).1
          · intro k hk
            have := R.got k hk
            rw [e] at this
            cases this
          · intro h
            rcases h with h | h
            · exact absurd h hst
            · exact absurd h hch
        · exact R
      · exact hreq i _ hp
    · intro a b p q k hp hq h1 h2
      obtain ⟨p', hp', e1⟩ := getElem?_mod hp
      obtain ⟨q', hq', e2⟩ := getElem?_mod hq
      have key1 : (a = j ∧ k = s.inbox.length) ∨ p'.slot = .value k := by
        rcases e1 with ⟨e, rfl⟩ | ⟨_, rfl⟩
        · rcases hnew _ _ h1 with h | h
          · exact .inl ⟨e, h.2⟩
          · exact .inr h
        · exact .inr h1
      have key2 : (b = j ∧ k = s.inbox.length) ∨ q'.slot = .value k := by
        rcases e2 with ⟨e, rfl⟩ | ⟨_, rfl⟩
        · rcases hnew _ _ h2 with h | h
          · exact .inl ⟨e, h.2⟩
          · exact .inr h
        · exact .inr h2
      rcases key1 with ⟨k1, k2⟩ | k1
      · rcases key2 with ⟨k3, k4⟩ | k3
        · rw [k1, k3]
        · have := fresh _ _ _ hq' k3
          omega
      · rcases key2 with ⟨k3, k4⟩ | k3
        · have := fresh _ _ _ hp' k1
          omega
        · exact I.inj a b p' q' k hp' hq' k1 k3
    · intro key i h
      by_cases e : key = r.bp.print
      · subst e; simp [AList.get?_erase_self] at h
      · rw [AList.get?_erase_of_ne _ e] at h
        obtain ⟨q, h1, h2, h3, h4, h5⟩ := I.map key i h
        refine ⟨_, mod_getElem? h1, ?_⟩
        by_cases ij : i = j
        · subst ij
          rw [hj] at h1
          obtain rfl := Option.some.inj h1
          exact absurd (h2.symm.trans hkey) e
        · rw [if_neg ij]
          exact ⟨h2, h3, h4, h5⟩
    · intro i q hq hs' hpc
      obtain ⟨p, hp, hpq⟩ := getElem?_mod hq
      rcases hpq with ⟨rfl, rfl⟩ | ⟨hne, rfl⟩
      · split at hs'
        · cases hs'
        · rename_i h; exact absurd hs' h
      · have := I.held i _ hp hs' hpc
        show AList.get? (AList.erase s.responses r.bp.print) _ = some i
        by_cases e : q.bp.print = r.bp.print
        · rw [e, hm] at this
          exact absurd (Option.some.inj this).symm hne
        · rw [AList.get?_erase_of_ne _ e]; exact this
    · intro i a h
      obtain ⟨q, h1, h2⟩ := I.ans i a h
      refine ⟨_, mod_getElem? h1, ?_⟩
      split
      · split
        · rename_i e
          refine ⟨h2.1, ?_⟩
          rcases h2.2 with h3 | ⟨k, r', running, g1, g2⟩
          · exact .inl h3
          · rw [e] at g1; cases g1
        · exact hans i q a h2
      · exact hans i q a h2
    · exact I.once

theorem Inv.step {evs s e t} (I : Inv evs s) (hs : run {} evs = some s) (h : step s e = some t) :
    Inv (evs ++ [e]) t := by
  cases e with
  | ask bp =>
    replace I := I.mono (.ask bp) rfl
    simp only [External.step] at h
    split at h
    · rename_i hv
      split at h
      · obtain rfl := Option.some.inj h
        have old : ∀ (i : Nat) (q : Req), (s.reqs ++ [{ bp := bp }])[i]? = some q → s.reqs[i]? = some q ∨ (i = s.reqs.length ∧ q = { bp }) := by
          intro i q hq
          by_cases hi : i < s.reqs.length
          · rw [List.getElem?_append_left hi] at hq; exact .inl hq
          · rw [List.getElem?_append_right (by omega)] at hq
            have : i - s.reqs.length = 0 := by
              have := (List.getElem?_eq_some_iff.mp hq).1
              simp at this; omega
            rw [this] at hq
            simp at hq
            exact .inr ⟨by omega, hq.symm⟩
        have new : ∀ (i : Nat) (q : Req), s.reqs[i]? = some q → (s.reqs ++ [{ bp := bp }])[i]? = some q := by
          intro i q hq
          rw [List.getElem?_append_left (List.getElem?_eq_some_iff.mp hq).1]
          exact hq
        constructor
        · exact I.inbox
        · intro i q hq
          rcases old i q hq with h | ⟨rfl, rfl⟩
          · exact I.req i q h
          · exact ⟨hv, by simp, by simp, by simp, by simp⟩
        · intro i j p q k hp hq h1 h2
          rcases old i p hp with h | ⟨rfl, rfl⟩
          · rcases old j q hq with h' | ⟨rfl, rfl⟩
            · exact I.inj i j p q k h h' h1 h2
            · cases h2
          · cases h1
        · intro key j h
          obtain ⟨q, h1, h2⟩ := I.map key j h
          exact ⟨q, new j q h1, h2⟩
        · intro i q hq h1 h2
          rcases old i q hq with h | ⟨rfl, rfl⟩
          · exact I.held i q h h1 h2
          · simp at h2
        · intro i a h
          obtain ⟨q, h1, h2⟩ := I.ans i a h
          exact ⟨q, new i q h1, h2⟩
        · exact I.once
      · obtain rfl := Option.some.inj h
        exact I
    · cases h
  | run i running => exact I.runReq h
  | timer i => exact I.runTimer h
  | notify n peer =>
    replace I := I.mono (.notify n peer) rfl
    obtain rfl := Option.some.inj h
    unfold State.runNotify
    split
    · exact I
    · split
      · split
        · exact I.same rfl rfl rfl rfl
        · exact I.send _
      · split
        · exact I.same rfl rfl rfl rfl
        · exact I.send _
      · exact I.send _
  | shutdown =>
    obtain rfl := Option.some.inj h
    exact (I.mono .shutdown rfl).same rfl rfl rfl rfl
  | connect =>
    obtain rfl := Option.some.inj h
    exact (I.mono .connect rfl).same rfl rfl rfl rfl
  | proceed c =>
    replace I := I.mono (.proceed c) rfl
    simp only [External.step, State.proceed] at h
    split at h
    · obtain rfl := Option.some.inj h; exact I.same rfl rfl rfl rfl
    · obtain rfl := Option.some.inj h; exact (I.send _).same rfl rfl rfl rfl
    · obtain rfl := Option.some.inj h; exact (I.send _).same rfl rfl rfl rfl
    · cases h
  | response c r =>
    simp only [External.step] at h
    split at h
    · rename_i hc
      obtain rfl := Option.some.inj h
      exact I.takeResponse hs hc.2
    · cases h
  | serviceAdd c tag service =>
    simp only [External.step] at h
    split at h
    · obtain rfl := Option.some.inj h
      exact (I.mono (.serviceAdd c tag service) rfl).same rfl rfl rfl rfl
    · cases h
  | text c =>
    simp only [External.step] at h
    split at h
    · obtain rfl := Option.some.inj h
      exact I.mono (.text c) rfl
    · cases h
  | binary c =>
    simp only [External.step] at h
    split at h
    · obtain rfl := Option.some.inj h
      exact (I.mono (.binary c) rfl).same rfl rfl rfl rfl
    · cases h
  | close c =>
    simp only [External.step] at h
    split at h
    · obtain rfl := Option.some.inj h
      exact (I.mono (.close c) rfl).same rfl rfl rfl rfl
    · cases h
  | transfer c =>
    simp only [External.step] at h
    split at h
    · cases h
    · split at h
      · cases h
      · obtain rfl := Option.some.inj h
        exact (I.mono (.transfer c) rfl).same rfl rfl rfl rfl

theorem inv_init : Inv [] {} := by
  constructor <;> simp [received, AList.get?]

theorem inv_run (evs : List Ev) : ∀ s, run {} evs = some s → Inv evs s := by
  induction evs using List.reverseRecOn with
  | nil =>
    intro s h
    obtain rfl := Option.some.inj h
    exact inv_init
  | append_singleton evs e ih =>
    intro t h
    rw [run_append] at h
    cases hs : run {} evs with
    | none => rw [hs] at h; cases h
    | some s =>
      rw [hs] at h
      simp only [Option.bind_some, run] at h
      cases hst : step s e with
      | none => rw [hst] at h; cases h
      | some u =>
        rw [hst] at h
        simp only [Option.bind_some, Option.some.injEq] at h
        subst h
        exact (ih s hs).step hs hst

end Dtn.Routing.External
