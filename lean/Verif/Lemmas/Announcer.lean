import Verif.Spec.Announcer
import Verif.Lemmas.Discovery
import Verif.Lemmas.AList
import Mathlib.Data.List.Induction
/-! Lemmas about destinations and announcements. -/

namespace Dtn.Announcer
open Discovery Spec.Announcer

variable {A : Type} [DecidableEq A]

theorem run_append (net : Net A) (pf) (s : St A) (l1 l2 : List (Ev A)) :
    run net pf s (l1 ++ l2) = run net pf (run net pf s l1) l2 := List.foldl_append

/-! ### Sequence numbers -/

theorem mem_insert {K V : Type} [DecidableEq K] {m : AList K V} {k j : K} {v w : V}
    (h : (j, w) ∈ AList.insert m k v) : (j = k ∧ w = v) ∨ (j ≠ k ∧ (j, w) ∈ m) := by
  unfold AList.insert AList.erase at h
  rcases List.mem_cons.mp h with h | h
  · exact .inl ⟨congrArg Prod.fst h, congrArg Prod.snd h⟩
  · rw [List.mem_filter] at h
    exact .inr ⟨by simpa using h.2, h.1⟩

theorem updateBsn_mem {dests : AList String Nat} {d k : String} {n : Nat} (h : (k, n) ∈ updateBsn dests d) :
    (k = d ∧ ∃ m, AList.get? dests d = some m ∧ n = if m = 4294967295 then 0 else m + 1) ∨
    (k, n) ∈ dests ∧ (k ≠ d ∨ AList.get? dests d = none) := by
  unfold updateBsn at h
  split at h
  · next m hm =>
    rcases mem_insert h with ⟨h1, h2⟩ | ⟨h1, h2⟩
    · exact .inl ⟨h1, m, hm, h2⟩
    · exact .inr ⟨h2, .inl h1⟩
  · next hm => exact .inr ⟨h, .inr hm⟩

theorem get?_updateBsn (dests : AList String Nat) (d k : String) :
    AList.get? (updateBsn dests d) k =
      if k = d then (AList.get? dests d).map (fun n => if n = 4294967295 then 0 else n + 1) else AList.get? dests k := by
  unfold updateBsn
  by_cases h : k = d
  · rw [if_pos h]
    cases hm : AList.get? dests d with
    | none => simp [h, hm]
    | some m => simp [h, AList.get?_insert_self]
  · rw [if_neg h]
    cases hm : AList.get? dests d with
    | none => rfl
    | some m => exact AList.get?_insert_of_ne _ _ h

theorem updateBsn_wf {dests : AList String Nat} (h : AList.WF dests) (d : String) : AList.WF (updateBsn dests d) := by
  unfold updateBsn
  split
  · exact h.insert _ _
  · exact h

/-- Entries of a snapshot come from destinations. -/
theorem snapshot_sound {net : Net A} {dests : AList String Nat} {r : AList A Nat} (h : snapshot net dests = some r)
    {a : A} {v : Nat} (hv : AList.get? r a = some v) : ∃ k, (k, v) ∈ dests ∧ net.parse k = some a := by
  have key : ∀ (l : AList String Nat) (acc r : AList A Nat),
      l.foldlM (fun acc kv => (net.parse kv.1).map fun a => AList.insert acc a kv.2) acc = some r →
      AList.get? r a = some v → (∃ k, (k, v) ∈ l ∧ net.parse k = some a) ∨ AList.get? acc a = some v := by
    intro l
    induction l with
    | nil =>
      intro acc r h hv
      simp only [List.foldlM_nil, Option.pure_def, Option.some.injEq] at h
      rw [h]; exact .inr hv
    | cons kv l ih =>
      intro acc r h hv
      obtain ⟨k, n⟩ := kv
      rw [List.foldlM_cons] at h
      cases hp : net.parse k with
      | none => simp [hp] at h
      | some b =>
        simp only [hp, Option.map_some, Option.bind_eq_bind, Option.bind_some] at h
        rcases ih _ _ h hv with ⟨k', hk, hpk⟩ | hacc
        · exact .inl ⟨k', by simp [hk], hpk⟩
        · by_cases hab : a = b
          · rw [hab, AList.get?_insert_self] at hacc
            cases hacc
            exact .inl ⟨k, by simp, by rw [hp, hab]⟩
          · rw [AList.get?_insert_of_ne _ _ hab] at hacc
            exact .inr hacc
  rcases key dests [] r h hv with h | h
  · exact h
  · simp [AList.get?] at h

/-- Every destination is in the snapshot. -/
theorem snapshot_complete {net : Net A} {dests : AList String Nat} {r : AList A Nat} (h : snapshot net dests = some r)
    {k : String} {n : Nat} (hk : (k, n) ∈ dests) {a : A} (hp : net.parse k = some a) :
    ∃ v, AList.get? r a = some v := by
  have key : ∀ (l : AList String Nat) (acc r : AList A Nat),
      l.foldlM (fun acc kv => (net.parse kv.1).map fun a => AList.insert acc a kv.2) acc = some r →
      ((k, n) ∈ l ∨ ∃ v, AList.get? acc a = some v) → ∃ v, AList.get? r a = some v := by
    intro l
    induction l with
    | nil =>
      intro acc r h hv
      simp only [List.foldlM_nil, Option.pure_def, Option.some.injEq] at h
      rw [← h]
      rcases hv with hv | hv
      · simp at hv
      · exact hv
    | cons kv l ih =>
      intro acc r h hv
      obtain ⟨k', n'⟩ := kv
      rw [List.foldlM_cons] at h
      cases hp' : net.parse k' with
      | none => simp [hp'] at h
      | some b =>
        simp only [hp', Option.map_some, Option.bind_eq_bind, Option.bind_some] at h
        refine ih _ _ h ?_
        by_cases hab : a = b
        · exact .inr ⟨n', by rw [hab, AList.get?_insert_self]⟩
        · rcases hv with hv | ⟨v, hv⟩
          · rcases List.mem_cons.mp hv with hv | hv
            · cases hv
              rw [hp] at hp'
              cases hp'
              exact absurd rfl hab
            · exact .inl hv
          · exact .inr ⟨v, by rw [AList.get?_insert_of_ne _ _ hab]; exact hv⟩
  exact key dests [] r h (.inl hk)

/-- The snapshot exists if every destination parses. -/
theorem snapshot_some {net : Net A} {dests : AList String Nat} (h : ∀ k n, (k, n) ∈ dests → ∃ a, net.parse k = some a) :
    ∃ r, snapshot net dests = some r := by
  have key : ∀ (l : AList String Nat), (∀ k n, (k, n) ∈ l → ∃ a, net.parse k = some a) → ∀ acc : AList A Nat,
      ∃ r, l.foldlM (fun acc kv => (net.parse kv.1).map fun a => AList.insert acc a kv.2) acc = some r := by
    intro l
    induction l with
    | nil => intro _ acc; exact ⟨acc, rfl⟩
    | cons kv l ih =>
      intro h acc
      obtain ⟨a, ha⟩ := h kv.1 kv.2 (by simp)
      obtain ⟨r, hr⟩ := ih (fun k n hk => h k n (by simp [hk])) (AList.insert acc a kv.2)
      exact ⟨r, by rw [List.foldlM_cons]; simp [ha, hr]⟩
  exact key dests h []

theorem numbers_append (l1 l2 : List (Sent A)) (a : A) : numbers (l1 ++ l2) a = numbers l1 a ++ numbers l2 a := by
  simp [numbers]

theorem numbers_one (d : Sent A) (a : A) : numbers [d] a = if d.dest = a then [d.pkt.bsn] else [] := by
  by_cases h : d.dest = a <;> simp [numbers, h]

theorem consecutive_succ (c k : Nat) : consecutive c (k + 1) = consecutive c k ++ [(c + k) % 4294967296] := by
  simp [consecutive, List.range_succ]

omit [DecidableEq A] in
@[simp] theorem ann_setAnn (s : St A) (f g : Fam) (n : Ann A) :
    (s.setAnn f n).ann g = if g = f then some n else s.ann g := by
  cases f <;> cases g <;> rfl

omit [DecidableEq A] in
@[simp] theorem setAnn_cfg (s : St A) (f : Fam) (n : Ann A) : (s.setAnn f n).cfg = s.cfg := by cases f <;> rfl
omit [DecidableEq A] in
@[simp] theorem setAnn_sent (s : St A) (f : Fam) (n : Ann A) : (s.setAnn f n).sent = s.sent := by cases f <;> rfl
omit [DecidableEq A] in
@[simp] theorem setAnn_clas (s : St A) (f : Fam) (n : Ann A) : (s.setAnn f n).clas = s.clas := by cases f <;> rfl
omit [DecidableEq A] in
@[simp] theorem setAnn_services (s : St A) (f : Fam) (n : Ann A) : (s.setAnn f n).services = s.services := by
  cases f <;> rfl

/-- How a step changes the state: nothing but layers and services; a round begins or dies; a destination is served. -/
inductive Change (net : Net A) (pf : List Char → Option F32) (s : St A) : St A → Prop
  | same {t : St A} : t.cfg = s.cfg → t.sent = s.sent → (∀ f, t.ann f = s.ann f) → Change net pf s t
  | begin {f n pkt pending} : s.ann f = some n → n.alive = true → n.pending = [] → build pf s = some pkt →
      snapshot net s.cfg.dests = some pending → Change net pf s (s.setAnn f { n with pkt, pending })
  | dies {f n} : s.ann f = some n → n.alive = true → n.pending = [] →
      (build pf s = none ∨ snapshot net s.cfg.dests = none) → Change net pf s (s.setAnn f { n with alive := false })
  | serve {f n a bsn} {t : St A} : s.ann f = some n → AList.get? n.pending a = some bsn →
      t.cfg = { s.cfg with dests := updateBsn s.cfg.dests (net.print a) } →
      (∀ g, t.ann g = if g = f then some { n with pkt := n.pkt.setBsn bsn, pending := AList.erase n.pending a } else s.ann g) →
      t.sent = s.sent ++ [⟨f, a, n.pkt.setBsn bsn⟩] → Change net pf s t

theorem step_change (net : Net A) (pf) (s : St A) (ev : Ev A) : Change net pf s (step net pf s ev) := by
  cases ev with
  | round f =>
    simp only [step]
    cases ha : s.ann f with
    | none => exact .same rfl rfl fun _ => rfl
    | some n =>
      dsimp only
      by_cases hc : (!n.alive || !n.pending.isEmpty) = true
      · rw [if_pos hc]; exact .same rfl rfl fun _ => rfl
      · rw [if_neg hc]
        have h1 : n.alive = true := by
          cases h : n.alive with
          | true => rfl
          | false => simp [h] at hc
        have h2 : n.pending = [] := by
          cases h : n.pending with
          | nil => rfl
          | cons _ _ => simp [h] at hc
        cases hb : build pf s with
        | none => exact .dies ha h1 h2 (.inl hb)
        | some pkt =>
          cases hs : snapshot net s.cfg.dests with
          | none => exact .dies ha h1 h2 (.inr hs)
          | some pending => exact .begin ha h1 h2 hb hs
  | serve f a =>
    simp only [step]
    cases ha : s.ann f with
    | none => exact .same rfl rfl fun _ => rfl
    | some n =>
      dsimp only
      cases hb : AList.get? n.pending a with
      | none => exact .same rfl rfl fun _ => rfl
      | some bsn =>
        refine .serve ha hb ?_ ?_ ?_
        · cases f <;> rfl
        · intro g
          cases f <;> cases g <;> rfl
        · cases f <;> rfl
  | clas l => exact .same rfl rfl fun f => by cases f <;> rfl
  | service tag payload => exact .same rfl rfl fun f => by cases f <;> rfl

/-- The invariant behind consecutive numbers: one task only, canonical destinations, and both the table and the pending
round hold the next number. -/
structure Counts (net : Net A) (a : A) (c : Nat) (s : St A) : Prop where
  one : s.a4 = none ∨ s.a6 = none
  wf : AList.WF s.cfg.dests
  canonical : ∀ k n, (k, n) ∈ s.cfg.dests → ∃ b, net.print b = k
  nums : numbers s.sent a = consecutive c (numbers s.sent a).length
  next : AList.get? s.cfg.dests (net.print a) = some ((c + (numbers s.sent a).length) % 4294967296)
  pending : ∀ f n v, s.ann f = some n → AList.get? n.pending a = some v →
    v = (c + (numbers s.sent a).length) % 4294967296

omit [DecidableEq A] in
theorem one_iff (s : St A) : (s.a4 = none ∨ s.a6 = none) ↔ ∀ f g n m, s.ann f = some n → s.ann g = some m → f = g := by
  constructor
  · rintro h f g n m hf hg
    cases f <;> cases g <;> first | rfl | skip
    · rcases h with h | h
      · simp [St.ann, h] at hf
      · simp [St.ann, h] at hg
    · rcases h with h | h
      · simp [St.ann, h] at hg
      · simp [St.ann, h] at hf
  · intro h
    cases h4 : s.a4 with
    | none => exact .inl rfl
    | some n =>
      cases h6 : s.a6 with
      | none => exact .inr rfl
      | some m => exact absurd (h .v4 .v6 n m h4 h6) (by decide)

omit [DecidableEq A] in
theorem print_inj {net : Net A} (hp : ∀ a, net.parse (net.print a) = some a) {a b : A} (h : net.print a = net.print b) :
    a = b := by
  have := hp a
  rw [h, hp b] at this
  exact (Option.some.inj this).symm

theorem Counts.step {net : Net A} {pf} {a : A} {c : Nat} (hp : ∀ a, net.parse (net.print a) = some a) {s : St A}
    (h : Counts net a c s) (ev : Ev A) : Counts net a c (step net pf s ev) := by
  have hone := (one_iff s).mp h.one
  generalize ht : Announcer.step net pf s ev = t
  have hc := step_change net pf s ev
  rw [ht] at hc
  cases hc with
  | same h1 h2 h3 =>
    refine ⟨(one_iff _).mpr ?_, ?_, ?_, ?_, ?_, ?_⟩
    · intro f g n m hf hg
      rw [h3] at hf hg
      exact hone f g n m hf hg
    · rw [h1]; exact h.wf
    · rw [h1]; exact h.canonical
    · rw [h2]; exact h.nums
    · rw [h1, h2]; exact h.next
    · intro f n v hf
      rw [h3] at hf
      rw [h2]
      exact h.pending f n v hf
  | @begin f n pkt pending ha _ _ hb hs =>
    refine ⟨(one_iff _).mpr ?_, ?_, ?_, ?_, ?_, ?_⟩
    · intro f' g n' m' hf hg
      simp only [ann_setAnn] at hf hg
      split at hf
      · next e =>
        split at hg
        · next e' => rw [e, e']
        · rw [e]; exact hone f g n m' ha hg
      · split at hg
        · next e' => rw [e']; exact hone f' f n' n hf ha
        · exact hone f' g n' m' hf hg
    · simpa using h.wf
    · simpa using h.canonical
    · simpa using h.nums
    · simpa using h.next
    · intro g n' v hg hv
      simp only [ann_setAnn] at hg
      simp only [setAnn_sent]
      split at hg
      · cases hg
        obtain ⟨k, hk, hpk⟩ := snapshot_sound hs hv
        obtain ⟨b, hb⟩ := h.canonical k v hk
        rw [← hb, hp] at hpk
        cases hpk
        have := h.wf.get?_of_mem hk
        rw [← hb, h.next] at this
        exact (Option.some.inj this).symm
      · exact h.pending g n' v hg hv
  | @dies f n ha _ _ _ =>
    refine ⟨(one_iff _).mpr ?_, ?_, ?_, ?_, ?_, ?_⟩
    · intro f' g n' m' hf hg
      simp only [ann_setAnn] at hf hg
      split at hf
      · next e =>
        split at hg
        · next e' => rw [e, e']
        · rw [e]; exact hone f g n m' ha hg
      · split at hg
        · next e' => rw [e']; exact hone f' f n' n hf ha
        · exact hone f' g n' m' hf hg
    · simpa using h.wf
    · simpa using h.canonical
    · simpa using h.nums
    · simpa using h.next
    · intro g n' v hg hv
      simp only [ann_setAnn] at hg
      simp only [setAnn_sent]
      split at hg
      · cases hg
        exact h.pending f n v ha hv
      · exact h.pending g n' v hg hv
  | @serve f n b bsn _ ha hb hcfg hann hsent =>
    have hnum : numbers t.sent a = numbers s.sent a ++ if b = a then [bsn] else [] := by
      rw [hsent, numbers_append, numbers_one]
      rfl
    refine ⟨(one_iff _).mpr ?_, ?_, ?_, ?_, ?_, ?_⟩
    · intro f' g n' m' hf hg
      rw [hann] at hf hg
      split at hf
      · next e =>
        split at hg
        · next e' => rw [e, e']
        · rw [e]; exact hone f g n m' ha hg
      · split at hg
        · next e' => rw [e']; exact hone f' f n' n hf ha
        · exact hone f' g n' m' hf hg
    · rw [hcfg]; exact updateBsn_wf h.wf _
    · rw [hcfg]
      intro k m hk
      rcases updateBsn_mem hk with ⟨e, _⟩ | ⟨hk, _⟩
      · exact ⟨b, e.symm⟩
      · exact h.canonical k m hk
    · rw [hnum]
      by_cases hba : b = a
      · have hv := h.pending f n bsn ha (hba ▸ hb)
        rw [if_pos hba, List.length_append, List.length_singleton, consecutive_succ, ← hv, ← h.nums]
      · rw [if_neg hba, List.append_nil]
        exact h.nums
    · rw [hnum, hcfg]
      simp only [get?_updateBsn]
      by_cases hba : b = a
      · rw [if_pos hba, if_pos (by rw [hba]), hba, h.next]
        simp only [Option.map_some, List.length_append, List.length_singleton]
        congr 1
        split <;> omega
      · rw [if_neg hba, if_neg (fun e => hba (print_inj hp e).symm), List.append_nil]
        exact h.next
    · intro g n' v hg hv
      rw [hann] at hg
      rw [hnum]
      split at hg
      · cases hg
        by_cases hba : b = a
        · rw [hba] at hv
          simp only [AList.get?_erase_self] at hv
          cases hv
        · simp only at hv
          rw [AList.get?_erase_of_ne _ (fun e => hba e.symm)] at hv
          rw [if_neg hba, List.append_nil]
          exact h.pending f n v ha hv
      · next hgf => exact absurd (hone g f n' n hg ha) hgf

theorem Counts.run {net : Net A} {pf} {a : A} {c : Nat} (hp : ∀ a, net.parse (net.print a) = some a) {s : St A}
    (h : Counts net a c s) (evs : List (Ev A)) : Counts net a c (run net pf s evs) := by
  induction evs generalizing s with
  | nil => exact h
  | cons ev evs ih => exact ih (h.step hp ev)

/-- The invariant for a destination that is not stored as printed: nothing ever changes its number. -/
structure Stuck (net : Net A) (a : A) (c : Nat) (s : St A) : Prop where
  entries : ∀ k n, (k, n) ∈ s.cfg.dests → net.parse k = some a → k ≠ net.print a ∧ n = c
  pending : ∀ f n v, s.ann f = some n → AList.get? n.pending a = some v → v = c
  sent : ∀ v ∈ numbers s.sent a, v = c

theorem Stuck.step {net : Net A} {pf} {a : A} {c : Nat} (hp : ∀ a, net.parse (net.print a) = some a) {s : St A}
    (h : Stuck net a c s) (ev : Ev A) : Stuck net a c (step net pf s ev) := by
  generalize ht : Announcer.step net pf s ev = t
  have hc := step_change net pf s ev
  rw [ht] at hc
  cases hc with
  | same h1 h2 h3 =>
    refine ⟨by rw [h1]; exact h.entries, ?_, by rw [h2]; exact h.sent⟩
    intro f n v hf
    rw [h3] at hf
    exact h.pending f n v hf
  | @begin f n pkt pending ha _ _ hb hs =>
    refine ⟨by simpa using h.entries, ?_, by simpa using h.sent⟩
    intro g n' v hg hv
    simp only [ann_setAnn] at hg
    split at hg
    · cases hg
      obtain ⟨k, hk, hpk⟩ := snapshot_sound hs hv
      exact (h.entries k v hk hpk).2
    · exact h.pending g n' v hg hv
  | @dies f n ha _ _ _ =>
    refine ⟨by simpa using h.entries, ?_, by simpa using h.sent⟩
    intro g n' v hg hv
    simp only [ann_setAnn] at hg
    split at hg
    · cases hg
      exact h.pending f n v ha hv
    · exact h.pending g n' v hg hv
  | @serve f n b bsn _ ha hb hcfg hann hsent =>
    refine ⟨?_, ?_, ?_⟩
    · rw [hcfg]
      intro k m hk hpk
      rcases updateBsn_mem hk with ⟨e, x, hx, _⟩ | ⟨hk, _⟩
      · rw [e, hp] at hpk
        cases hpk
        exact absurd rfl (h.entries _ _ (AList.mem_of_get? hx) (hp a)).1
      · exact h.entries k m hk hpk
    · intro g n' v hg hv
      rw [hann] at hg
      split at hg
      · cases hg
        simp only at hv
        by_cases hba : a = b
        · rw [hba, AList.get?_erase_self] at hv
          cases hv
        · rw [AList.get?_erase_of_ne _ hba] at hv
          exact h.pending f n v ha hv
      · exact h.pending g n' v hg hv
    · intro v hv
      rw [hsent, numbers_append, numbers_one] at hv
      rcases List.mem_append.mp hv with hv | hv
      · exact h.sent v hv
      · simp only at hv
        split at hv
        · next e =>
          rw [List.mem_singleton] at hv
          rw [hv]
          exact h.pending f n bsn ha (e ▸ hb)
        · simp at hv

theorem Stuck.run {net : Net A} {pf} {a : A} {c : Nat} (hp : ∀ a, net.parse (net.print a) = some a) {s : St A}
    (h : Stuck net a c s) (evs : List (Ev A)) : Stuck net a c (run net pf s evs) := by
  induction evs generalizing s with
  | nil => exact h
  | cons ev evs ih => exact ih (h.step hp ev)

/-! ### What is announced -/

theorem addClas_eq (l : List (String × Nat)) (b : Beacon) :
    (l.foldl (fun b c => b.addCla c.1 (some c.2)) b).block = { b.block with clas := b.block.clas ++ l.map fun c => (c.1, some c.2) } ∧
    (l.foldl (fun b c => b.addCla c.1 (some c.2)) b).eid = b.eid ∧
    (l.foldl (fun b c => b.addCla c.1 (some c.2)) b).period = b.period := by
  induction l generalizing b with
  | nil => simp
  | cons c l ih =>
    obtain ⟨h1, h2, h3⟩ := ih (b.addCla c.1 (some c.2))
    simp only [List.foldl_cons]
    rw [h1, h2, h3]
    simp [Beacon.addCla, ServiceBlock.addCla]

theorem buildService_tag {pf : List Char → Option F32} {tag : Nat} {s : String} {r : Nat × Bytes}
    (h : buildService pf tag s = .ok r) : r.1 = tag := by
  unfold buildService at h
  repeat' split at h
  all_goals first | cases h; rfl | cases h

/-- The services of a beacon after adding all of a map. -/
theorem addServices {pf : List Char → Option F32} (l : AList Nat String) (hw : AList.WF l) (b c : Beacon)
    (h : l.foldlM (fun b kv => b.addService pf kv.1 kv.2) b = some c) :
    c.eid = b.eid ∧ c.period = b.period ∧ c.block.clas = b.block.clas ∧
    ∀ tag p, AList.get? c.block.services tag = some p ↔
      ((∃ text, AList.get? l tag = some text ∧ buildService pf tag text = .ok (tag, p)) ∨
        (AList.get? l tag = none ∧ AList.get? b.block.services tag = some p)) := by
  induction l generalizing b with
  | nil =>
    simp only [List.foldlM_nil, Option.pure_def, Option.some.injEq] at h
    subst h
    simp [AList.get?]
  | cons kv l ih =>
    obtain ⟨k, s⟩ := kv
    rw [List.foldlM_cons] at h
    cases hb : b.addService pf k s with
    | none => simp [hb] at h
    | some b' =>
      simp only [hb, Option.bind_eq_bind, Option.bind_some] at h
      have hw' : AList.WF l ∧ k ∉ AList.keys l := by
        unfold AList.WF AList.keys at hw
        rw [List.map_cons, List.nodup_cons] at hw
        exact ⟨hw.2, hw.1⟩
      obtain ⟨h1, h2, h3, h4⟩ := ih hw'.1 b' h
      have hnone := (AList.get?_eq_none_iff l k).mpr hw'.2
      unfold Beacon.addService at hb
      split at hb
      · next r hr =>
        have hrt := buildService_tag hr
        cases hb
        refine ⟨h1, h2, h3, ?_⟩
        intro tag p
        rw [h4, AList.get?_cons]
        simp only [ServiceBlock.addService]
        by_cases hk : k = tag
        · subst hk
          simp only [hnone, if_pos, AList.get?_insert_self, Option.some.injEq]
          constructor
          · rintro (⟨text, h, _⟩ | ⟨_, h⟩)
            · cases h
            · exact .inl ⟨s, rfl, by rw [hr, ← h, ← hrt]⟩
          · rintro (⟨text, h, hb⟩ | ⟨h, _⟩)
            · cases h
              rw [hr] at hb
              cases hb
              simp
            · cases h
        · rw [if_neg hk, AList.get?_insert_of_ne _ _ (fun e => hk e.symm)]
      · cases hb

omit [DecidableEq A] in
theorem build_describes {pf : List Char → Option F32} {s : St A} (hw : AList.WF s.services) {b : Beacon}
    (h : build pf s = some b) : Describes pf s b := by
  unfold build at h
  dsimp only at h
  obtain ⟨h1, h2, h3, h4⟩ := addServices _ hw _ _ h
  obtain ⟨k1, k2, k3⟩ := addClas_eq s.clas
    (Beacon.withConfig s.cfg.host {} (if !s.cfg.enablePeriod then none else some s.cfg.interval))
  refine ⟨?_, ?_, ?_, ?_⟩
  · rw [h1, k2]; rfl
  · rw [h3, k1]; simp [Beacon.withConfig]
  · intro tag p
    rw [h4, k1]
    simp [Beacon.withConfig]
  · rw [h2, k3]
    cases s.cfg.enablePeriod <;> rfl

omit [DecidableEq A] in
theorem build_built {pf : List Char → Option F32} {s : St A} {b : Beacon} (h : build pf s = some b) :
    Spec.Discovery.Built pf b := by
  unfold build at h
  dsimp only at h
  have h1 : ∀ (l : List (String × Nat)) (b : Beacon), Spec.Discovery.Built pf b →
      Spec.Discovery.Built pf (l.foldl (fun b c => b.addCla c.1 (some c.2)) b) := by
    intro l
    induction l with
    | nil => intro b hb; exact hb
    | cons c l ih => intro b hb; exact ih _ (.addCla _ _ hb)
  have h2 : ∀ (l : AList Nat String) (b c : Beacon), Spec.Discovery.Built pf b →
      l.foldlM (fun b kv => b.addService pf kv.1 kv.2) b = some c → Spec.Discovery.Built pf c := by
    intro l
    induction l with
    | nil =>
      intro b c hb h
      simp only [List.foldlM_nil, Option.pure_def, Option.some.injEq] at h
      exact h ▸ hb
    | cons kv l ih =>
      intro b c hb h
      rw [List.foldlM_cons] at h
      cases hs : b.addService pf kv.1 kv.2 with
      | none => simp [hs] at h
      | some b' =>
        simp only [hs, Option.bind_eq_bind, Option.bind_some] at h
        exact ih b' c (.addService _ _ hb hs) h
  exact h2 _ _ _ (h1 _ _ (.withConfig _ _ _)) h

omit [DecidableEq A] in
theorem build_some {pf : List Char → Option F32} {s : St A}
    (h : ∀ tag text, (tag, text) ∈ s.services → ∃ p, buildService pf tag text = .ok (tag, p)) :
    ∃ b, build pf s = some b := by
  have key : ∀ (l : AList Nat String), (∀ tag text, (tag, text) ∈ l → ∃ p, buildService pf tag text = .ok (tag, p)) →
      ∀ b : Beacon, ∃ c, l.foldlM (fun b kv => b.addService pf kv.1 kv.2) b = some c := by
    intro l
    induction l with
    | nil => intro _ b; exact ⟨b, rfl⟩
    | cons kv l ih =>
      intro h b
      obtain ⟨p, hp⟩ := h kv.1 kv.2 (by simp)
      obtain ⟨c, hc⟩ := ih (fun t x hx => h t x (by simp [hx]))
        { b with block := b.block.addService kv.1 p, flags := b.flags ||| 2 }
      refine ⟨c, ?_⟩
      rw [List.foldlM_cons]
      simp only [Beacon.addService, hp, Option.bind_eq_bind, Option.bind_some]
      exact hc
  exact key _ h _

omit [DecidableEq A] in
theorem build_none {pf : List Char → Option F32} {s : St A} {tag : Nat} {text : String} (hm : (tag, text) ∈ s.services)
    (h : ∀ r, buildService pf tag text ≠ .ok r) : build pf s = none := by
  have key : ∀ (l : AList Nat String), (tag, text) ∈ l → ∀ b : Beacon,
      l.foldlM (fun b kv => b.addService pf kv.1 kv.2) b = none := by
    intro l
    induction l with
    | nil => intro h; simp at h
    | cons kv l ih =>
      intro hm b
      rw [List.foldlM_cons]
      rcases List.mem_cons.mp hm with hm | hm
      · have : b.addService pf kv.1 kv.2 = none := by
          unfold Beacon.addService
          rw [← hm]
          split
          · next r hr => exact absurd hr (h r)
          · rfl
        simp [this]
      · cases hs : b.addService pf kv.1 kv.2 with
        | none => rfl
        | some b' => simpa using ih hm b'
  exact key _ hm _

theorem step_services (net : Net A) (pf) (s : St A) (ev : Ev A) :
    (step net pf s ev).services = match ev with
      | .service tag payload => AList.insert s.services tag payload
      | _ => s.services := by
  cases ev with
  | round f =>
    unfold step
    dsimp only
    repeat' split
    all_goals simp
  | serve f a =>
    unfold step
    dsimp only
    repeat' split
    all_goals simp
  | clas l => rfl
  | service tag payload => rfl

theorem services_wf (net : Net A) (pf) {s : St A} (h : AList.WF s.services) (evs : List (Ev A)) :
    AList.WF (run net pf s evs).services := by
  induction evs generalizing s with
  | nil => exact h
  | cons ev evs ih =>
    refine ih ?_
    rw [step_services]
    cases ev with
    | service tag payload => exact AList.WF.insert h _ _
    | _ => exact h

omit [DecidableEq A] in
theorem describes_setBsn {pf : List Char → Option F32} {s : St A} {b : Beacon} (h : Describes pf s b) (n : Nat) :
    Describes pf s (b.setBsn n) := ⟨h.eid, h.clas, h.services, h.period⟩

/-- Whatever was sent or is being sent was built from an earlier state. -/
theorem origin (net : Net A) (pf : List Char → Option F32) (cfg : Config) (clas : List (String × Nat)) (evs : List (Ev A)) :
    (∀ f n a v, (run net pf (start cfg clas) evs).ann f = some n → AList.get? n.pending a = some v →
      ∃ pre, pre <+: evs ∧ Describes pf (run net pf (start cfg clas) pre) n.pkt ∧ Spec.Discovery.Built pf n.pkt) ∧
    (∀ d ∈ (run net pf (start cfg clas) evs).sent,
      ∃ pre, pre <+: evs ∧ Describes pf (run net pf (start cfg clas) pre) d.pkt ∧ Spec.Discovery.Built pf d.pkt) := by
  induction evs using List.reverseRecOn with
  | nil =>
    refine ⟨?_, by simp [run, start]⟩
    intro f n a v hf hv
    have : n.pending = [] := by
      cases f
      · simp only [run, List.foldl_nil, start, St.ann] at hf
        split at hf
        · cases hf; rfl
        · cases hf
      · simp only [run, List.foldl_nil, start, St.ann] at hf
        split at hf
        · cases hf; rfl
        · cases hf
    rw [this] at hv
    simp [AList.get?] at hv
  | append_singleton evs ev ih =>
    obtain ⟨ih1, ih2⟩ := ih
    have hrun : run net pf (start cfg clas) (evs ++ [ev]) = step net pf (run net pf (start cfg clas) evs) ev := by
      rw [run_append]; rfl
    rw [hrun]
    have hw := services_wf net pf (s := (start cfg clas : St A)) (by simp [start, AList.WF, AList.keys]) evs
    have hpre : ∀ {pre : List (Ev A)}, pre <+: evs → pre <+: evs ++ [ev] := fun h => h.trans (List.prefix_append _ _)
    generalize hs : run net pf (start cfg clas) evs = s at *
    generalize ht : step net pf s ev = t
    have hc := step_change net pf s ev
    rw [ht] at hc
    cases hc with
    | same h1 h2 h3 =>
      refine ⟨?_, ?_⟩
      · intro f n a v hf hv
        rw [h3] at hf
        obtain ⟨pre, h, hd⟩ := ih1 f n a v hf hv
        exact ⟨pre, hpre h, hd⟩
      · intro d hd
        rw [h2] at hd
        obtain ⟨pre, h, hd⟩ := ih2 d hd
        exact ⟨pre, hpre h, hd⟩
    | @begin f n pkt pending ha _ _ hb hsn =>
      refine ⟨?_, ?_⟩
      · intro g n' a v hg hv
        simp only [ann_setAnn] at hg
        split at hg
        · cases hg
          exact ⟨evs, List.prefix_append _ _, by rw [hs]; exact build_describes hw hb, build_built hb⟩
        · obtain ⟨pre, h, hd⟩ := ih1 g n' a v hg hv
          exact ⟨pre, hpre h, hd⟩
      · intro d hd
        simp only [setAnn_sent] at hd
        obtain ⟨pre, h, hd⟩ := ih2 d hd
        exact ⟨pre, hpre h, hd⟩
    | @dies f n ha _ _ _ =>
      refine ⟨?_, ?_⟩
      · intro g n' a v hg hv
        simp only [ann_setAnn] at hg
        split at hg
        · cases hg
          obtain ⟨pre, h, hd⟩ := ih1 f n a v ha hv
          exact ⟨pre, hpre h, hd⟩
        · obtain ⟨pre, h, hd⟩ := ih1 g n' a v hg hv
          exact ⟨pre, hpre h, hd⟩
      · intro d hd
        simp only [setAnn_sent] at hd
        obtain ⟨pre, h, hd⟩ := ih2 d hd
        exact ⟨pre, hpre h, hd⟩
    | @serve f n b bsn _ ha hb hcfg hann hsent =>
      refine ⟨?_, ?_⟩
      · intro g n' a v hg hv
        rw [hann] at hg
        split at hg
        · cases hg
          obtain ⟨pre, h, hd, hbu⟩ := ih1 f n b bsn ha hb
          exact ⟨pre, hpre h, describes_setBsn hd _, .setBsn _ hbu⟩
        · obtain ⟨pre, h, hd⟩ := ih1 g n' a v hg hv
          exact ⟨pre, hpre h, hd⟩
      · intro d hd
        rw [hsent] at hd
        rcases List.mem_append.mp hd with hd | hd
        · obtain ⟨pre, h, hd⟩ := ih2 d hd
          exact ⟨pre, hpre h, hd⟩
        · rw [List.mem_singleton] at hd
          subst hd
          obtain ⟨pre, h, hd, hbu⟩ := ih1 f n b bsn ha hb
          exact ⟨pre, hpre h, describes_setBsn hd _, .setBsn _ hbu⟩

end Dtn.Announcer
