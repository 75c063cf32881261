import Verif.Lemmas.StaticRouting
import Verif.Lemmas.Spray
import Verif.Lemmas.Epidemic
/-! Lemmas about routing agents staying alive. -/

namespace Dtn.Routing
open Spec

/-- An agent whose requests do not panic answers all of them. -/
theorem Task.run_alive {σ : Type} (ag : Agent σ) (t : Task σ) (cmds : List Cmd) (hs : Cmd.shutdown ∉ cmds)
    (hreq : ∀ ps r bp, Cmd.senderForBundle ps r bp ∈ cmds → ∀ c, (ag.request c ps r bp).isSome) (ht : t.core.isSome)
    (hlog : ∀ x ∈ t.log, ∀ ps r bp, x.1 = .senderForBundle ps r bp → x.2.isSome) :
    (t.run ag cmds).core.isSome ∧
    ∀ x ∈ (t.run ag cmds).log, ∀ ps r bp, x.1 = .senderForBundle ps r bp → x.2.isSome := by
  induction cmds generalizing t with
  | nil => exact ⟨ht, hlog⟩
  | cons cmd cmds ih =>
    obtain ⟨c, hc⟩ := Option.isSome_iff_exists.mp ht
    have key : (t.step ag cmd).core.isSome ∧
        ∀ x ∈ (t.step ag cmd).log, ∀ ps r bp, x.1 = .senderForBundle ps r bp → x.2.isSome := by
      cases cmd with
      | senderForBundle ps r bp =>
        obtain ⟨⟨c', a⟩, hr⟩ := Option.isSome_iff_exists.mp (hreq ps r bp (by simp) c)
        simp only [Task.step, hc, hr]
        refine ⟨rfl, ?_⟩
        intro x hx
        rcases List.mem_append.mp hx with hx | hx
        · exact hlog x hx
        · simp at hx; subst hx; simp
      | notify n =>
        simp only [Task.step, hc]
        refine ⟨rfl, ?_⟩
        intro x hx
        rcases List.mem_append.mp hx with hx | hx
        · exact hlog x hx
        · simp at hx; subst hx; simp
      | command s =>
        simp only [Task.step, hc]
        refine ⟨rfl, ?_⟩
        intro x hx
        rcases List.mem_append.mp hx with hx | hx
        · exact hlog x hx
        · simp at hx; subst hx; simp
      | shutdown => simp at hs
    exact ih (t.step ag cmd) (fun h => hs (by simp [h])) (fun ps r bp h => hreq ps r bp (by simp [h])) key.1 key.2

/-- An ended task answers nothing any more. -/
theorem Task.run_dead {σ : Type} (ag : Agent σ) (t : Task σ) (cmds : List Cmd) (ht : t.core = none) :
    (t.run ag cmds).log = t.log ++ cmds.map fun c => (c, none) := by
  induction cmds generalizing t with
  | nil => simp [Task.run]
  | cons cmd cmds ih =>
    have e : t.step ag cmd = { t with log := t.log ++ [(cmd, none)] } := by
      cases cmd <;> simp only [Task.step, ht]
    show ((t.step ag cmd).run ag cmds).log = _
    rw [ih (t.step ag cmd) (by rw [e]; exact ht), e]
    simp

theorem Spray.loop_isSome (localNode : String) (bp : Pack) (running : List Cla) (ps : List Peer) (m : SawData) (a : Answer)
    (hd : bp.destination ≠ .none) (hp : ∀ p ∈ ps, p.eid ≠ .none) :
    (Spray.loop localNode bp running ps m a).isSome := by
  induction ps generalizing m a with
  | nil => rfl
  | cons p ps ih =>
    have hps : ∀ q ∈ ps, q.eid ≠ .none := fun q hq => hp q (by simp [hq])
    have h1 := hp p (by simp)
    unfold loop
    cases hn : p.eid.nodeId with
    | none => cases he : p.eid <;> simp_all [EID.nodeId]
    | some nid =>
      simp only
      split
      · exact ih _ _ hps
      · split
        · cases hdn : bp.destination.node with
          | none => cases he : bp.destination <;> simp_all [EID.node]
          | some d =>
            simp only
            split
            · split <;> exact ih _ _ hps
            · exact ih _ _ hps
        · split <;> exact ih _ _ hps

theorem Epidemic.senderForBundle_isSome (c : Epidemic) (ps : List Peer) (r : List Cla) (bp : Pack)
    (hd : bp.destination ≠ .none) : (c.senderForBundle ps r bp).isSome := by
  rw [← Option.ne_none_iff_isSome]
  intro h
  have := ((Epidemic.loop_none bp r ps c []).mp h).1
  cases he : bp.destination <;> simp_all [EID.node]

theorem Epidemic.Task.run_alive (t : Epidemic.Task) (cmds : List Cmd) (hs : Cmd.shutdown ∉ cmds)
    (hreq : ∀ bp ∈ askedFor cmds, bp.destination ≠ .none) (ht : t.core.isSome) (hlog : ∀ x ∈ t.log, x.2.isSome) :
    (t.run cmds).core.isSome ∧ (∀ x ∈ (t.run cmds).log, x.2.isSome) ∧
    (t.run cmds).log.map Prod.fst = t.log.map Prod.fst ++ askedFor cmds := by
  induction cmds generalizing t with
  | nil => simp [Epidemic.Task.run, askedFor, ht]; simpa using hlog
  | cons cmd cmds ih =>
    obtain ⟨c, hc⟩ := Option.isSome_iff_exists.mp ht
    have hs' : Cmd.shutdown ∉ cmds := fun h => hs (by simp [h])
    cases cmd with
    | senderForBundle ps r bp =>
      obtain ⟨⟨c', a⟩, hr⟩ := Option.isSome_iff_exists.mp
        (Epidemic.senderForBundle_isSome c ps r bp (hreq bp (by simp [askedFor])))
      have e : t.step (.senderForBundle ps r bp) = { core := some c', log := t.log ++ [(bp, some a)] } := by
        simp only [Epidemic.Task.step, hc, hr]
      have := ih (t.step (.senderForBundle ps r bp)) hs' (fun b hb => hreq b (by simp [askedFor, hb])) (by rw [e]; rfl) (by
        rw [e]
        intro x hx
        rcases List.mem_append.mp hx with hx | hx
        · exact hlog x hx
        · simp at hx; subst hx; rfl)
      refine ⟨this.1, this.2.1, ?_⟩
      show ((t.step _).run cmds).log.map Prod.fst = _
      rw [this.2.2, e]
      simp [askedFor]
    | notify n =>
      have e : t.step (.notify n) = { t with core := some (c.notify n) } := by simp only [Epidemic.Task.step, hc]
      have := ih (t.step (.notify n)) hs' hreq (by rw [e]; rfl) (by rw [e]; exact hlog)
      refine ⟨this.1, this.2.1, ?_⟩
      show ((t.step _).run cmds).log.map Prod.fst = _
      rw [this.2.2, e]
      simp [askedFor]
    | command s =>
      have e : t.step (.command s) = t := by simp only [Epidemic.Task.step, hc]
      have := ih (t.step (.command s)) hs' hreq (by rw [e]; exact ht) (by rw [e]; exact hlog)
      refine ⟨this.1, this.2.1, ?_⟩
      show ((t.step _).run cmds).log.map Prod.fst = _
      rw [this.2.2, e]
      simp [askedFor]
    | shutdown => simp at hs

theorem Epidemic.Task.run_dead (t : Epidemic.Task) (cmds : List Cmd) (ht : t.core = none) :
    (t.run cmds).log = t.log ++ (askedFor cmds).map fun bp => (bp, none) := by
  induction cmds generalizing t with
  | nil => simp [Epidemic.Task.run, askedFor]
  | cons cmd cmds ih =>
    show ((t.step cmd).run cmds).log = _
    cases cmd <;> simp only [Epidemic.Task.step, ht] <;> rw [ih _ (by first | exact ht | rfl)] <;> simp [askedFor]

namespace StaticRouting

theorem run_alive (glob : String → String → Bool) (s : State) (ops : List Op) (hs : Op.shutdown ∉ ops)
    (hf : ∀ cmd lines, Op.command cmd (some lines) ∈ ops → cmd = "reload" → (load lines).isSome)
    (hr : s.routes.isSome) (hlog : ∀ x ∈ s.log, x.2.isSome) :
    (run glob s ops).routes.isSome ∧ (∀ x ∈ (run glob s ops).log, x.2.isSome) ∧
    (run glob s ops).log.map Prod.fst = s.log.map Prod.fst ++ asked ops := by
  induction ops generalizing s with
  | nil => simp [run, asked, hr]; simpa using hlog
  | cons op ops ih =>
    obtain ⟨rs, hrs⟩ := Option.isSome_iff_exists.mp hr
    have hs' : Op.shutdown ∉ ops := fun h => hs (by simp [h])
    have hf' : ∀ cmd lines, Op.command cmd (some lines) ∈ ops → cmd = "reload" → (load lines).isSome :=
      fun cmd lines h => hf cmd lines (by simp [h])
    have go : ∀ s', step glob s op = s' → s'.routes.isSome → (∀ x ∈ s'.log, x.2.isSome) →
        s'.log.map Prod.fst ++ asked ops = s.log.map Prod.fst ++ asked (op :: ops) →
        (run glob s (op :: ops)).routes.isSome ∧ (∀ x ∈ (run glob s (op :: ops)).log, x.2.isSome) ∧
        (run glob s (op :: ops)).log.map Prod.fst = s.log.map Prod.fst ++ asked (op :: ops) := by
      intro s' e h1 h2 h3
      have := ih s' hs' hf' h1 h2
      have e' : run glob s (op :: ops) = run glob s' ops := by rw [← e]; rfl
      rw [e']
      exact ⟨this.1, this.2.1, by rw [this.2.2, h3]⟩
    cases op with
    | request ps r bp =>
      refine go _ rfl ?_ ?_ ?_ <;> simp only [step, hrs]
      · rfl
      · intro x hx
        rcases List.mem_append.mp hx with hx | hx
        · exact hlog x hx
        · simp at hx; subst hx; rfl
      · simp [asked]
    | notify n => exact go s (by simp only [step, hrs]) hr hlog (by simp [asked])
    | shutdown => simp at hs
    | command cmd f =>
      cases f with
      | none => exact go s (by simp only [step, hrs, ite_self]) hr hlog (by simp [asked])
      | some lines =>
        by_cases hc : cmd = "reload"
        · refine go { s with routes := load lines } (by simp only [step, hrs, hc, if_true]) ?_ hlog (by simp [asked])
          exact hf cmd lines (by simp) hc
        · exact go s (by simp only [step, hrs, hc, if_false]) hr hlog (by simp [asked])

theorem run_dead (glob : String → String → Bool) (s : State) (ops : List Op) (hs : s.routes = none) :
    (run glob s ops).log = s.log ++ (asked ops).map fun bp => (bp, none) := by
  induction ops generalizing s with
  | nil => simp [run, asked]
  | cons op ops ih =>
    show (run glob (step glob s op) ops).log = _
    cases op <;> simp only [step, hs] <;> rw [ih _ (by first | exact hs | rfl)] <;> simp [asked]

end StaticRouting
end Dtn.Routing
