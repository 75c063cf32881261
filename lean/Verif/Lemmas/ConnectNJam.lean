import Verif.Lemmas.ConnectNMore
/-! Lemmas about the program that connects N nodes: one node that reads nothing stops everything. -/

namespace Dtn.ConnectN
open ModuleClient (EclaPacket)
open Spec.ConnectNSpec

/-- Client `k` has taken over all it can, and its channel is full. -/
def Full (s : Site) : Prop := s.inbox.length = capacity ∧ s.client.queue.length = ModuleClient.capacity ∧ ∃ c, s.client.holder = .writer c

/-- All that is there for the client has been handled by its node, which has received `G`. -/
def Done (s : Site) (G : List Bundle) : Prop :=
  s.inbox = [] ∧ s.client.queue = [] ∧ s.up = s.put.length ∧ (∃ c, s.client.holder = .writer c) ∧
    ∃ c m p w, s.link = some c ∧ s.node.see c = some (.number m, p, w) ∧ s.node.got (.number m) = G

structure Jam (k j : Nat) (G : List Bundle) (n : Net) : Prop where
  head : ∃ src dst bid bytes rx, n.rx = .data src dst bid bytes :: rx ∧ target dst = some k
  full : ∃ s, n.sites[k]? = some s ∧ Full s
  done : ∃ s, n.sites[j]? = some s ∧ Done s G

theorem got_step {s t : Ecla.State} {e : Ecla.Ev} {c m p w} (hu : s.Uniq) (hc : s.see c = some (.number m, p, w)) (he : ∀ q, e ≠ .packet c q)
    (hs : Ecla.step s e = some t) : t.got (.number m) = s.got (.number m) ∧ ∃ q v, t.see c = some (.number m, q, v) := by
  by_cases ho : Ecla.own c e = true
  · have he' : e = .proceed c ∨ e = .stop c := by
      cases e with
      | packet d p => exact absurd (by simp only [Ecla.own, beq_iff_eq] at ho; rw [ho]) (he p)
      | proceed d => left; simp only [Ecla.own, beq_iff_eq] at ho; rw [ho]
      | stop d => right; simp only [Ecla.own, beq_iff_eq] at ho; rw [ho]
      | _ => cases ho
    obtain ⟨g1, q, g2, -⟩ := Ecla.own_step hc he' hs
    exact ⟨g1, q, w, g2⟩
  · have q := Ecla.quiet_step hu hc (by simpa using ho) hs
    obtain ⟨v, hv, -⟩ := q.conn _ _ _ hc
    exact ⟨q.recv, p, v, hv⟩

/-- One site changes. -/
theorem Jam.set {k j : Nat} {G : List Bundle} {n : Net} (J : Jam k j G n) {i : Nat} {s s' : Site} {rx : List EclaPacket} (hi : n.sites[i]? = some s)
    (hk : i = k → Full s → Full s') (hj : i = j → Done s G → Done s' G) (hrx : n.rx <+: rx) : Jam k j G { rx, sites := n.sites.set i s' } := by
  obtain ⟨⟨src, dst, bid, bytes, r, h1, h2⟩, ⟨sk, f1, f2⟩, ⟨sj, d1, d2⟩⟩ := J
  refine ⟨?_, ?_, ?_⟩
  · obtain ⟨t, rfl⟩ := hrx
    exact ⟨src, dst, bid, bytes, r ++ t, by rw [h1]; rfl, h2⟩
  · simp only [get_set hi]
    by_cases h : k = i
    · subst h
      rw [hi] at f1; cases f1
      exact ⟨s', by simp, hk rfl f2⟩
    · exact ⟨sk, by simp [h, f1], f2⟩
  · simp only [get_set hi]
    by_cases h : j = i
    · subst h
      rw [hi] at d1; cases d1
      exact ⟨s', by simp, hj rfl d2⟩
    · exact ⟨sj, by simp [h, d1], d2⟩

theorem Jam.step {x : Ext} {k j : Nat} {G : List Bundle} {n m : Net} {e : Ev} (I : NetInv x false n) (J : Jam k j G n) (h : n.step x e = some m)
    (he : ∀ ok, e ≠ .client k (.write ok)) : Jam k j G m := by
  cases e with
  | node i e =>
    simp only [Net.step] at h
    split at h
    · cases h
    · rename_i s hi
      have key : ∀ u, Ecla.step s.node e = some u → (∀ c q, e = .packet c q → s.link ≠ some c) → Jam k j G { n with sites := n.sites.set i { s with node := u } } := by
        intro u hu hne
        refine J.set hi (fun _ f => f) (fun _ d => ?_) (List.prefix_refl _)
        obtain ⟨d1, d2, d3, d4, c, m, p, w, d5, d6, d7⟩ := d
        obtain ⟨g1, q, v, g2⟩ := got_step (I.site i s hi).uniq d6 (fun q hq => hne c q hq d5) hu
        exact ⟨d1, d2, d3, d4, c, m, q, v, d5, g2, g1.trans d7⟩
      split at h
      · split at h
        · cases h
        · rename_i hl
          simp only [Option.map_eq_some_iff] at h
          obtain ⟨u, hu, rfl⟩ := h
          exact key u hu fun c' p' e => by cases e; exact hl
      · rename_i hne
        simp only [Option.map_eq_some_iff] at h
        obtain ⟨u, hu, rfl⟩ := h
        exact key u hu fun c' p' e => absurd e (hne c' p')
  | connect i ok =>
    simp only [Net.step] at h
    split at h
    · cases h
    · rename_i s hi
      split at h
      · rename_i hc
        have hh := ((I.site i s hi).link hc.2).2.1
        have hk : ∀ s', i = k → Full s → Full s' := by
          rintro s' - ⟨-, -, c, f⟩; rw [hh] at f; cases f
        have hd : ∀ s', i = j → Done s G → Done s' G := by
          rintro s' - ⟨-, -, -, ⟨c, f⟩, -⟩; rw [hh] at f; cases f
        split at h
        · cases h; exact J.set hi (hk _) (hd _) (List.prefix_refl _)
        · simp only [Option.map_eq_some_iff] at h
          obtain ⟨u, hu, rfl⟩ := h
          exact J.set hi (hk _) (hd _) (List.prefix_refl _)
        · cases h
      · cases h
  | client i e =>
    simp only [Net.step] at h
    split at h
    · cases h
    · rename_i s hi
      have S := I.site i s hi
      split at h
      · rename_i ha
        simp only [Option.map_eq_some_iff] at h
        obtain ⟨u, hu, rfl⟩ := h
        cases e with
        | command _ => cases ha
        | serve _ => cases ha
        | message _ => cases ha
        | begin =>
          simp only [ModuleClient.step] at hu
          split at hu
          · rename_i c hc
            have hh := S.conn c hc
            refine J.set hi ?_ ?_ (List.prefix_refl _)
            · rintro - ⟨-, -, c, f⟩; rw [hh] at f; cases f
            · rintro - ⟨-, -, -, ⟨c, f⟩, -⟩; rw [hh] at f; cases f
          · cases hu
        | write ok =>
          refine J.set hi ?_ ?_ (List.prefix_refl _)
          · intro hik; subst hik; exact absurd rfl (he ok)
          · rintro - ⟨-, d2, -⟩
            simp only [ModuleClient.step] at hu
            split at hu
            · rename_i hq; rw [d2] at hq; cases hq
            · rename_i hq; rw [d2] at hq; cases hq
            · cases hu
        | lost =>
          simp only [ModuleClient.step] at hu
          split at hu
          · cases hu; exact J.set hi (fun _ f => f) (fun _ d => d) (List.prefix_refl _)
          · cases hu
        | finish =>
          simp only [ModuleClient.step] at hu
          split at hu
          · split at hu
            · cases hu
            · cases hu; exact J.set hi (fun _ f => f) (fun _ d => d) (List.prefix_refl _)
          · cases hu
      · cases h
  | down i block =>
    simp only [Net.step] at h
    split at h
    · cases h
    · rename_i s hi
      split at h
      · cases h
      · simp only [Option.bind_eq_some_iff] at h
        obtain ⟨u, hu, h⟩ := h
        have hq : u.queue = s.client.queue ∧ u.holder = s.client.holder ∧ u.taken = s.client.taken := by
          simp only [ModuleClient.step] at hu
          split at hu
          · cases hu
            unfold ModuleClient.State.receive
            split <;> exact ⟨rfl, rfl, rfl⟩
          · cases hu
        obtain ⟨q1, q2, q3⟩ := hq
        have hk : i = k → Full s → Full { s with client := u, down := s.down + 1 } := by
          rintro - ⟨f1, f2, f3⟩
          exact ⟨f1, by dsimp only; rw [q1]; exact f2, by dsimp only; rw [q2]; exact f3⟩
        have hd : i = j → Done s G → Done { s with client := u, down := s.down + 1 } G := by
          rintro - ⟨d1, d2, d3, d4, d5⟩
          refine ⟨d1, by dsimp only; rw [q1]; exact d2, ?_, by dsimp only; rw [q2]; exact d4, d5⟩
          simp only [Site.put, q3]; exact d3
        split at h
        · cases h; exact J.set hi hk hd (List.prefix_refl _)
        · split at h
          · cases h; exact J.set hi hk hd (List.prefix_append _ _)
          · cases h
  | up i =>
    simp only [Net.step] at h
    split at h
    · cases h
    · rename_i s hi
      split at h
      · rename_i c p hl hp
        simp only [Option.map_eq_some_iff] at h
        obtain ⟨u, hu, rfl⟩ := h
        refine J.set hi (fun _ f => f) ?_ (List.prefix_refl _)
        rintro - ⟨-, -, d3, -⟩
        have := (List.getElem?_eq_some_iff.mp hp).1
        omega
      · cases h
  | pump i =>
    simp only [Net.step] at h
    split at h
    · cases h
    · rename_i s hi
      split at h
      · cases h
      · rename_i p inbox hp
        have hd : ∀ s', i = j → Done s G → Done s' G := by
          rintro s' - ⟨d1, -⟩; rw [hp] at d1; cases d1
        split at h
        · rename_i hg
          cases h
          refine J.set hi ?_ (hd _) (List.prefix_refl _)
          rintro - ⟨-, -, c, f⟩
          rw [hg.2] at f; cases f
        · simp only [Option.map_eq_some_iff] at h
          obtain ⟨u, hu, rfl⟩ := h
          refine J.set hi ?_ (hd _) (List.prefix_refl _)
          rintro - ⟨-, f2, -⟩
          simp only [ModuleClient.step, if_neg (I.site i s hi).held] at hu
          split at hu
          · omega
          · cases hu
  | route =>
    obtain ⟨src, dst, bid, bytes, r, h1, h2⟩ := J.head
    obtain ⟨s, f1, f2, -⟩ := J.full
    simp only [Net.step, Net.route, h1, h2, f1] at h
    split at h
    · omega
    · cases h

theorem Jam.run {x : Ext} {k j : Nat} {G : List Bundle} {n m : Net} {evs : List Ev} (I : NetInv x false n) (J : Jam k j G n) (h : n.run x evs = some m)
    (he : ∀ ok, .client k (.write ok) ∉ evs) : Jam k j G m := by
  induction evs generalizing n with
  | nil => cases h; exact J
  | cons e evs ih =>
    simp only [Net.run, Option.bind_eq_some_iff] at h
    obtain ⟨n', h1, h2⟩ := h
    exact ih (I.step (by simp) h1) (J.step I h1 fun ok hk => he ok (by simp [hk])) h2 fun ok hk => he ok (List.mem_cons_of_mem _ hk)

theorem Jam.received {k j : Nat} {G : List Bundle} {n : Net} (J : Jam k j G n) : receivedAt n j = G := by
  obtain ⟨s, hj, -, -, -, -, c, m, p, w, d5, d6, d7⟩ := J.done
  rw [receivedAt_see hj d5 d6, d7]

end Dtn.ConnectN
