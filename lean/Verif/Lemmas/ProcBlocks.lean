import Verif.Lemmas.ProcWalk
/-! Lemmas on block lists. -/

namespace Dtn.Proc
open Spec (SameBut)

/-- The first block of a type. -/
abbrev first (ty : Nat) (cs : List Block) : Option Block := cs.find? fun c => c.btype = ty

theorem first_setFirst {ty : Nat} {d : BlockData} {cs : List Block} {c : Block} (h : first ty cs = some c) :
    first ty (setFirst ty d cs) = some { c with data := d } := by
  induction cs with
  | nil => simp at h
  | cons x cs ih =>
    unfold setFirst
    by_cases hx : x.btype = ty
    · simp only [hx, List.find?_cons, decide_true, Option.some.injEq] at h
      subst h
      simp [hx, first]
    · simp only [first, List.find?_cons, hx, decide_false] at h
      simp only [hx, if_false, first, List.find?_cons, decide_false]
      exact ih h

theorem first_setFirst_ne {ty ty' : Nat} (hne : ty' ≠ ty) (d : BlockData) (cs : List Block) :
    first ty' (setFirst ty d cs) = first ty' cs := by
  induction cs with
  | nil => rfl
  | cons x cs ih =>
    unfold setFirst
    by_cases hx : x.btype = ty
    · have : ¬ x.btype = ty' := fun h => hne (h.symm.trans hx)
      simp [hx, first, Ne.symm hne]
    · by_cases hx' : x.btype = ty'
      · simp [first, hx', hne]
      · simp only [hx, if_false, first, List.find?_cons, hx', decide_false]; exact ih

theorem types_setFirst (ty : Nat) (d : BlockData) (cs : List Block) :
    (setFirst ty d cs).map Block.btype = cs.map Block.btype := by
  induction cs with
  | nil => rfl
  | cons x cs ih => unfold setFirst; split <;> simp [ih]

theorem nums_setFirst (ty : Nat) (d : BlockData) (cs : List Block) :
    (setFirst ty d cs).map Block.num = cs.map Block.num := by
  induction cs with
  | nil => rfl
  | cons x cs ih => unfold setFirst; split <;> simp [ih]

/-- How many blocks of a type there are. -/
abbrev howMany (ty : Nat) (cs : List Block) : Nat := cs.countP fun c => c.btype = ty

theorem howMany_eq (ty : Nat) (cs : List Block) : howMany ty cs = (cs.map Block.btype).countP (fun x => x = ty) := by
  induction cs with
  | nil => rfl
  | cons x cs ih => simp only [howMany, List.map_cons, List.countP_cons] at ih ⊢; rw [ih]

theorem howMany_setFirst (ty ty' : Nat) (d : BlockData) (cs : List Block) :
    howMany ty' (setFirst ty d cs) = howMany ty' cs := by
  rw [howMany_eq, howMany_eq, types_setFirst]

theorem first_perm {ty : Nat} {cs cs' : List Block} (hp : cs.Perm cs') (h : howMany ty cs ≤ 1) :
    first ty cs = first ty cs' := by
  unfold first
  rw [← List.head?_filter, ← List.head?_filter]
  have hf := hp.filter (fun c : Block => decide (c.btype = ty))
  have hl : (cs.filter fun c => decide (c.btype = ty)).length ≤ 1 := by
    rw [← List.countP_eq_length_filter]; exact h
  generalize cs.filter (fun c => decide (c.btype = ty)) = l at hf hl
  generalize cs'.filter (fun c => decide (c.btype = ty)) = l' at hf
  match l, hl with
  | [], _ => rw [List.nil_perm.mp hf]
  | [a], _ => rw [List.singleton_perm.mp hf]
  | a :: b :: l, hl => simp at hl

theorem SameBut.refl (tys : List Nat) (cs : List Block) : SameBut tys cs cs := by
  induction cs with
  | nil => trivial
  | cons c cs ih => exact ⟨.inl rfl, ih⟩

theorem SameBut.mono {A B : List Nat} (h : ∀ x ∈ A, x ∈ B) : ∀ {xs ys : List Block}, SameBut A xs ys → SameBut B xs ys
  | [], [], _ => trivial
  | x :: xs, y :: ys, hs => by
    refine ⟨?_, SameBut.mono h hs.2⟩
    rcases hs.1 with h1 | ⟨h1, h2⟩
    · exact .inl h1
    · exact .inr ⟨h _ h1, h2⟩
  | [], _ :: _, hs => hs.elim
  | _ :: _, [], hs => hs.elim

theorem SameBut.trans {A : List Nat} : ∀ {xs ys zs : List Block}, SameBut A xs ys → SameBut A ys zs → SameBut A xs zs
  | [], [], [], _, _ => trivial
  | x :: xs, y :: ys, z :: zs, h, k => by
    refine ⟨?_, SameBut.trans h.2 k.2⟩
    rcases h.1 with rfl | ⟨h1, h2, h3, h4⟩
    · exact k.1
    · rcases k.1 with rfl | ⟨k1, k2, k3, k4⟩
      · exact .inr ⟨h1, h2, h3, h4⟩
      · exact .inr ⟨h1, h2.trans k2, h3.trans k3, h4.trans k4⟩
  | [], _ :: _, _, h, _ => h.elim
  | _ :: _, [], _, h, _ => h.elim
  | [], [], _ :: _, _, k => k.elim
  | _ :: _, _ :: _, [], _, k => k.elim

theorem SameBut.setFirst (ty : Nat) (d : BlockData) (cs : List Block) : SameBut [ty] (Proc.setFirst ty d cs) cs := by
  induction cs with
  | nil => trivial
  | cons x cs ih =>
    unfold Proc.setFirst
    split
    · rename_i hx
      exact ⟨.inr ⟨by simp [hx], rfl, rfl, rfl⟩, SameBut.refl _ _⟩
    · exact ⟨.inl rfl, ih⟩

/-! ### The hop count -/

theorem raiseHop_cases (b : Bundle) :
    (∃ l k c, first HOP_COUNT_BLOCK b.canonicals = some c ∧ c.data = .hopCount l k ∧
      raiseHop b = ({ b with canonicals := setFirst HOP_COUNT_BLOCK (.hopCount l ((k + 1) % 256)) b.canonicals },
        decide ((k + 1) % 256 > l))) ∨
    (raiseHop b = (b, false) ∧ Spec.hopCount b = none) := by
  unfold raiseHop firstBlock Spec.hopCount
  cases hf : b.canonicals.find? fun c => c.btype = HOP_COUNT_BLOCK with
  | none => right; exact ⟨rfl, rfl⟩
  | some c =>
    obtain ⟨ty, num, fl, d⟩ := c
    cases d with
    | hopCount l k => left; exact ⟨l, k, ⟨ty, num, fl, .hopCount l k⟩, hf, rfl, rfl⟩
    | _ => right; exact ⟨rfl, rfl⟩

theorem raiseHop_hopCount (b : Bundle) :
    Spec.hopCount (raiseHop b).1 = (Spec.hopCount b).map fun (l, k) => (l, (k + 1) % 256) := by
  rcases raiseHop_cases b with ⟨l, k, c, hf, hd, hr⟩ | ⟨hr, hn⟩
  · rw [hr]
    have h1 := first_setFirst (d := .hopCount l ((k + 1) % 256)) hf
    unfold first at h1 hf
    unfold Spec.hopCount
    dsimp only
    rw [h1, hf]
    simp [hd]
  · rw [hr]; simp [hn]

theorem raiseHop_sameBut (b : Bundle) : SameBut [HOP_COUNT_BLOCK] (raiseHop b).1.canonicals b.canonicals := by
  rcases raiseHop_cases b with ⟨l, k, c, hf, hd, hr⟩ | ⟨hr, hn⟩ <;> rw [hr]
  · exact SameBut.setFirst _ _ _
  · exact SameBut.refl _ _

theorem raiseHop_first {ty : Nat} (hne : ty ≠ HOP_COUNT_BLOCK) (b : Bundle) :
    first ty (raiseHop b).1.canonicals = first ty b.canonicals := by
  rcases raiseHop_cases b with ⟨l, k, c, hf, hd, hr⟩ | ⟨hr, hn⟩ <;> rw [hr]
  exact first_setFirst_ne hne _ _

theorem raiseHop_howMany (ty : Nat) (b : Bundle) : howMany ty (raiseHop b).1.canonicals = howMany ty b.canonicals := by
  rcases raiseHop_cases b with ⟨l, k, c, hf, hd, hr⟩ | ⟨hr, hn⟩ <;> rw [hr]
  exact howMany_setFirst _ _ _ _

theorem raiseHop_exceeded {b : Bundle} {l k : Nat} (h : Spec.hopCount b = some (l, k)) :
    (raiseHop b).2 = decide ((k + 1) % 256 > l) := by
  rcases raiseHop_cases b with ⟨l', k', c, hf, hd, hr⟩ | ⟨hr, hn⟩
  · rw [hr]
    unfold first at hf
    unfold Spec.hopCount at h
    rw [hf] at h
    simp only [Option.bind_some, hd, Option.some.injEq, Prod.mk.injEq] at h
    rw [h.1, h.2]
  · rw [hn] at h; cases h

/-! ### The previous node -/

theorem le_foldl_max (l : List Nat) : ∀ a x, (x = a ∨ x ∈ l) → x ≤ l.foldl max a := by
  induction l with
  | nil => intro a x h; simp at h; simp [h]
  | cons y l ih =>
    intro a x h
    simp only [List.foldl_cons]
    rcases h with rfl | h
    · exact Nat.le_trans (Nat.le_max_left _ _) (ih _ _ (.inl rfl))
    · rcases List.mem_cons.mp h with rfl | h
      · exact Nat.le_trans (Nat.le_max_right _ _) (ih _ _ (.inl rfl))
      · exact ih _ _ (.inr h)

theorem setPrevious_cases {host : EID} {b b' : Bundle} (h : setPrevious host b = some b') :
    (∃ c e, first PREVIOUS_NODE_BLOCK b.canonicals = some c ∧ c.data = .previousNode e ∧
      b' = { b with canonicals := setFirst PREVIOUS_NODE_BLOCK (.previousNode host) b.canonicals }) ∨
    (first PREVIOUS_NODE_BLOCK b.canonicals = none ∧
      b' = addBlock b { btype := PREVIOUS_NODE_BLOCK, num := 0, data := .previousNode host }) := by
  unfold setPrevious firstBlock at h
  cases hf : b.canonicals.find? fun c => c.btype = PREVIOUS_NODE_BLOCK with
  | none => rw [hf] at h; right; exact ⟨hf, (Option.some.inj h).symm⟩
  | some c =>
    rw [hf] at h
    obtain ⟨ty, num, fl, d⟩ := c
    cases d with
    | previousNode e => left; exact ⟨⟨ty, num, fl, .previousNode e⟩, e, hf, rfl, (Option.some.inj h).symm⟩
    | _ => cases h

theorem addBlock_perm (b : Bundle) (c : Block) :
    ∃ num, (∀ x ∈ b.canonicals, x.num ≠ num) ∧
      (addBlock b c).canonicals.Perm ({ c with num } :: b.canonicals) := by
  refine ⟨(b.canonicals.map Block.num).foldl max 1 + 1, ?_, List.mergeSort_perm _ _⟩
  intro x hx he
  have := le_foldl_max (b.canonicals.map Block.num) 1 x.num (.inr (List.mem_map.mpr ⟨x, hx, rfl⟩))
  omega

theorem howMany_zero {ty : Nat} {cs : List Block} (h : first ty cs = none) : howMany ty cs = 0 := by
  unfold first at h
  rw [List.find?_eq_none] at h
  exact List.countP_eq_zero.mpr h

theorem setPrevious_previousNode {host : EID} {b b' : Bundle} (h : setPrevious host b = some b') :
    Spec.previousNode b' = some host := by
  rcases setPrevious_cases h with ⟨c, e, hf, hd, rfl⟩ | ⟨hf, rfl⟩
  · have h1 := first_setFirst (d := .previousNode host) hf
    unfold first at h1
    unfold Spec.previousNode
    dsimp only
    rw [h1]; rfl
  · obtain ⟨num, -, hp⟩ := addBlock_perm b { btype := PREVIOUS_NODE_BLOCK, num := 0, data := .previousNode host }
    have := first_perm (ty := PREVIOUS_NODE_BLOCK) hp.symm (by simp [howMany, howMany_zero hf])
    unfold first at this
    unfold Spec.previousNode
    rw [← this]
    simp

theorem setPrevious_first {host : EID} {b b' : Bundle} {ty : Nat} (h : setPrevious host b = some b')
    (hne : ty ≠ PREVIOUS_NODE_BLOCK) (hone : howMany ty b.canonicals ≤ 1) :
    first ty b'.canonicals = first ty b.canonicals := by
  rcases setPrevious_cases h with ⟨c, e, hf, hd, rfl⟩ | ⟨hf, rfl⟩
  · exact first_setFirst_ne hne _ _
  · obtain ⟨num, -, hp⟩ := addBlock_perm b { btype := PREVIOUS_NODE_BLOCK, num := 0, data := .previousNode host }
    have := first_perm (ty := ty) hp.symm (by
      simp only [howMany, List.countP_cons, hne.symm, decide_false]; simpa using hone)
    rw [← this]
    simp [first, hne.symm]

theorem setPrevious_howMany {host : EID} {b b' : Bundle} {ty : Nat} (h : setPrevious host b = some b')
    (hne : ty ≠ PREVIOUS_NODE_BLOCK) : howMany ty b'.canonicals = howMany ty b.canonicals := by
  rcases setPrevious_cases h with ⟨c, e, hf, hd, rfl⟩ | ⟨hf, rfl⟩
  · exact howMany_setFirst _ _ _ _
  · obtain ⟨num, -, hp⟩ := addBlock_perm b { btype := PREVIOUS_NODE_BLOCK, num := 0, data := .previousNode host }
    have := hp.countP_eq (fun c : Block => decide (c.btype = ty))
    unfold howMany
    rw [this]
    simp [hne.symm]

/-! ### The age -/

theorem raiseAge_cases (now : Nat) (r : Option Nat) (b : Bundle) :
    (∃ t age c, r = some t ∧ first BUNDLE_AGE_BLOCK b.canonicals = some c ∧ c.data = .bundleAge age ∧
      (age + (now + u64 - t) % u64) % u64 ≠ 0 ∧
      raiseAge now r b =
        (⟨b.primary, setFirst BUNDLE_AGE_BLOCK (.bundleAge ((age + (now + u64 - t) % u64) % u64)) b.canonicals⟩,
         some ((age + (now + u64 - t) % u64) % u64))) ∨
    (raiseAge now r b = (b, none) ∧
      ∀ t age, r = some t → Spec.bundleAge b = some age → (age + (now + u64 - t) % u64) % u64 = 0) := by
  unfold raiseAge firstBlock Spec.bundleAge
  generalize u64 = m
  cases hf : b.canonicals.find? fun c => c.btype = BUNDLE_AGE_BLOCK with
  | none => right; exact ⟨rfl, by simp⟩
  | some c =>
    cases r with
    | none => right; exact ⟨rfl, by simp⟩
    | some t =>
      obtain ⟨ty, num, fl, d⟩ := c
      cases d with
      | bundleAge age =>
        dsimp only
        by_cases hz : (age + (now + m - t) % m) % m = 0
        · right
          rw [if_neg (by simpa using hz)]
          refine ⟨rfl, ?_⟩
          intro t' age' h1 h2
          simp only [Option.some.injEq, Option.bind_some] at h1 h2
          rw [← h1, ← h2]; exact hz
        · left
          rw [if_pos hz]
          exact ⟨t, age, ⟨ty, num, fl, .bundleAge age⟩, rfl, hf, rfl, hz, rfl⟩
      | _ => right; exact ⟨rfl, by simp⟩

theorem raiseAge_sameBut (now r) (b : Bundle) : SameBut [BUNDLE_AGE_BLOCK] (raiseAge now r b).1.canonicals b.canonicals := by
  rcases raiseAge_cases now r b with ⟨t, age, c, h1, h2, h3, h4, hr⟩ | ⟨hr, -⟩ <;> rw [hr]
  · exact SameBut.setFirst _ _ _
  · exact SameBut.refl _ _

theorem raiseAge_first {ty : Nat} (hne : ty ≠ BUNDLE_AGE_BLOCK) (now r) (b : Bundle) :
    first ty (raiseAge now r b).1.canonicals = first ty b.canonicals := by
  rcases raiseAge_cases now r b with ⟨t, age, c, h1, h2, h3, h4, hr⟩ | ⟨hr, -⟩ <;> rw [hr]
  exact first_setFirst_ne hne _ _

theorem raiseAge_age {now t a : Nat} {b : Bundle} (h : Spec.bundleAge b = some a) (ht : t ≤ now)
    (ho : a + (now - t) < u64) : Spec.bundleAge (raiseAge now (some t) b).1 = some (a + (now - t)) := by
  have hm : (a + (now + u64 - t) % u64) % u64 = a + (now - t) := by
    have : now + u64 - t = (now - t) + u64 := by omega
    rw [this, Nat.add_mod_right, Nat.mod_eq_of_lt (by omega : now - t < u64), Nat.mod_eq_of_lt ho]
  rcases raiseAge_cases now (some t) b with ⟨t', age, c, h1, h2, h3, h4, hr⟩ | ⟨hr, hz⟩
  · have hage : age = a := by
      unfold first at h2
      unfold Spec.bundleAge at h
      rw [h2] at h
      simpa [h3] using h
    simp only [Option.some.injEq] at h1
    subst h1 hage
    rw [hr]
    have := first_setFirst (d := .bundleAge ((age + (now + u64 - t) % u64) % u64)) h2
    unfold first at this
    unfold Spec.bundleAge
    dsimp only
    rw [this]
    simp only [Option.bind_some]
    rw [hm]
  · rw [hr]
    have := hz t a rfl h
    rw [hm] at this
    rw [this]; rw [h, show a = 0 by omega]

end Dtn.Proc
