import Verif.Lemmas.PackCbor
import Verif.Lemmas.AList
/-! The database with bytes behaves as the database with records. -/

namespace Dtn.PackCbor
open Spec.Records

/-- A stored pair of key and bytes stands for a pair of key and record. -/
def Stands (x : String × Bytes) (y : String × Pack) : Prop :=
  x.1 = y.1 ∧ y.2.id = y.1 ∧ Fits y.2 ∧ read x.2 = some y.2

/-- The database with bytes stands for the database with records. -/
structure Same (t : Db) (s : SledStore) : Prop where
  bundles : t.bundles = s.bundles
  records : List.Forall₂ Stands t.metadata s.metadata

theorem same_get {l : AList String Bytes} {m : AList String Pack} (h : List.Forall₂ Stands l m) (k : String) :
    (AList.get? l k = none ∧ AList.get? m k = none) ∨
    ∃ bs p, AList.get? l k = some bs ∧ AList.get? m k = some p ∧ p.id = k ∧ Fits p ∧ read bs = some p := by
  induction h with
  | nil => exact .inl ⟨rfl, rfl⟩
  | @cons x y l m hxy _ ih =>
    obtain ⟨k1, b⟩ := x
    obtain ⟨k2, p⟩ := y
    obtain ⟨h1, h2, h3, h4⟩ := hxy
    dsimp only at h1 h2 h3 h4
    subst h1
    simp only [AList.get?]
    by_cases hk : k1 = k
    · rw [if_pos hk, if_pos hk]
      exact .inr ⟨b, p, rfl, rfl, h2.trans hk, h3, h4⟩
    · rw [if_neg hk, if_neg hk]
      exact ih

theorem same_contains {l : AList String Bytes} {m : AList String Pack} (h : List.Forall₂ Stands l m) (k : String) :
    AList.contains l k = AList.contains m k := by
  unfold AList.contains
  rcases same_get h k with ⟨h1, h2⟩ | ⟨_, _, h1, h2, _⟩ <;> rw [h1, h2] <;> rfl

theorem same_erase {l : AList String Bytes} {m : AList String Pack} (h : List.Forall₂ Stands l m) (k : String) :
    List.Forall₂ Stands (AList.erase l k) (AList.erase m k) := by
  unfold AList.erase
  induction h with
  | nil => exact .nil
  | @cons x y l m hxy _ ih =>
    rw [List.filter_cons, List.filter_cons, hxy.1]
    split
    · exact .cons hxy ih
    · exact ih

theorem same_insert {l : AList String Bytes} {m : AList String Pack} (h : List.Forall₂ Stands l m) {bs : Bytes} {p : Pack}
    (hf : Fits p) (hr : read bs = some p) :
    List.Forall₂ Stands (AList.insert l p.id bs) (AList.insert m p.id p) :=
  .cons ⟨rfl, rfl, hf, hr⟩ (same_erase h p.id)

/-- A write with bytes stands for a write with a record. -/
inductive WSame : Db.Write → SledStore.Write → Prop
  | record {bs : Bytes} {p : Pack} : Fits p → read bs = some p → WSame (.record p.id bs) (.meta_ p)
  | bundle (b : Bundle) : WSame (.bundle b) (.bundle b)
  | drop (bid : String) : WSame (.dropBundle bid) (.dropBundle bid)

theorem same_apply {t : Db} {s : SledStore} (h : Same t s) {w : Db.Write} {v : SledStore.Write} (hw : WSame w v) :
    Same (t.apply w) (s.apply v) := by
  cases hw with
  | record hf hr => exact ⟨h.bundles, same_insert h.records hf hr⟩
  | bundle b => exact ⟨by show AList.insert _ _ _ = _; rw [h.bundles]; rfl, h.records⟩
  | drop bid => exact ⟨by show AList.erase _ _ = _; rw [h.bundles]; rfl, h.records⟩

theorem same_applyAll {ws : List Db.Write} {vs : List SledStore.Write} (hw : List.Forall₂ WSame ws vs) :
    ∀ {t : Db} {s : SledStore}, Same t s → Same (ws.foldl Db.apply t) (s.applyAll vs) := by
  induction hw with
  | nil => exact fun h => h
  | cons hx _ ih => exact fun h => ih (same_apply h hx)

theorem forall₂_take {α β : Type} {R : α → β → Prop} : ∀ (n : Nat) {l : List α} {m : List β},
    List.Forall₂ R l m → List.Forall₂ R (l.take n) (m.take n) := by
  intro n
  induction n with
  | zero => intro l m _; simp
  | succ n ih =>
    intro l m h
    cases h with
    | nil => exact .nil
    | cons hx h => exact .cons hx (ih h)

/-- The writes of the two are the same. -/
inductive OSame : Outcome (List Db.Write) → Outcome (List SledStore.Write) → Prop
  | ok {ws : List Db.Write} {vs : List SledStore.Write} : List.Forall₂ WSame ws vs → OSame (.ok ws) (.ok vs)
  | err : OSame .err .err
  | panic : OSame .panic .panic

theorem record_same {o : CSet → List Constraint} (ho : ∀ c, Lists (o c) c) {p : Pack} (hf : Fits p) :
    WSame (Db.record o p) (.meta_ p) :=
  .record hf (read_record (fs := declared) (by decide) (by intro f; cases f <;> decide) hf (ho _).2
    (write_record (ho _).1 hf))

theorem fits_clear {p : Pack} (h : Fits p) : Fits (p.clear.add .deleted) ∧ (p.clear.add .deleted).id = p.id := by
  have h1 : (p.clear.add .deleted) = { p with constraints := (p.clear.add .deleted).constraints } := by
    unfold Pack.clear
    dsimp only
    split <;> rfl
  rw [h1]
  exact ⟨⟨h.source, h.destination, h.receivedTime, h.creationTime, h.lifetime, h.id, h.size⟩, rfl⟩

theorem same_getMetadata {t : Db} {s : SledStore} (h : Same t s) (bid : String) : t.getMetadata bid = s.getMetadata bid := by
  unfold Db.getMetadata SledStore.getMetadata
  rcases same_get h.records bid with ⟨h1, h2⟩ | ⟨bs, p, h1, h2, _, _, h3⟩
  · rw [h1, h2]
  · rw [h1, h2]
    dsimp only
    rw [h3]

theorem same_writes {o : CSet → List Constraint} (ho : ∀ c, Lists (o c) c) {t : Db} {s : SledStore} (h : Same t s)
    {op : SledStore.Op} (hf : FitsOp op) : OSame (t.writes o op) (s.writes op) := by
  cases op with
  | push now b =>
    show OSame (if _ then _ else if _ then _ else _) (if _ then _ else if _ then _ else _)
    rw [h.bundles, same_contains h.records]
    split
    · exact .ok (.cons (.bundle b) .nil)
    · split
      · exact .err
      · refine .ok (.cons (record_same ho ?_) (.cons (.bundle b) .nil))
        obtain ⟨h1, h2, h3, h4, h5, h6⟩ := hf
        exact ⟨h1, h2, h3, h4, h5, h6, by show (0 : Nat) < 2 ^ 64; omega⟩
  | update bp =>
    show OSame (if _ then _ else _) (if _ then _ else _)
    rw [same_contains h.records]
    split
    · exact .ok (.cons (record_same ho hf) .nil)
    · exact .err
  | remove bid =>
    show OSame (match t.getMetadata bid with
      | .ok (some m) =>
        let m := m.clear.add .deleted
        if AList.contains t.metadata m.id then .ok [Db.record o m, .dropBundle bid] else .err
      | .ok none => .ok [.dropBundle bid]
      | .err => .err
      | .panic => .panic) (s.removeW bid)
    rw [same_getMetadata h]
    unfold SledStore.removeW SledStore.getMetadata
    rcases same_get h.records bid with ⟨_, h2⟩ | ⟨bs, p, h1, h2, h3, h4, _⟩
    · rw [h2]; exact .panic
    · rw [h2]
      dsimp only
      have hc : AList.contains t.metadata bid = true := by unfold AList.contains; rw [h1]; rfl
      rw [(fits_clear h4).2, h3, if_pos hc]
      exact .ok (.cons (record_same ho (fits_clear h4).1) (.cons (.drop bid) .nil))

theorem same_event {t : Db} {s : SledStore} (h : Same t s) {e : SledStore.Event × (CSet → List Constraint)}
    (ho : ∀ c, Lists (e.2 c) c) (hf : FitsEvent e.1) : Same (t.event e) (s.event e.1) := by
  obtain ⟨e, o⟩ := e
  cases e with
  | call op =>
    show Same (match t.writes o op with
      | .ok ws => ws.foldl Db.apply t
      | _ => t) (match s.writes op with
      | .ok ws => s.applyAll ws
      | _ => s)
    generalize hw : t.writes o op = w
    generalize hv : s.writes op = v
    have := same_writes ho h hf
    rw [hw, hv] at this
    cases this with
    | ok h2 => exact same_applyAll h2 h
    | err => exact h
    | panic => exact h
  | crash op n =>
    show Same (match t.writes o op with
      | .ok ws => (ws.take n).foldl Db.apply t
      | _ => t) (match s.writes op with
      | .ok ws => s.applyAll (ws.take n)
      | _ => s)
    generalize hw : t.writes o op = w
    generalize hv : s.writes op = v
    have := same_writes ho h hf
    rw [hw, hv] at this
    cases this with
    | ok h2 => exact same_applyAll (forall₂_take n h2) h
    | err => exact h
    | panic => exact h

theorem same_run : ∀ (es : List (SledStore.Event × (CSet → List Constraint))) {t : Db} {s : SledStore}, Same t s →
    (∀ e ∈ es, (∀ c, Lists (e.2 c) c) ∧ FitsEvent e.1) → Same (t.run es) (s.run (es.map (·.1))) := by
  intro es
  induction es with
  | nil => intro t s h _; exact h
  | cons e es ih =>
    intro t s h he
    exact ih (same_event h (he e (by simp)).1 (he e (by simp)).2) fun x hx => he x (by simp [hx])

theorem same_new : Same .new .new := ⟨rfl, .nil⟩

theorem same_values {l : AList String Bytes} {m : AList String Pack} (h : List.Forall₂ Stands l m) :
    (AList.values l).mapM read = some (AList.values m) := by
  unfold AList.values
  induction h with
  | nil => rfl
  | cons hx _ ih =>
    rw [List.map_cons, List.mapM_cons, hx.2.2.2, ih]
    rfl

theorem same_packs {t : Db} {s : SledStore} (h : Same t s) : t.packs = .ok s.packs := by
  unfold Db.packs
  rw [same_values h.records]
  rfl

end Dtn.PackCbor
