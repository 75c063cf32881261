import Verif.Lemmas.SetupStart
/-! An environment for the examples. -/

namespace Dtn.Setup
open Spec.SetupSpec
open Spec.PeerUrlSpec (Plain ReadsNodes)

/-- A parser of endpoint ids. -/
def sampleEid (s : String) : Option EID :=
  let t := s.toList
  if "dtn://".toList.isPrefixOf t then
    let r := t.drop 6
    some (.dtn (String.ofList (r.takeWhile (· ≠ '/'))) (String.ofList ((r.dropWhile (· ≠ '/')).drop 1)))
  else if "ipn:".toList.isPrefixOf t then
    let r := t.drop 4
    match Routing.StaticRouting.digits 0 (r.takeWhile (· ≠ '.')), Routing.StaticRouting.digits 0 ((r.dropWhile (· ≠ '.')).drop 1) with
    | some n, some s => some (.ipn n s)
    | _, _ => none
  else none

def sampleEnv : Env Nat where
  alphabetic := PeerUrl.isAlpha
  eid := sampleEid
  newEndpoint h s := match h with
    | .dtn n _ => some (.dtn n s)
    | _ => none
  duration s := if s = "2s" then some 2000000 else if s = "5s" then some 5000000 else none
  net := { parse := fun s => if s = "10.0.0.1:3003" then some 1 else none, print := fun _ => "10.0.0.1:3003", isV4 := fun _ => true }
  now := 7
  rnd := "abcdefghij".toList
  cwd := "/tmp"

theorem plain_no_slash {n : Text} (h : Plain n) : ∀ c ∈ n, c ≠ '/' := by
  rintro c hc rfl
  have := h '/' hc
  revert this; decide

theorem takeWhile_all {α : Type} {p : α → Bool} {l : List α} (h : ∀ a ∈ l, p a = true) (r : List α) (hr : ∀ a, r.head? = some a → p a = false) :
    (l ++ r).takeWhile p = l ∧ (l ++ r).dropWhile p = r := by
  induction l with
  | nil =>
    cases r with
    | nil => simp
    | cons a r => simp [hr a rfl]
  | cons a l ih =>
    obtain ⟨h1, h2⟩ := ih fun x hx => h x (by simp [hx])
    simp [h a (by simp), h1, h2]

theorem prefix_append (p s : Text) : p.isPrefixOf (p ++ s) = true := by
  induction p with
  | nil => simp
  | cons c p ih => simp [ih]

theorem sampleEid_dtn {n r : Text} (h : Plain n) (hr : r = [] ∨ r = ['/']) :
    sampleEid (String.ofList ("dtn://".toList ++ n ++ r)) = some (.dtn (String.ofList n) "") := by
  have hh : ∀ a, r.head? = some a → (decide (a ≠ '/')) = false := by
    rcases hr with rfl | rfl <;> simp
  obtain ⟨t1, t2⟩ := takeWhile_all (p := fun c => decide (c ≠ '/')) (l := n) (fun c hc => by simp [plain_no_slash h c hc]) r hh
  unfold sampleEid
  simp only [String.toList_ofList]
  rw [List.append_assoc, prefix_append]
  simp only [if_true]
  have e : ("dtn://".toList ++ (n ++ r)).drop 6 = n ++ r := rfl
  rw [e, t1, t2]
  rcases hr with rfl | rfl <;> rfl

theorem sampleEid_ipn (n : Nat) :
    sampleEid (String.ofList ("ipn:".toList ++ (toString n).toList ++ ".0".toList)) = some (.ipn n 0) := by
  have hd : ∀ c ∈ (toString n).toList, (decide (c ≠ '.')) = true := by
    intro c hc
    have := PeerUrl.digit_of_mem hc
    simp only [ne_eq, decide_not, Bool.not_eq_true', decide_eq_false_iff_not]
    rintro rfl
    revert this; decide
  obtain ⟨t1, t2⟩ := takeWhile_all (p := fun c => decide (c ≠ '.')) hd ".0".toList (by simp)
  unfold sampleEid
  simp only [String.toList_ofList]
  rw [List.append_assoc]
  have e1 : "dtn://".toList.isPrefixOf ("ipn:".toList ++ ((toString n).toList ++ ".0".toList)) = false := rfl
  rw [e1, prefix_append]
  simp only [if_true, Bool.false_eq_true, if_false]
  have e : ("ipn:".toList ++ ((toString n).toList ++ ".0".toList)).drop 4 = (toString n).toList ++ ".0".toList := rfl
  rw [e, t1, t2, PeerUrl.digits_toString]
  rfl

theorem sample_rnd : NodeName "abcdefghij".toList :=
  ⟨⟨'a', rfl, Or.inl (by decide)⟩, by unfold Letter Digit; decide, ⟨'j', rfl, Or.inl (Or.inl (by decide))⟩⟩

theorem sample_reads : ReadsNodes sampleEid := ⟨fun _ _ h => sampleEid_dtn h (Or.inr rfl), fun n _ => sampleEid_ipn n⟩

theorem sample_short (n : List Char) (_ : n ≠ []) (h : Plain n) :
    sampleEid (String.ofList ("dtn://".toList ++ n)) = some (.dtn (String.ofList n) "") := by
  have := sampleEid_dtn h (Or.inl rfl)
  rwa [List.append_nil] at this

theorem sample_sound : Sound sampleEnv := ⟨sample_reads, sample_short, fun c _ => alpha_iff c, sample_rnd⟩

end Dtn.Setup
