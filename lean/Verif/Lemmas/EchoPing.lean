import Verif.Spec.EchoPing
import Verif.Props.Ws

namespace Dtn.EchoPing
open Ws Spec.WsSpec Spec.EchoSpec

/-- What events other than messages of the client itself do to a session. -/
structure Foreign (x : Ext) (s s' : Session) : Prop where
  mode : s'.mode = s.mode
  endpoints : s'.endpoints = s.endpoints
  alive : s'.alive = true → s.alive = true
  work : (s'.out = s.out ∧ s'.handled = s.handled) ∨
    ∃ b, s.alive = true ∧ s'.out = s.out ++ present x s.mode b ∧ s'.handled = s.handled ++ [(s.mode, b)]

theorem Foreign.refl (x : Ext) (s : Session) : Foreign x s s := ⟨rfl, rfl, id, .inl ⟨rfl, rfl⟩⟩

theorem fetch_other {x : Ext} {i k : Nat} {m : Mode} (hk : i ≠ k) (l : List EID) (h : Hub) :
    (l.foldl (fetchOne x i m) h).sessions[k]? = h.sessions[k]? := by
  induction l generalizing h with
  | nil => rfl
  | cons e l ih =>
    rw [List.foldl_cons, ih]
    unfold fetchOne
    split
    · rfl
    · dsimp only
      split
      · rfl
      · rw [upd_other hk]

theorem text_other {x : Ext} {host : EID} {h : Hub} {i k : Nat} {s : Session} {msg : String} (hk : i ≠ k) :
    (handleText x host h i s msg).sessions[k]? = h.sessions[k]? := by
  unfold handleText
  split <;> try (exact upd_other hk)
  · unfold unsubscribe
    split
    · rfl
    · split
      · exact upd_other hk
      · split
        · rw [upd_other hk]
        · exact upd_other hk
  · unfold subscribe
    split
    · exact upd_other hk
    · split
      · split
        · unfold fetchNew
          split
          · unfold subscribeTo; rw [upd_other hk]
          · rw [fetch_other hk]; unfold subscribeTo; rw [upd_other hk]
        · exact upd_other hk
      · split
        · split
          · exact upd_other hk
          · unfold subscribeTo; rw [upd_other hk]
        · exact upd_other hk
  · rfl

theorem binary_other {x : Ext} {h : Hub} {i k : Nat} {s : Session} {bin : Bytes} (hk : i ≠ k) :
    (handleBinary x h i s bin).sessions[k]? = h.sessions[k]? := by
  unfold handleBinary
  split
  · split
    · rw [upd_other hk]
    · exact upd_other hk
  · split
    · split
      · dsimp only; rw [upd_other hk]
      · rfl
    · exact upd_other hk

theorem foreign {x : Ext} {host : EID} {h : Hub} {i : Nat} {s : Session} {ev : Ev} (hs : h.sessions[i]? = some s)
    (hf : from' i ev = false) : ∃ s', (step x host h ev).sessions[i]? = some s' ∧ Foreign x s s' := by
  have same : ∀ {h' : Hub}, h'.sessions[i]? = h.sessions[i]? → ∃ s', h'.sessions[i]? = some s' ∧ Foreign x s s' :=
    fun e => ⟨s, by rw [e, hs], .refl x s⟩
  cases ev with
  | connect =>
    have hlt := (List.getElem?_eq_some_iff.mp hs).1
    exact same (by simp only [step]; rw [List.getElem?_append_left hlt])
  | text j msg =>
    have hj : j ≠ i := by simpa [from'] using hf
    refine same ?_
    simp only [step]
    rcases live_eq h j (fun s => handleText x host h j s msg) with ⟨t, _, _, he⟩ | ⟨_, he⟩
    · rw [he]; exact text_other hj
    · rw [he]
  | binary j bin =>
    have hj : j ≠ i := by simpa [from'] using hf
    refine same ?_
    simp only [step]
    rcases live_eq h j (fun s => handleBinary x h j s bin) with ⟨t, _, _, he⟩ | ⟨_, he⟩
    · rw [he]; exact binary_other hj
    · rw [he]
  | ping j msg =>
    have hj : j ≠ i := by simpa [from'] using hf
    refine same ?_
    simp only [step]
    rcases live_eq h j (fun _ => h.upd j fun s => s.say (.ping msg)) with ⟨t, _, _, he⟩ | ⟨_, he⟩
    · rw [he]; exact upd_other hj
    · rw [he]
  | pump j =>
    simp only [step]
    rcases live_eq h j (fun s => pump x h j s) with ⟨t, ht, ha, he⟩ | ⟨_, he⟩
    · rw [he]
      unfold pump
      cases hc : t.chan with
      | nil => exact same rfl
      | cons b rest =>
        by_cases hj : j = i
        · subst hj
          rw [hs] at ht; cases ht
          exact ⟨_, upd_self hs, rfl, rfl, id, .inr ⟨b, ha, rfl, rfl⟩⟩
        · exact same (upd_other hj)
    · rw [he]; exact same rfl
  | ended j =>
    simp only [step]
    rcases live_eq h j (fun s => endSession h j s) with ⟨t, ht, ha, he⟩ | ⟨_, he⟩
    · rw [he]
      obtain ⟨c1, -, -, -⟩ := clear_foldl (t.endpoints.getD []) h
      unfold endSession
      dsimp only
      by_cases hj : j = i
      · subst hj
        exact ⟨_, upd_self (by rw [c1]; exact hs), rfl, rfl, fun h => (by cases h), .inl ⟨rfl, rfl⟩⟩
      · exact same (by rw [upd_other hj, c1])
    · rw [he]; exact same rfl
  | register e => exact same rfl
  | unregister e => exact same rfl
  | pop e => exact same rfl
  | deliver e b =>
    simp only [step]
    unfold deliver
    cases hf : Registry.find h.apps.agents e with
    | none => exact same rfl
    | some a =>
      dsimp only
      cases hp : (a.push b (roomFor h a)).2 with
      | none => exact same rfl
      | some ch =>
        dsimp only
        by_cases hj : ch = i
        · subst hj
          exact ⟨_, upd_mk hs, rfl, rfl, id, .inl ⟨rfl, rfl⟩⟩
        · exact same (upd_other hj)

/-- The binary messages. -/
def bins : List Msg → List Bytes
  | [] => []
  | .binary b :: ms => b :: bins ms
  | _ :: ms => bins ms

theorem bins_append (a b : List Msg) : bins (a ++ b) = bins a ++ bins b := by
  induction a with
  | nil => rfl
  | cons m a ih => cases m <;> simp [bins, ih]

/-- The bundles of a session that its client is told of in the data mode. -/
def told (x : Ext) (s : Session) : List Bundle := (s.handled.map (·.2)).filter x.hasPayload

/-- The binary messages of client `i`. -/
def wrote (i : Nat) : List Ev → List Bytes
  | [] => []
  | .binary j b :: evs => if j = i then b :: wrote i evs else wrote i evs
  | _ :: evs => wrote i evs

theorem wrote_append (i : Nat) (a b : List Ev) : wrote i (a ++ b) = wrote i a ++ wrote i b := by
  induction a with
  | nil => rfl
  | cons m a ih =>
    cases m <;> simp [wrote, ih]
    split <;> simp

def upBins : List Up → List Bytes
  | [] => []
  | .binary b :: us => b :: upBins us
  | .text _ :: us => upBins us

theorem upBins_append (a b : List Up) : upBins (a ++ b) = upBins a ++ upBins b := by
  induction a with
  | nil => rfl
  | cons m a ih => cases m <;> simp [upBins, ih]

end Dtn.EchoPing
