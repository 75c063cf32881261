import Verif.Model.Reader
/-! Lemmas about byte readers. -/

namespace Dtn

@[simp] theorem putUint_length (k n : Nat) : (putUint k n).length = k := by
  induction k with
  | zero => rfl
  | succ k ih => simp [putUint, ih]

theorem beVal_foldl (bs : Bytes) : ∀ a : Nat,
    bs.foldl (fun a b => a * 256 + b.toNat) a = a * 256 ^ bs.length + Rd.beVal bs := by
  induction bs with
  | nil => intro a; simp [Rd.beVal]
  | cons b bs ih =>
    intro a
    simp only [List.foldl_cons, Rd.beVal, List.length_cons]
    rw [ih, ih (0 * 256 + b.toNat), Nat.add_mul, Nat.pow_succ]
    rw [Nat.mul_assoc, Nat.mul_comm 256, Nat.zero_mul, Nat.zero_add]
    omega

theorem beVal_cons (b : UInt8) (bs : Bytes) :
    Rd.beVal (b :: bs) = b.toNat * 256 ^ bs.length + Rd.beVal bs := by
  have := beVal_foldl bs (0 * 256 + b.toNat)
  simp only [Nat.zero_mul, Nat.zero_add] at this
  simpa [Rd.beVal] using this

theorem beVal_putUint (k n : Nat) : Rd.beVal (putUint k n) = n % 256 ^ k := by
  induction k with
  | zero => simp [putUint, Rd.beVal, Nat.mod_one]
  | succ k ih =>
    rw [putUint, beVal_cons, ih, putUint_length]
    have : (UInt8.ofNat (n / 256 ^ k)).toNat = n / 256 ^ k % 256 := by simp
    rw [this, Nat.pow_succ, Nat.mod_mul, Nat.mul_comm (256 ^ k)]
    omega

theorem beVal_putUint_of_lt {k n : Nat} (h : n < 256 ^ k) : Rd.beVal (putUint k n) = n := by
  rw [beVal_putUint, Nat.mod_eq_of_lt h]

theorem beVal_lt (bs : Bytes) : Rd.beVal bs < 256 ^ bs.length := by
  induction bs with
  | nil => simp [Rd.beVal]
  | cons b bs ih =>
    rw [beVal_cons, List.length_cons, Nat.pow_succ]
    have hb : b.toNat < 256 := b.toNat_lt
    have : b.toNat * 256 ^ bs.length ≤ 255 * 256 ^ bs.length := Nat.mul_le_mul_right _ (by omega)
    omega

namespace Rd

theorem bind_ok {α β : Type} {r : Rd α} {f : α → Rd β} {bs : Bytes} {a : α} {rest : Bytes}
    (h : r bs = .ok a rest) : (r >>= f) bs = f a rest := by
  show bind r f bs = _
  simp [bind, h]

theorem bytes_append (a rest : Bytes) : bytes a.length (a ++ rest) = .ok a rest := by
  simp [bytes]

theorem bytes_append' {n : Nat} {a : Bytes} (rest : Bytes) (h : a.length = n) :
    bytes n (a ++ rest) = .ok a rest := by
  subst h; exact bytes_append a rest

theorem uint_put {k n : Nat} (rest : Bytes) (h : n < 256 ^ k) :
    uint k (putUint k n ++ rest) = .ok n rest := by
  unfold uint bind
  rw [bytes_append' rest (putUint_length k n)]
  simp [pure, beVal_putUint_of_lt h]

/-- A reader that consumes a definite prefix: its outcome does not depend on what follows, and errors are not
turned into anything else by more input. -/
def Prefixed {α : Type} (r : Rd α) : Prop :=
  (∀ bs a rest, r bs = .ok a rest → ∃ pre, bs = pre ++ rest ∧ ∀ x, r (pre ++ x) = .ok a x) ∧
  (∀ bs, r bs = .err → ∀ x, r (bs ++ x) = .err) ∧
  (∀ bs, r bs = .panic → ∀ x, r (bs ++ x) = .panic)

theorem Prefixed.pure {α : Type} (a : α) : Prefixed (Pure.pure a : Rd α) := by
  refine ⟨?_, ?_, ?_⟩
  · intro bs a' rest h
    cases h
    exact ⟨[], rfl, fun x => rfl⟩
  · intro bs h; cases h
  · intro bs h; cases h

theorem Prefixed.fail {α : Type} : Prefixed (fail : Rd α) :=
  ⟨fun _ _ _ h => (by cases h), fun _ _ _ => rfl, fun _ h => (by cases h)⟩

theorem Prefixed.abort {α : Type} : Prefixed (abort : Rd α) :=
  ⟨fun _ _ _ h => (by cases h), fun _ h => (by cases h), fun _ _ _ => rfl⟩

theorem Prefixed.bytes (n : Nat) : Prefixed (bytes n) := by
  refine ⟨?_, ?_, ?_⟩
  · intro bs a rest h
    unfold Rd.bytes at h
    split at h
    · next hn =>
      cases h
      refine ⟨bs.take n, by simp, ?_⟩
      intro x
      exact bytes_append' x (by simp; omega)
    · cases h
  · intro bs h; unfold Rd.bytes at h; split at h <;> cases h
  · intro bs h; unfold Rd.bytes at h; split at h <;> cases h

theorem Prefixed.bind {α β : Type} {r : Rd α} {f : α → Rd β} (hr : Prefixed r)
    (hf : ∀ a, Prefixed (f a)) : Prefixed (r >>= f) := by
  have hb : ∀ bs, (r >>= f) bs = Rd.bind r f bs := fun _ => rfl
  refine ⟨?_, ?_, ?_⟩
  · intro bs b rest h
    rw [hb] at h
    unfold Rd.bind at h
    cases hra : r bs with
    | ok a mid =>
      rw [hra] at h
      obtain ⟨pre, hbs, hx⟩ := hr.1 bs a mid hra
      obtain ⟨pre', hmid, hx'⟩ := (hf a).1 mid b rest h
      refine ⟨pre ++ pre', by rw [hbs, hmid, List.append_assoc], ?_⟩
      intro x
      rw [List.append_assoc, bind_ok (hx (pre' ++ x)), hx']
    | eof => rw [hra] at h; cases h
    | err => rw [hra] at h; cases h
    | panic => rw [hra] at h; cases h
  · intro bs h x
    rw [hb] at h
    unfold Rd.bind at h
    cases hra : r bs with
    | ok a mid =>
      rw [hra] at h
      obtain ⟨pre, hbs, hx⟩ := hr.1 bs a mid hra
      rw [hbs, List.append_assoc, bind_ok (hx _)]
      exact (hf a).2.1 mid h x
    | eof => rw [hra] at h; cases h
    | err => rw [hb]; unfold Rd.bind; rw [hr.2.1 bs hra x]
    | panic => rw [hra] at h; cases h
  · intro bs h x
    rw [hb] at h
    unfold Rd.bind at h
    cases hra : r bs with
    | ok a mid =>
      rw [hra] at h
      obtain ⟨pre, hbs, hx⟩ := hr.1 bs a mid hra
      rw [hbs, List.append_assoc, bind_ok (hx _)]
      exact (hf a).2.2 mid h x
    | eof => rw [hra] at h; cases h
    | panic => rw [hb]; unfold Rd.bind; rw [hr.2.2 bs hra x]
    | err => rw [hra] at h; cases h

theorem Prefixed.uint (k : Nat) : Prefixed (uint k) :=
  Prefixed.bind (Prefixed.bytes k) fun _ => Prefixed.pure _

theorem uint_lt {k : Nat} {bs : Bytes} {n : Nat} {rest : Bytes} (h : uint k bs = .ok n rest) :
    n < 256 ^ k := by
  unfold Rd.uint Rd.bind Rd.bytes at h
  split at h
  · next a r hh =>
    split at hh
    · next hn =>
      cases hh; cases h
      have := beVal_lt (bs.take k)
      rwa [List.length_take, Nat.min_eq_left hn] at this
    · cases hh
  · cases h
  · cases h
  · cases h

theorem bytes_len {n : Nat} {bs d rest : Bytes} (h : bytes n bs = .ok d rest) : d.length = n := by
  unfold Rd.bytes at h
  split at h
  · next hn => cases h; simp; omega
  · cases h

theorem bind_inv {α β : Type} {r : Rd α} {f : α → Rd β} {bs : Bytes} {b : β} {rest : Bytes}
    (h : (r >>= f) bs = .ok b rest) : ∃ a mid, r bs = .ok a mid ∧ f a mid = .ok b rest := by
  have h' : Rd.bind r f bs = .ok b rest := h
  unfold Rd.bind at h'
  cases hr : r bs with
  | ok a mid => rw [hr] at h'; exact ⟨a, mid, rfl, h'⟩
  | eof => rw [hr] at h'; cases h'
  | err => rw [hr] at h'; cases h'
  | panic => rw [hr] at h'; cases h'

end Rd
end Dtn
