import Verif.Lemmas.TcpclNet
import Verif.Model.TcpclSession
/-! Lemmas about reading TCPCL messages from a connection in pieces. -/

namespace Dtn.Tcpcl
open Dtn.Spec

theorem readPacket_nil : readPacket [] = .eof := by decide

theorem read_consumes {bs rest : Bytes} {p : Packet} (h : readPacket bs = .ok p rest) : rest.length < bs.length := by
  obtain ⟨pre, h1, h2⟩ := read_prefixed.1 bs p rest h
  have h3 := h2 []
  cases pre with
  | nil => simp [readPacket_nil] at h3
  | cons x pre => rw [h1]; simp; omega

/-- Enough fuel is enough. -/
theorem consume_fuel (e : Env) : ∀ (k n m : Nat) (io : SessIO), io.partialRead.length ≤ k →
    io.partialRead.length ≤ n → io.partialRead.length ≤ m → SessIO.consume e n io = SessIO.consume e m io := by
  intro k
  induction k with
  | zero =>
    intro n m io h _ _
    have : io.partialRead = [] := List.length_eq_zero_iff.mp (by omega)
    cases n <;> cases m <;> simp [SessIO.consume, this]
  | succ k ih =>
    intro n m io hk hn hm
    by_cases hnil : io.partialRead = []
    · cases n <;> cases m <;> simp [SessIO.consume, hnil]
    have hpos : 0 < io.partialRead.length := List.length_pos_iff.mpr hnil
    obtain ⟨n, rfl⟩ : ∃ n', n = n' + 1 := ⟨n - 1, by omega⟩
    obtain ⟨m, rfl⟩ : ∃ n', m = n' + 1 := ⟨m - 1, by omega⟩
    simp only [SessIO.consume, hnil, if_false]
    split
    · rfl
    · cases hr : readPacket io.partialRead with
      | ok p rest =>
        have := read_consumes hr
        simp only
        exact ih n m _ (by simp; omega) (by simp; omega) (by simp; omega)
      | _ => rfl

/-- Reading everything there is, without fuel. -/
def drainIO (e : Env) (io : SessIO) : SessIO := SessIO.consume e io.partialRead.length io

theorem drainIO_stop {e : Env} {io : SessIO} (h : io.s.isTerminated = true) : drainIO e io = io := by
  unfold drainIO
  cases io.partialRead.length <;> simp [SessIO.consume, h]

theorem drainIO_nil {e : Env} {io : SessIO} (h : io.partialRead = []) : drainIO e io = io := by
  unfold drainIO; rw [h]; rfl

theorem drainIO_step {e : Env} {s : Sess} {buf : Bytes} (hs : s.isTerminated = false) :
    drainIO e { s := s, partialRead := buf } =
      match readPacket buf with
      | .ok p rest => drainIO e { s := s.step e (.recv p), partialRead := rest }
      | .eof => { s := s, partialRead := buf }
      | .err => { s := s.step e .lost, partialRead := buf }
      | .panic => { s := s.terminated, partialRead := buf } := by
  by_cases hb : buf = []
  · subst hb
    rw [readPacket_nil, drainIO_nil rfl]
  · unfold drainIO
    have hpos : 0 < buf.length := List.length_pos_iff.mpr hb
    obtain ⟨n, hn⟩ : ∃ n', buf.length = n' + 1 := ⟨buf.length - 1, by omega⟩
    simp only [hn, SessIO.consume, hs, Bool.false_eq_true, if_false, hb]
    cases hr : readPacket buf with
    | ok p rest =>
      have := read_consumes hr
      simp only
      exact consume_fuel e n _ _ _ (by simp; omega) (by simp; omega) (by simp)
    | _ => rfl

theorem step_lost_terminated {e : Env} {s : Sess} (hs : s.isTerminated = false) :
    (s.step e .lost).isTerminated = true := by
  unfold Sess.step
  simp only [hs, Bool.false_eq_true, if_false]
  simp [Sess.terminated, Sess.isTerminated]

/-- Bytes that arrive later can be read later. -/
theorem drainIO_append (e : Env) (c : Bytes) : ∀ (k : Nat) (s : Sess) (buf : Bytes), buf.length ≤ k →
    (drainIO e { s := s, partialRead := buf ++ c }).s =
      (drainIO e { s := (drainIO e { s := s, partialRead := buf }).s,
                   partialRead := (drainIO e { s := s, partialRead := buf }).partialRead ++ c }).s := by
  intro k
  induction k with
  | zero =>
    intro s buf h
    have : buf = [] := List.length_eq_zero_iff.mp (by omega)
    subst this
    rw [drainIO_nil (io := { s := s, partialRead := [] }) rfl]
  | succ k ih =>
    intro s buf h
    by_cases hs : s.isTerminated = true
    · rw [drainIO_stop (io := { s := s, partialRead := buf }) hs]
    have hs : s.isTerminated = false := by simpa using hs
    rw [drainIO_step (buf := buf) hs]
    cases hr : readPacket buf with
    | ok p rest =>
      obtain ⟨pre, h1, h2⟩ := read_prefixed.1 buf p rest hr
      have h3 : readPacket (buf ++ c) = .ok p (rest ++ c) := by
        rw [h1, List.append_assoc]; exact h2 _
      have hc := read_consumes hr
      rw [drainIO_step (buf := buf ++ c) hs, h3]
      simp only
      exact ih _ rest (by omega)
    | eof => rfl
    | err =>
      have h3 := read_prefixed.2.1 buf hr c
      rw [drainIO_step (buf := buf ++ c) hs, h3]
      simp only
      rw [drainIO_stop (step_lost_terminated (e := e) hs)]
    | panic =>
      have h3 := read_prefixed.2.2 buf hr c
      rw [drainIO_step (buf := buf ++ c) hs, h3]
      simp only
      rw [drainIO_stop]
      simp [Sess.terminated, Sess.isTerminated]

theorem step_bytes_eq (e : Env) (io : SessIO) (b : Bytes) :
    io.step e (.bytes b) = drainIO e { s := io.s, partialRead := io.partialRead ++ b } := rfl

theorem drainIO_idem (e : Env) : ∀ (k : Nat) (s : Sess) (buf : Bytes), buf.length ≤ k →
    drainIO e (drainIO e { s := s, partialRead := buf }) = drainIO e { s := s, partialRead := buf } := by
  intro k
  induction k with
  | zero =>
    intro s buf h
    have : buf = [] := List.length_eq_zero_iff.mp (by omega)
    subst this
    rw [drainIO_nil (io := { s := s, partialRead := [] }) rfl, drainIO_nil rfl]
  | succ k ih =>
    intro s buf h
    by_cases hs : s.isTerminated = true
    · rw [drainIO_stop (io := { s := s, partialRead := buf }) hs, drainIO_stop hs]
    have hs : s.isTerminated = false := by simpa using hs
    rw [drainIO_step (buf := buf) hs]
    cases hr : readPacket buf with
    | ok p rest =>
      have hc := read_consumes hr
      exact ih _ rest (by omega)
    | eof => simp only; rw [drainIO_step hs, hr]
    | err => exact drainIO_stop (step_lost_terminated (e := e) hs)
    | panic => exact drainIO_stop (by simp [Sess.terminated, Sess.isTerminated])

/-- Reading a stream piece by piece is reading it at once. -/
theorem chunks_irrelevant (e : Env) (cs : List Bytes) : ∀ io : SessIO,
    ((cs.map IOEv.bytes).foldl (SessIO.step e) io).s =
      (drainIO e { s := io.s, partialRead := io.partialRead ++ cs.flatten }).s ∨
    (cs = [] ∧ ((cs.map IOEv.bytes).foldl (SessIO.step e) io) = io) := by
  induction cs with
  | nil => intro io; exact Or.inr ⟨rfl, rfl⟩
  | cons c cs ih =>
    intro io
    left
    rw [List.map_cons, List.foldl_cons, step_bytes_eq, List.flatten_cons, ← List.append_assoc]
    rw [drainIO_append e cs.flatten _ _ _ (Nat.le_refl _)]
    rcases ih (drainIO e { s := io.s, partialRead := io.partialRead ++ c }) with h | ⟨h1, h2⟩
    · exact h
    · subst h1
      simp only [List.map_nil, List.foldl_nil, List.flatten_nil, List.append_nil]
      have := drainIO_idem e _ io.s (io.partialRead ++ c) (Nat.le_refl _)
      exact (congrArg SessIO.s this).symm

theorem drainIO_messages (e : Env) (ps : List Packet) : ∀ (s : Sess),
    (∀ p ∈ ps, WellFormed p ∧ ∀ t, p ≠ .contactHeader t) →
    (drainIO e { s := s, partialRead := (ps.map write).flatten }).s =
      ps.foldl (fun s p => s.step e (.recv p)) s := by
  induction ps with
  | nil => intro s _; rfl
  | cons p ps ih =>
    intro s h
    have hterm : ∀ (ps : List Packet) (s : Sess), s.isTerminated = true →
        ps.foldl (fun s p => s.step e (.recv p)) s = s := by
      intro ps
      induction ps with
      | nil => intro s _; rfl
      | cons q qs ih => intro s hs; simp only [List.foldl_cons]; rw [show s.step e (.recv q) = s by simp [Sess.step, hs]]; exact ih s hs
    by_cases hs : s.isTerminated = true
    · rw [drainIO_stop hs, hterm _ _ hs]
    have hs : s.isTerminated = false := by simpa using hs
    rw [List.map_cons, List.flatten_cons, drainIO_step hs, read_write p _ (h p (by simp)).1 (h p (by simp)).2]
    simp only
    rw [ih _ (fun q hq => h q (by simp [hq]))]
    rfl

end Dtn.Tcpcl
