import Verif.Model.Ecla
/-! Specification of the external convergence layers. -/

namespace Dtn.Spec.Ecla
open Dtn.Ecla

/-- `s` is the state after the events `evs`, starting with the configured convergence layers `clas`. -/
def After (clas : List Bytes) (tcp : Bool) (evs : List Ev) (s : State) : Prop := run (start clas tcp) evs = some s

/-- Connection `c` of a module at address `a` is up. -/
def Connected (s : State) (c : Nat) (a : Addr) : Prop :=
  (s.conns[c]?).map (fun k => (k.addr, k.phase)) = some (a, .serving)

/-- Connection `c` has ended and was cleaned up. -/
def Ended (s : State) (c : Nat) : Prop := (s.conns[c]?).map Conn.phase = some .gone

/-- The module at address `a` is active under the name `n`. -/
def ActiveAs (s : State) (a : Addr) (n : Bytes) : Prop :=
  ∃ m, AList.get? s.modules a = some m ∧ m.active = true ∧ m.name = n

/-- No TCP client comes from an address whose previous connection is not yet cleaned up. -/
def NoReuse (clas : List Bytes) (tcp : Bool) (evs : List Ev) : Prop :=
  ∀ pre addr post s, evs = pre ++ .acceptTcp addr :: post → After clas tcp pre s →
    ∀ k ∈ s.conns, k.addr = .remote addr → k.phase = .gone

/-- No task has panicked while it held one of the module tables. -/
def Sound (s : State) : Prop := s.poisoned = false ∧ s.wsPoisoned = false

/-- No module sends a service block that cannot be read, or binary data over a web socket. -/
def WellFormed (evs : List Ev) : Prop :=
  ∀ c p, Ev.packet c p ∈ evs → p ≠ .binary ∧ ∀ eid addr b, p = .beacon eid addr b → b = .fine

/-- The registrations connection `c` sends. -/
def registrations (c : Nat) (evs : List Ev) : Nat :=
  evs.countP fun e => match e with
    | .packet d (.register _ _ _) => d = c
    | _ => false

/-- The packets waiting to be written on connection `c`. -/
def waiting (s : State) (c : Nat) : List Out := ((s.conns[c]?).map Conn.queue).getD []

/-- The packets written on connection `c`, in order. -/
def written (s : State) (c : Nat) : List Out := ((s.conns[c]?).map Conn.written).getD []

end Dtn.Spec.Ecla
