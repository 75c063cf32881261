import Verif.Model.ModuleClient
/-! Specification for the client library of external modules (C115). Everything is told from the history alone: the calls of the
user and what the connection yields. -/

namespace Dtn.Spec.ModuleClient

open Dtn.ModuleClient

variable {α : Type}

/-- The commands that are to be carried out in this history, in order: those of the user and, as soon as a call of `serve` has
connected, the registration. -/
def orders (registration : Option α) : List (Ev α) → List (Command α)
  | [] => []
  | .command c :: es => c :: orders registration es
  | .begin :: es => (registration.toList.map Command.send) ++ orders registration es
  | _ :: es => orders registration es

/-- The packets before the first `close`. -/
def untilClose : List (Command α) → List α
  | .send p :: cs => p :: untilClose cs
  | _ => []

/-- The packets received from the daemon. -/
def heard : List (Ev α) → List α
  | [] => []
  | .message (.text (some p)) :: es => p :: heard es
  | _ :: es => heard es

/-- What a convergence layer module with this id is told: the daemon's registration, the bundles to send and the beacons, with its
own id as the source. -/
def told (id : String) : EclaPacket → List EclaPacket
  | .data _ dst bid bytes => [.data id dst bid bytes]
  | .beacon eid _ block => [.beacon eid id block]
  | .registered eid nodeid => [.registered eid nodeid]
  | .register .. => []
  | .error .. => []

/-- The errors the daemon reports. -/
def complaints : List EclaPacket → List String
  | [] => []
  | .error r :: ps => r :: complaints ps
  | _ :: ps => complaints ps

/-- The result of a call of `serve` during which the daemon reported these errors. -/
def verdict : List String → Result
  | [] => .ok
  | r :: _ => .refused r

/-- No event of these ends a call of `serve` or begins one. -/
def Within (es : List (Ev α)) : Prop :=
  ∀ e ∈ es, e ≠ .lost ∧ e ≠ .finish ∧ e ≠ .message .binary ∧ e ≠ .begin ∧ ∀ b, e ≠ .serve b

/-- The connection of the first call of `serve` that got as far as to start writing, if there is one; `n` connections were made
before. -/
def firstConn (n : Nat) : List (Ev α) → Option Nat
  | [] => none
  | .serve true :: es => firstConn (n + 1) es
  | .begin :: _ => some (n - 1)
  | _ :: es => firstConn n es

/-- How many connections were made. -/
def connections : List (Ev α) → Nat
  | [] => 0
  | .serve true :: es => connections es + 1
  | _ :: es => connections es

/-- How many calls of `serve` got as far as to start writing, or to fail to. -/
def begun : List (Ev α) → Nat
  | [] => 0
  | .begin :: es => begun es + 1
  | _ :: es => begun es

end Dtn.Spec.ModuleClient
