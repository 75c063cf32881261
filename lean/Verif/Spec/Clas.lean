import Verif.Model.Clas
import Verif.Model.Peer
import Verif.Spec.Mtcp
/-! Specification of the convergence layers. -/

namespace Dtn.Spec.ClasSpec
open Dtn.Clas

variable {A : Type} [DecidableEq A]

/-- `s` is the state of a layer after the events `evs`. -/
def After (k : Kind) (net : Sock A) (evs : List Ev) (s : State A) : Prop := run k net {} evs = some s

/-- What the caller of transfer `i` was told. -/
def answer (s : State A) (i : Nat) : Option Answer :=
  match s.reqs[i]? with
  | some { pc := .done ans, .. } => some ans
  | _ => none

/-- Transfer `i` was asked for, to this destination and with these bytes. -/
def Asked (s : State A) (i : Nat) (dest : String) (data : Bytes) : Prop :=
  ∃ r, s.reqs[i]? = some r ∧ r.dest = dest ∧ r.data = data

/-- Neither a new transfer nor a shutdown. -/
def Internal : Ev → Prop
  | .request _ _ | .shutdown => False
  | _ => True

/-- Nothing more happens unless somebody asks for something. -/
def Quiet (k : Kind) (net : Sock A) (s : State A) : Prop := ∀ e, Internal e → step k net s e = none

/-- Transfer `i` is neither waiting in the channel nor answered. -/
def Busy (s : State A) (i : Nat) : Prop := ∃ r, s.reqs[i]? = some r ∧ r.pc ≠ .queued ∧ ∀ ans, r.pc ≠ .done ans

/-- The destination of transfer `i` is the address `a`. -/
def Towards (net : Sock A) (s : State A) (i : Nat) (a : A) : Prop := ∃ r, s.reqs[i]? = some r ∧ net.parse r.dest = some a

/-- At no time two transfers to the same address are under way. -/
def OneByOne (k : Kind) (net : Sock A) (evs : List Ev) : Prop :=
  ∀ pre s, pre <+: evs → After k net pre s → ∀ i j a, Busy s i → Busy s j → Towards net s i a → Towards net s j a → i = j

/-- The bytes of the transfers in `l`. -/
def contents (s : State A) (l : List Nat) : List Bytes := l.map fun i => ((s.reqs[i]?).map Req.data).getD []

/-- The transfers handed completely to connection `c`, in order. -/
def handedTo (s : State A) (c : Nat) : List Nat := (s.handed.filter fun x => x.2 = c).map Prod.fst

/-- Known about the textual form of socket addresses: IPv6 addresses stand in brackets; otherwise there are numbers, dots and
exactly one colon. -/
def SockText (net : Sock A) : Prop :=
  ∀ s a, net.parse s = some a → s.toList.head? = some '[' ∨
    (s.toList.count ':' = 1 ∧ ∀ c ∈ s.toList, c = ':' ∨ c = '.' ∨ ('0' ≤ c ∧ c ≤ '9'))

end Dtn.Spec.ClasSpec
