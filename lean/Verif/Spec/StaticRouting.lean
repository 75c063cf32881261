import Verif.Model.Routing.Static
import Verif.Spec.Routing
import Verif.Spec.White
/-! Specification of static routing: what a routes file means and which route applies. -/

namespace Dtn.Spec
open Routing

/-- A blank character: white space of Unicode. -/
def Blank (c : Char) : Prop := White c

/-- Blanks only. -/
def Blanks (l : List Char) : Prop := ∀ c ∈ l, Blank c

/-- A non-empty word without blanks. -/
def IsWord (l : List Char) : Prop := l ≠ [] ∧ ∀ c ∈ l, ¬ Blank c

/-- An unsigned decimal number below 65536, optionally with a plus sign. -/
def Denotes (text : List Char) (n : Nat) : Prop :=
  ∃ ds, (text = ds ∨ text = '+' :: ds) ∧ ds ≠ [] ∧ (∀ c ∈ ds, '0' ≤ c ∧ c ≤ '9') ∧
    n = Nat.ofDigitChars 10 ds 0 ∧ n < 65536

/-- An empty line or a comment. -/
def IsComment (line : List Char) : Prop := Blanks line ∨ ∃ pad rest, Blanks pad ∧ line = pad ++ '#' :: rest

/-- A line `index source destination via`, separated by blanks; anything may follow after a blank. -/
def IsRouteLine (line : List Char) (r : Route) : Prop :=
  ∃ p0 idx p1 src p2 dst p3 via rest,
    line = p0 ++ idx ++ p1 ++ src ++ p2 ++ dst ++ p3 ++ via ++ rest ∧
    Blanks p0 ∧ Blanks p1 ∧ p1 ≠ [] ∧ Blanks p2 ∧ p2 ≠ [] ∧ Blanks p3 ∧ p3 ≠ [] ∧
    IsWord idx ∧ IsWord src ∧ IsWord dst ∧ IsWord via ∧ (∀ c, rest.head? = some c → Blank c) ∧
    Denotes idx r.idx ∧ r.src = String.ofList src ∧ r.dst = String.ofList dst ∧ r.via = String.ofList via

/-- The routes a file lists, in the order of its lines. -/
inductive FileMeans : List (List Char) → List Route → Prop where
  | nil : FileMeans [] []
  | comment {line lines rs} : IsComment line → FileMeans lines rs → FileMeans (line :: lines) rs
  | route {line lines r rs} : IsRouteLine line r → FileMeans lines rs → FileMeans (line :: lines) (r :: rs)

/-- The routes file in force after a history: the one given at the start or with the last reload. -/
def fileInForce (file : Option (List (List Char))) (ops : List StaticRouting.Op) : Option (List (List Char)) :=
  ops.foldl (fun f op =>
    match op with
    | .command cmd (some lines) => if cmd = "reload" then some lines else f
    | _ => f) file

/-- The routes in force. -/
def RoutesInForce (file : Option (List (List Char))) (ops : List StaticRouting.Op) (rs : List Route) : Prop :=
  match fileInForce file ops with
  | none => rs = []
  | some lines => FileMeans lines rs

/-- The route matches the bundle and its via is a usable neighbour. -/
def Applies (glob : String → String → Bool) (peers : List Peer) (running : List Cla) (bp : Pack) (r : Route) : Prop :=
  glob r.src bp.source.print = true ∧ glob r.dst bp.destination.print = true ∧
    ∃ p ∈ peers, p.eid.print = r.via ∧ Usable running p

/-- `r` is the first route that applies. -/
def FirstRoute (glob : String → String → Bool) (peers : List Peer) (running : List Cla) (bp : Pack)
    (rs : List Route) (r : Route) : Prop :=
  ∃ pre post, rs = pre ++ r :: post ∧ Applies glob peers running bp r ∧
    ∀ r' ∈ pre, ¬ Applies glob peers running bp r'

/-- The packs the router is asked for. -/
def asked : List StaticRouting.Op → List Pack
  | [] => []
  | .request _ _ bp :: ops => bp :: asked ops
  | _ :: ops => asked ops

end Dtn.Spec
