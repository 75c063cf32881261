import Verif.Model.Digest
import Verif.Model.MemStore
import Verif.Model.Peer
/-! Model of the pulling convergence layer, `cla/httppull.rs`. -/

namespace Dtn.HttpPull

/-- Outcome of one HTTP request of the puller: an error of `send()`, a body that cannot be read as asked (`text().unwrap()`
or `bytes().unwrap()` panics), or a body. -/
inductive Resp (α : Type) where
  | err
  | garbled
  | body (a : α)
deriving DecidableEq, Repr

/-- What a remote node answers during a round. A list that is not a JSON list of strings is `none`; `download` gets the
position of the request, so that equal requests may be answered differently. -/
structure Remote where
  digest : Resp String
  list : Resp (Option (List String))
  download : Nat → String → Resp Bytes

/-- Requests sent to a remote node. -/
inductive Request where
  | digest
  | list
  | download (bid : String)
deriving DecidableEq, Repr

/-- `TransferResult` of a round, or a panic inside the blocking task, which `unwrap` passes on (`cla/httppull.rs:112-113`). -/
inductive Result where
  | successful
  | failure
  | panic
deriving DecidableEq, Repr

/-- Everything a round did: the requests in order, the bundles given to `receive` (each in its own task), the number of
unreadable bundles counted, and the result. -/
structure Trace where
  requests : List Request := []
  received : List Bundle := []
  broken : Nat := 0
  result : Result := .successful
deriving DecidableEq, Repr

/-- The download loop, `cla/httppull.rs:77-102`; `i` is the position. -/
def fetch (parse : Bytes → Option Bundle) (download : Nat → String → Resp Bytes) : Nat → List String → Trace
  | _, [] => {}
  | i, bid :: rest =>
    match download i bid with
    | .err => { requests := [.download bid], result := .failure }
    | .garbled => { requests := [.download bid], result := .panic }
    | .body bytes =>
      let t := fetch parse download (i + 1) rest
      match parse bytes with
      | none => { t with requests := .download bid :: t.requests, broken := t.broken + 1 }
      | some b => { t with requests := .download bid :: t.requests, received := b :: t.received }

/-- `http_pull_from_node`, `cla/httppull.rs:24-114`; `has` is `store_has_item`. Simplification: the store is read at one
moment. Ids are taken to pass through the URL unchanged. -/
def pullFromNode (parse : Bytes → Option Bundle) (has : String → Bool) (localDigest : String) (r : Remote) : Trace :=
  match r.digest with
  | .err => { requests := [.digest], result := .failure }
  | .garbled => { requests := [.digest], result := .panic }
  | .body digest =>
    if digest = localDigest ∨ digest.utf8ByteSize ≠ 40 then { requests := [.digest] }
    else match r.list with
      | .err => { requests := [.digest, .list], result := .failure }
      | .garbled => { requests := [.digest, .list], result := .panic }
      | .body none => { requests := [.digest, .list], result := .panic }
      | .body (some bids) =>
        let t := fetch parse r.download 0 (bids.filter fun bid => !has bid)
        { t with requests := .digest :: .list :: t.requests }

/-- The port used for a peer, `cla/httppull.rs:124-132`. -/
def portOf (claList : List (String × Option Nat)) : Nat :=
  match claList with
  | [] => 3000
  | (name, port) :: rest =>
    if name = "httppull" then match port with
      | some p => p
      | none => portOf rest
    else portOf rest

/-- One peer of a round: where it is asked and what it answers there. -/
structure Target where
  addr : String
  claList : List (String × Option Nat)
  remote : Remote

/-- `http_pull_bundles`, `cla/httppull.rs:115-143`: the rounds with the single peers and whether the puller is still alive
afterwards. Without parallel processing a panic ends the puller; with it, it ends the peer's own task only. -/
def pullAll (parse : Bytes → Option Bundle) (has : String → Bool) (localDigest : String) (parallel : Bool) :
    List Target → List (String × Nat × Trace) × Bool
  | [] => ([], true)
  | t :: ts =>
    let tr := pullFromNode parse has localDigest t.remote
    let entry := (t.addr, portOf t.claList, tr)
    if tr.result = .panic ∧ parallel = false then ([entry], false)
    else
      let rest := pullAll parse has localDigest parallel ts
      (entry :: rest.1, rest.2)

/-- `http_puller_loop`, `cla/httppull.rs:145-161`, over a sequence of rounds: each round comes with the store and digest it
meets and with the peers. A dead puller does nothing. -/
def loop (parse : Bytes → Option Bundle) (parallel : Bool) :
    List ((String → Bool) × String × List Target) → List (List (String × Nat × Trace))
  | [] => []
  | (has, d, ts) :: rounds =>
    let r := pullAll parse has d parallel ts
    r.1 :: if r.2 then loop parse parallel rounds else []

/-- The answers of a node that runs this code with the in-memory store: `status_bundles_digest`, `status_bundles` and
`download`, `dtnd/httpd.rs:247-255,295-297,714-727`. -/
def serving (sha1 : List Char → String) (toCbor : Bundle → Bytes) (notFound : Bytes) (s : MemStore) : Remote :=
  { digest := .body (Digest.complete sha1 s.packs)
    list := .body (some ((s.packs.filter fun p => !p.has .deleted).map Pack.id))
    download := fun _ bid => match s.getBundle bid with
      | some b => .body (toCbor b)
      | none => .body notFound }

end Dtn.HttpPull
