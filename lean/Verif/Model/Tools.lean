import Verif.Model.Httpd
/-!
Model of the command line tools `bin/dtnrecv.rs`, `bin/dtnsend.rs`, `bin/dtntrigger.rs` and `bin/dtnquery.rs`.

A tool talks to the daemon on the same host; the port, the choice between IPv4 and IPv6 (both loopback) and proxies are left
out. Its outcome is what it prints, the file it writes and its exit code; a panic has exit code 101.
-/

namespace Dtn.Tools
open Httpd

/-! ### URLs

The tools paste their arguments into a URL unchanged (e.g. `bin/dtnrecv.rs:84-114`), which the crate `url` then reads (external;
the WHATWG URL standard). -/

/-- A hexadecimal digit as written in URLs. -/
def hexDigit (n : Nat) : Char := if n < 10 then Char.ofNat (48 + n) else Char.ofNat (55 + n)

/-- `%XX` for a byte. -/
def percentByte (b : UInt8) : List Char := ['%', hexDigit (b.toNat / 16), hexDigit (b.toNat % 16)]

/-- Characters that are written as they are in the query of an `http` URL: all but those of the special-query percent-encode
set. -/
def plainChar (c : Char) : Bool :=
  decide (0x20 < c.toNat) && decide (c.toNat < 0x7f) && !(c == '"' || c == '#' || c == '<' || c == '>' || c == '\'')

/-- How a character appears in a query. -/
def queryChar (c : Char) : List Char := if plainChar c then [c] else (String.utf8EncodeChar c).flatMap percentByte

/-- Spaces and control characters at the end of a URL are dropped. -/
def trimEnd (cs : List Char) : List Char := (cs.reverse.dropWhile fun c => decide (c.toNat ≤ 0x20)).reverse

/-- The query the daemon gets if a tool pastes this text behind the `?` of a URL: tabs and line breaks are dropped, `#` starts
the fragment, which is not sent. -/
def urlQuery (s : String) : String :=
  .ofList ((((trimEnd s.toList).filter fun c => !(c == '\t' || c == '\n' || c == '\r')).takeWhile fun c => !(c == '#')).flatMap queryChar)

/-! ### Outcomes -/

/-- One output on the terminal. -/
inductive Out where
  /-- `println!` -/
  | line (s : String)
  /-- bytes without a line break -/
  | bytes (b : Bytes)
deriving DecidableEq, Repr

/-- What a tool leaves behind. -/
structure Outcome where
  out : List Out := []
  file : Option (String × Bytes) := none
  code : Nat
deriving DecidableEq, Repr

/-- The answer as the HTTP client (crate `attohttpc`, external) sees it: nothing if the connection is closed without an answer,
otherwise status and body. Simplification: the bodies of error answers, which no tool interprets, are the same. -/
def answer : Reply → Option (Nat × Bytes)
  | .ok s => some (200, s.toList.flatMap String.utf8EncodeChar)
  | .data b => some (200, b)
  | .upgraded => some (101, [])
  | .error c => some (c, "error".toList.flatMap String.utf8EncodeChar)
  | .dropped => none

/-- The text of an answer. -/
def answerText : Reply → Option String
  | .ok s => some s
  | .data _ => some "data"
  | .upgraded => some ""
  | .error _ => some "error"
  | .dropped => none

/-- The loopback address the tools connect from. -/
def loopback : IpAddr := .v4 127 0 0 1

/-! ### dtnrecv -/

/-- What is asked of `dtnrecv`, `bin/dtnrecv.rs:24-42`. Exactly one of them is given (checked by `clap`, external). -/
inductive RecvVerb where
  | endpoint (s : String)
  | delete (s : String)
  | register (s : String)
  | unregister (s : String)
  | bid (s : String)
deriving DecidableEq, Repr

/-- `Args`, `bin/dtnrecv.rs:9-55`. -/
structure RecvArgs where
  verb : RecvVerb
  verbose : Bool := false
  hex : Bool := false
  raw : Bool := false
  outfile : Option String := none
deriving DecidableEq, Repr

/-- The URL, `bin/dtnrecv.rs:83-115`: path and text behind the question mark. -/
def RecvVerb.url : RecvVerb → String × String
  | .endpoint s => ("/endpoint", s)
  | .delete s => ("/delete", s)
  | .register s => ("/register", s)
  | .unregister s => ("/unregister", s)
  | .bid s => ("/download", s)

/-- The request, `bin/dtnrecv.rs:116-118`. -/
def RecvVerb.request (v : RecvVerb) : Req :=
  { addr := loopback, method := .get, path := v.url.1, raw := some (urlQuery v.url.2) }

/-- `write_bytes`, `bin/dtnrecv.rs:57-72`; `writable` tells whether the file can be written. -/
def writeBytes (data : Bytes) (file : Option String) (verbose writable : Bool) : Outcome :=
  match file with
  | some f =>
    let out := if verbose then [.line ("Writing to " ++ f)] else []
    if writable then
      { out := out ++ if verbose then [.line ("Wrote " ++ toString data.length ++ " bytes")] else [], file := some (f, data), code := 0 }
    else { out, code := 101 }
  | none => { out := [.bytes data], code := 0 }

/-- The output of a fetched bundle, `bin/dtnrecv.rs:137-155`. -/
def showBundle (x : Ext) (a : RecvArgs) (writable : Bool) (buf : Bytes) : Outcome :=
  if a.hex then { out := [.line (x.hexify buf)], code := 0 }
  else if a.raw then writeBytes buf a.outfile a.verbose writable
  else
    match x.parseBundle buf with
    | none => { code := 101 }
    | some b =>
      match b.canonicals.find? fun c => c.btype = PAYLOAD_BLOCK with
      | none => { code := 101 }
      | some c =>
        match c.data with
        | .data d => writeBytes d a.outfile a.verbose writable
        | _ => { code := 101 }

/-- `main` after the answer, `bin/dtnrecv.rs:116-157`. -/
def recvFinish (x : Ext) (a : RecvArgs) (writable : Bool) (ans : Option (Nat × Bytes)) : Outcome :=
  match ans with
  | none => { code := 101 }
  | some (status, buf) =>
    if status ≠ 200 then { out := if a.verbose then [.line "Unexpected response from server!"] else [], code := 23 }
    else
      match a.verb with
      | .delete s => { out := [.line ("Deleted bundle " ++ s)], code := 0 }
      | .register s => { out := [.line ("Registered endpoint " ++ s)], code := 0 }
      | .unregister s => { out := [.line ("Unregistered endpoint " ++ s)], code := 0 }
      | _ =>
        if buf.length > 50 then showBundle x a writable buf
        else if a.verbose then { out := [.line "Nothing to fetch."], code := 23 }
        else { code := 0 }

/-- `dtnrecv` run beside a daemon that answers, `bin/dtnrecv.rs:73-157`. -/
def dtnrecv (x : Ext) (cfg : Cfg) (w : World) (a : RecvArgs) (writable : Bool) : World × Outcome :=
  ((serve x cfg w a.verb.request).1, recvFinish x a writable (answer (serve x cfg w a.verb.request).2))

/-! ### dtnsend -/

/-- `Args`, `bin/dtnsend.rs:9-43`. -/
structure SendArgs where
  sender : Option String := none
  receiver : String
  infile : Option String := none
  verbose : Bool := false
  dryrun : Bool := false
  lifetime : Nat := 3600
deriving DecidableEq, Repr

/-- What `dtnsend` meets: the answers of the daemon to the questions for its node id and for a creation timestamp (asked through
the crate `dtn7-plus`, external), and the contents of the file or of standard input. -/
structure SendEnv where
  nodeId : Option String
  cts : Option (Nat × Nat)
  input : Option Bytes
deriving DecidableEq, Repr

/-- Functions of the crate `bp7`: those of the daemon, and the id of a bundle. -/
structure SendExt extends Ext where
  bundleId : EID → Nat → Nat → String

/-- The bundle, `bin/dtnsend.rs:90-95`: `new_std_payload_bundle` (crate `bp7`, external) makes a payload block and a hop count
block with limit 32 and sets the report-to address to the source; flags, creation timestamp and lifetime are then set. -/
def sendBundle (x : SendExt) (src dst : EID) (cts : Nat × Nat) (lifetime : Nat) (data : Bytes) : Bundle :=
  { primary :=
      { bid := x.bundleId src cts.1 cts.2
        flags := { reqDelivery := true }
        source := src
        destination := dst
        reportTo := src
        creationTime := cts.1
        seqno := cts.2
        lifetime := lifetime * 1000 }
    canonicals :=
      [{ btype := HOP_COUNT_BLOCK, num := 2, data := .hopCount 32 0 }, { btype := PAYLOAD_BLOCK, num := 1, data := .data data }] }

/-- The sender, `bin/dtnsend.rs:57-66`. -/
def SendArgs.source (x : SendExt) (a : SendArgs) (env : SendEnv) : Option EID :=
  match a.sender with
  | some s => x.parseEid s
  | none =>
    match env.nodeId with
    | none => none
    | some s => x.parseEid s

/-- The posting of the bundle, `bin/dtnsend.rs:105-115`. -/
def sendPostTool (x : SendExt) (cfg : Cfg) (w : World) (b : Bundle) (out : List Out) : World × Outcome :=
  let res := serve x.toExt cfg w { addr := loopback, method := .post, path := "/insert", body := x.toCbor b }
  match answerText res.2 with
  | none => (res.1, { out, code := 101 })
  | some t => (res.1, { out := out ++ [.line ("Result: " ++ t), .line "Time"], code := 0 })

/-- Output before the input is read, `bin/dtnsend.rs:72-75`. -/
def SendArgs.opening (a : SendArgs) : List Out :=
  match a.infile with
  | some f => if a.verbose then [.line ("Sending " ++ f)] else []
  | none => []

/-- Output before the bundle is posted, `bin/dtnsend.rs:86-88,97-101`. -/
def SendArgs.lines (x : SendExt) (a : SendArgs) (data : Bytes) (b : Bundle) : List Out :=
  a.opening ++ (if a.verbose then [.line ("Sending " ++ toString data.length ++ " bytes.")] else []) ++
    [.line ("Bundle-Id: " ++ b.id)] ++ (if a.verbose || a.dryrun then [.line (x.hexify (x.toCbor b))] else [])

/-- `dtnsend`, `bin/dtnsend.rs:45-116`. -/
def dtnsend (x : SendExt) (cfg : Cfg) (w : World) (a : SendArgs) (env : SendEnv) : World × Outcome :=
  match a.source x env with
  | none => (w, { code := 101 })
  | some src =>
    match x.parseEid a.receiver with
    | none => (w, { code := 101 })
    | some dst =>
      match env.cts with
      | none => (w, { code := 101 })
      | some cts =>
        match env.input with
        | none => (w, { out := a.opening, code := 101 })
        | some data =>
          let b := sendBundle x src dst cts a.lifetime data
          if a.dryrun then (w, { out := a.lines x data b, code := 0 }) else sendPostTool x cfg w b (a.lines x data b)

/-! ### dtntrigger -/

/-- `char::is_whitespace` (standard library, used by `split_whitespace` in `bin/dtntrigger.rs:28`). -/
def isSpace (c : Char) : Bool :=
  let n := c.toNat
  decide (9 ≤ n ∧ n ≤ 13) || n == 0x20 || n == 0x85 || n == 0xa0 || n == 0x1680 || decide (0x2000 ≤ n ∧ n ≤ 0x200a) ||
    n == 0x2028 || n == 0x2029 || n == 0x202f || n == 0x205f || n == 0x3000

/-- `split_whitespace`; `cur` is the word being read, backwards. -/
def splitWords : List Char → List Char → List String
  | cur, [] => if cur = [] then [] else [.ofList cur.reverse]
  | cur, c :: cs => if isSpace c then (if cur = [] then splitWords [] cs else .ofList cur.reverse :: splitWords [] cs) else splitWords (c :: cur) cs

/-- The words of a command. -/
def words (s : String) : List String := splitWords [] s.toList

/-- `tungstenite::Message`, or the failure of `read_message`. -/
inductive Msg where
  | text (s : String)
  | binary (b : Bytes)
  | ping
  | pong
  | close
  | frame
  | failed
deriving DecidableEq, Repr

/-- A message, with what the tool meets when handling it: the name of the temporary file, if it can be written, and whether the
command can be started. -/
structure Incoming where
  msg : Msg
  temp : Option String := some "/tmp/t"
  spawn : Bool := true
deriving DecidableEq, Repr

/-- A command that was run: its words and the contents of the file named by the last one. -/
structure Ran where
  argv : List String
  content : Bytes
deriving DecidableEq, Repr

/-- `Args`, `bin/dtntrigger.rs:50-73`, without the endpoint. -/
structure TriggerArgs where
  command : String
  verbose : Bool := false
deriving DecidableEq, Repr

/-- What the tool does after a message: go on, or end with a code. -/
inductive Next where
  | goOn
  | exit (code : Nat)
deriving DecidableEq, Repr

/-- `write_temp_file` and `execute_cmd`, `bin/dtntrigger.rs:11-48`. -/
def execute (a : TriggerArgs) (i : Incoming) (b : Bundle) (data : Bytes) : List Ran × Next :=
  match i.temp with
  | none => ([], .exit 1)
  | some f =>
    match words a.command with
    | [] => ([], .exit 101)
    | ws => if i.spawn then ([⟨ws ++ [b.primary.source.print, f], data⟩], .goOn) else ([], .exit 1)

/-- `Bundle::payload()` of `bp7` (used in `bin/dtntrigger.rs:119`): the contents of the first payload block, if it has data. -/
def payload (b : Bundle) : Option Bytes :=
  match b.canonicals.find? fun c => c.btype = PAYLOAD_BLOCK with
  | some c => match c.data with
    | .data d => some d
    | _ => none
  | none => none

/-- One message, `bin/dtntrigger.rs:108-152`. -/
def onMsg (x : Ext) (a : TriggerArgs) (i : Incoming) : List Ran × Next :=
  match i.msg with
  | .text _ => ([], .exit 0)
  | .binary bin =>
    match x.parseBundle bin with
    | none => ([], .exit 101)
    | some b =>
      if b.isAdmin then ([], .goOn)
      else match payload b with
        | some d => execute a i b d
        | none => if a.verbose then ([], .exit 0) else ([], .goOn)
  | .ping => ([], .goOn)
  | .pong => ([], .goOn)
  | .close => ([], .exit 0)
  | .frame => ([], .goOn)
  | .failed => ([], .exit 1)

/-- The loop, `bin/dtntrigger.rs:107-154`: the commands run, and the exit code unless the tool waits for another message. -/
def triggerLoop (x : Ext) (a : TriggerArgs) : List Incoming → List Ran × Option Nat
  | [] => ([], none)
  | i :: is =>
    match onMsg x a i with
    | (rs, .exit code) => (rs, some code)
    | (rs, .goOn) => (rs ++ (triggerLoop x a is).1, (triggerLoop x a is).2)

/-- What `dtntrigger` meets before its loop: whether the endpoint could be registered and the web socket opened, and the answers
to `/bundle` and `/subscribe`. -/
structure Handshake where
  registered : Bool
  opened : Bool
  mode : Option String
  subscribed : Option String
deriving DecidableEq, Repr

/-- `dtntrigger`, `bin/dtntrigger.rs:74-155`. -/
def dtntrigger (x : Ext) (a : TriggerArgs) (h : Handshake) (is : List Incoming) : List Ran × Option Nat :=
  if !h.registered || !h.opened then ([], some 1)
  else match h.mode with
    | none => ([], some 1)
    | some m =>
      if !"200 tx mode: bundle".toList.isPrefixOf m.toList then ([], some 1)
      else match h.subscribed with
        | none => ([], some 1)
        | some m => if !"200 subscribed".toList.isPrefixOf m.toList then ([], some 1) else triggerLoop x a is

/-! ### dtnquery -/

/-- `Commands`, `bin/dtnquery.rs:21-45`. -/
inductive QueryCmd where
  | eids
  | peers
  | bundles (verbose digest : Bool) (addr : Option String)
  | store
  | info
  | nodeid
deriving DecidableEq, Repr

/-- The line printed first, the path, and the text behind the question mark, `bin/dtnquery.rs:58-102`. -/
def QueryCmd.url : QueryCmd → String × String × Option String
  | .eids => ("Listing registered endpoint IDs:", "/status/eids", none)
  | .peers => ("Listing of known peers:", "/status/peers", none)
  | .bundles verbose digest addr =>
    ("Listing of bundles in store:",
      if verbose then ("/status/bundles/verbose", none)
      else match addr with
        | some ad =>
          if digest then ("/status/bundles/filtered/digest", some ("addr=" ++ ad))
          else ("/status/bundles/filtered", some ("addr=" ++ ad))
        | none => if digest then ("/status/bundles/digest", none) else ("/status/bundles", none))
  | .store => ("Listing of bundles status in store:", "/status/store", none)
  | .info => ("Daemon info:", "/status/info", none)
  | .nodeid => ("Local node ID:", "/status/nodeid", none)

/-- What the daemon is asked: path and query. -/
def QueryCmd.asks (c : QueryCmd) : String × Option String := (c.url.2.1, c.url.2.2.map urlQuery)

/-- `dtnquery`, `bin/dtnquery.rs:47-109`, with the text the daemon answers, if any, whatever its status. -/
def dtnquery (c : QueryCmd) (ans : Option String) : Outcome :=
  match ans with
  | none => { out := [.line c.url.1], code := 101 }
  | some t => { out := [.line c.url.1, .line t], code := 0 }

/-- The value of a hexadecimal digit. -/
def hexValue (c : Char) : Option Nat :=
  let n := c.toNat
  if 48 ≤ n ∧ n ≤ 57 then some (n - 48)
  else if 65 ≤ n ∧ n ≤ 70 then some (n - 55)
  else if 97 ≤ n ∧ n ≤ 102 then some (n - 87)
  else none

/-- Decoding of one key or value of a query by `axum`'s `Query` extractor (crate `form_urlencoded`, external; used in
`dtnd/httpd.rs:269,280`): `+` is a space and `%XX` a byte; the result is in UTF-8. -/
def formDecode : List Char → Bytes
  | [] => []
  | '+' :: cs => 32 :: formDecode cs
  | '%' :: c :: d :: cs =>
    match hexValue c, hexValue d with
    | some h, some l => (UInt8.ofNat (16 * h + l)) :: formDecode cs
    | _, _ => 37 :: formDecode (c :: d :: cs)
  | c :: cs => String.utf8EncodeChar c ++ formDecode cs
termination_by cs => cs.length

/-- The pieces of a query, cut at `&`; `cur` is the piece being read, backwards. -/
def formPieces : List Char → List Char → List (List Char)
  | cur, [] => [cur.reverse]
  | cur, c :: cs => if c = '&' then cur.reverse :: formPieces [] cs else formPieces (c :: cur) cs

/-- A piece as key and value, cut at the first `=`. -/
def formPair (cs : List Char) : Bytes × Bytes :=
  (formDecode (cs.takeWhile (· ≠ '=')), formDecode ((cs.dropWhile (· ≠ '=')).drop 1))

/-- The value of a key in a query; of several the last one counts, as they are collected in a map. -/
def formValue (key : String) (query : String) : Option Bytes :=
  ((((formPieces [] query.toList).filter (· ≠ [])).map formPair).reverse.find? fun p =>
    p.1 = key.toList.flatMap String.utf8EncodeChar).map (·.2)

end Dtn.Tools
