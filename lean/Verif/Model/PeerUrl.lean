import Verif.Model.Peer
import Verif.Model.Routing.Static
/-! Model of `parse_peer_url`, `core/helpers.rs`. -/

namespace Dtn.PeerUrl

/-- The parts of `url::Url` that are read. -/
structure Url where
  scheme : List Char
  host : Option (List Char)
  port : Option Nat
  path : List Char
deriving DecidableEq, Repr

def isAlpha (c : Char) : Bool := ('a' ≤ c && c ≤ 'z') || ('A' ≤ c && c ≤ 'Z')
def isDigit (c : Char) : Bool := '0' ≤ c && c ≤ '9'

/-- Characters of a scheme. -/
def schemeChar (c : Char) : Bool := isAlpha c || isDigit c || c = '+' || c = '-' || c = '.'

/-- The schemes to which the URL standard gives a default port and case-insensitive hosts. -/
def defaultPort (scheme : List Char) : Option Nat :=
  if scheme = "http".toList ∨ scheme = "ws".toList then some 80
  else if scheme = "https".toList ∨ scheme = "wss".toList then some 443
  else if scheme = "ftp".toList then some 21
  else none

/-- The text behind the host: nothing, or a colon and a port number. `none` is an error. -/
def portText : List Char → Option (Option Nat)
  | [] => some none
  | c :: s =>
    if c = ':' then
      if s = [] then some none
      else match Routing.StaticRouting.digits 0 s with
        | some n => if n ≤ 65535 then some (some n) else none
        | none => none
    else none

/-- Host and the text behind it. An IPv6 address stands in brackets, which belong to the host (`host_str`). -/
def splitHost (auth : List Char) : List Char × List Char :=
  match auth with
  | '[' :: _ => (auth.takeWhile (· ≠ ']') ++ [']'], (auth.dropWhile (· ≠ ']')).tail)
  | _ => (auth.takeWhile (· ≠ ':'), auth.dropWhile (· ≠ ':'))

/-- Authority and path of a URL, behind `//`. -/
def Url.authority (scheme rest : List Char) : Option Url :=
  let auth := rest.takeWhile fun c => c ≠ '/' && c ≠ '?' && c ≠ '#'
  let path := (rest.dropWhile fun c => c ≠ '/' && c ≠ '?' && c ≠ '#').takeWhile fun c => c ≠ '?' && c ≠ '#'
  let auth := (auth.reverse.takeWhile (· ≠ '@')).reverse
  let hp := splitHost auth
  match portText hp.2 with
  | none => none
  | some port =>
    let isSpecial := (defaultPort scheme).isSome
    if hp.1 = [] then
      if isSpecial || !hp.2.isEmpty then none else some { scheme, host := none, port := none, path }
    else
      some { scheme
             host := some (if isSpecial then hp.1.map Char.toLower else hp.1)
             port := if port = defaultPort scheme then none else port
             path := if isSpecial && path.isEmpty then ['/'] else path }

/-- Scheme, authority and path as in the URL standard (`Url::parse`, called in `core/helpers.rs:92,100`). The default port of the
scheme is dropped; schemes with a default port need no `//` and may have more slashes. Simplification: this describes texts of
plain characters (letters, digits, `-._~` and the delimiters); the crate also encodes other characters, resolves the path
segments `.` and `..`, and rewrites numeric hosts of `http` URLs. -/
def Url.parse (s : List Char) : Option Url :=
  let scheme := s.takeWhile schemeChar
  match s.dropWhile schemeChar with
  | ':' :: rest =>
    if (scheme.head?.map isAlpha).getD false then
      let scheme := scheme.map Char.toLower
      if (defaultPort scheme).isSome then Url.authority scheme (rest.dropWhile (· = '/'))
      else match rest with
        | '/' :: '/' :: rest => Url.authority scheme rest
        | _ => some { scheme, host := none, port := none, path := rest.takeWhile fun c => c ≠ '?' && c ≠ '#' }
    else none
  | _ => none

/-- `CLAsAvailable::from_str`: the names given to the macro `cla` in `cla/*.rs` (`codegen/src/cla.rs`). -/
def isCla (s : List Char) : Bool :=
  s ∈ ["dummy".toList, "external".toList, "http".toList, "httppull".toList, "mtcp".toList, "tcp".toList, "udp".toList]

/-- The parts of a text between dots. -/
def splitDots : List Char → List (List Char)
  | [] => [[]]
  | c :: s =>
    if c = '.' then [] :: splitDots s
    else match splitDots s with
      | [] => [[c]]
      | p :: ps => (c :: p) :: ps

/-- A number from 0 to 255 without leading zeros. -/
def isOctet (s : List Char) : Bool :=
  s ≠ [] && s.length ≤ 3 && (s.head? ≠ some '0' || s.length = 1) &&
    (match Routing.StaticRouting.digits 0 s with
     | some n => n ≤ 255
     | none => false)

/-- `parse::<IpAddr>` (called in `core/helpers.rs:128`) for a host of a URL. The host of a URL is never the bare text of an IPv6
address: these stand in brackets. -/
def isIpv4 (s : List Char) : Bool := (splitDots s).length = 4 && (splitDots s).all isOctet

/-- The errors of `ParsePeerUrlError`, `core/helpers.rs:51-61`, and success. -/
inductive Result where
  | ok (p : Peer)
  | invalidUrl
  | invalidNodeId
  | noSuchCla (scheme : String)
  | unknown
deriving DecidableEq, Repr

/-- The part of `parse_peer_url` after `Url::parse`, `core/helpers.rs:109-153`. `now` is the time `DtnPeer::new` notes. -/
def ofUrl (parseEid : String → Option EID) (now : Nat) (external : Bool) (u : Url) : Result :=
  if !external && !isCla u.scheme then .noSuchCla (String.ofList u.scheme)
  else match u.host with
    | none => .invalidUrl
    | some host =>
      if u.path = ['/'] || u.path = [] then .invalidNodeId
      else
        let addr := if isIpv4 host then PeerAddress.ipv4 (String.ofList host) else .generic (String.ofList host)
        let nodeid := u.path.filter (· ≠ '/')
        let eidStr := if nodeid.all isDigit then "ipn:".toList ++ nodeid ++ ".0".toList else "dtn://".toList ++ nodeid ++ "/".toList
        match parseEid (String.ofList eidStr) with
        | some eid => .ok (Peer.new now eid addr .static none [(String.ofList u.scheme, u.port)])
        | none => .unknown

/-- `parse_peer_url`, `core/helpers.rs:89-154`. -/
def parsePeerUrl (parseEid : String → Option EID) (now : Nat) (s : List Char) : Result :=
  let external := "ecla+".toList.isPrefixOf s
  match Url.parse (if external then s.drop 5 else s) with
  | none => .invalidUrl
  | some u => ofUrl parseEid now external u

end Dtn.PeerUrl
