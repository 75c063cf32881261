import Verif.Model.Status
import Verif.Model.RouterJson
/-! Model of the web pages of the daemon, `dtnd/httpd.rs:143-247` with the templates in `webroot`. -/

namespace Dtn.WebPages

/-- A character of a value as `tinytemplate::format` (external, the formatter used in `webroot` unless another is named) writes it. -/
def escapeChar (c : Char) : List Char :=
  if c = '<' then "&lt;".toList
  else if c = '>' then "&gt;".toList
  else if c = '&' then "&amp;".toList
  else if c = '\'' then "&#39;".toList
  else if c = '"' then "&quot;".toList
  else [c]

/-- `tinytemplate::escape` (external). -/
def escape (s : String) : List Char := s.toList.flatMap escapeChar

/-- A part of a page: text of the template, a value, or what the formatter `dump_json` of `dtnd/httpd.rs:176-184` writes. -/
inductive Part where
  | text (s : String)
  | value (s : String)
  | raw (cs : List Char)

/-- The characters of a part. -/
def Part.chars : Part → List Char
  | .text s => s.toList
  | .value s => escape s
  | .raw cs => cs

/-- `TinyTemplate::render` (external) of a template whose loops have been carried out. -/
def render (ps : List Part) : List Char := ps.flatMap Part.chars

/-- What the pages show besides `Status.View`: the settings `nodeid` and `routing`, the names of the convergence layers
(`lib.rs:83-91`), the three intervals as `humantime` (external) writes them, `STORE.count()` (`core/mod.rs:97-99`), the time in seconds;
and how `humansize` and `humantime` (external) write sizes and durations in seconds. -/
structure Web where
  nodeid : String
  routing : String
  clas : List String
  janitor : String
  announcement : String
  timeout : String
  count : Nat
  now : Nat
  size : Nat → String
  duration : Nat → String

/-- `Serialize` of `PeerType`, derived from `core/peer.rs:11-14`. -/
def typeName : PeerType → String
  | .static => "Static"
  | .dynamic => "Dynamic"

/-- `time_since`, `dtnd/httpd.rs:194-199`. -/
def lastSeen (w : Web) (p : Peer) : String := if p.conType = .dynamic then w.duration (Peer.sinceContact w.now p.lastContact) else "n/a"

/-- `index`, `dtnd/httpd.rs:143-169`, and `webroot/index.html`. -/
def index (x : Status.Ext) (w : Web) (v : Status.View) : List Part :=
  [.text "<html>\n\n<head>\n    <style>\n        body { font-family: monospace;\n        }\n\n        .block { margin: 4px;\n        }\n    </style>\n    <title>dtn7: ",
    .value w.nodeid,
    .text "</title>\n</head>\n\n<body>\n    <h1>dtn7 local node: <a href=\"/\">",
    .value w.nodeid,
    .text "</a></h1>\n\n    <div class=\"block\">\n        <h2>Configuration</h2>\n        <div class=\"block\">\n            <p>Routing: ",
    .value w.routing,
    .text "</p>\n            <p>CLAs: "] ++
  (w.clas.flatMap fun cla => [.text " ",
    .value cla,
    .text " "]) ++
  [.text "</p>\n            <p>Janitor Interval: ",
    .value w.janitor,
    .text "</p>\n            <p>Announcement Interval: ",
    .value w.announcement,
    .text "</p>\n            <p>Peer-Timeout: ",
    .value w.timeout,
    .text "</p>\n        </div>\n    </div>\n\n    <div class=\"block\">\n        <h2><a href=\"/peers\">Peers</a></h2>\n        <div class=\"block\">\n            <p>Recent neighbours: ",
    .value (toString v.peers.length),
    .text "</p>\n        </div>\n    </div>\n\n    <div class=\"block\">\n        <h2><a href=\"/bundles\">Bundles</a></h2>\n        <div class=\"block\">\n            <p>Stored: ",
    .value (toString w.count),
    .text "</p>\n            <p>Hash: ",
    .value (Digest.complete x.sha1 v.packs),
    .text "</p>\n        </div>\n    </div>\n</body>\n\n</html>"]

/-- `web_peers`, `dtnd/httpd.rs:172-218`, and `webroot/peers.html`. -/
def peers (w : Web) (v : Status.View) : List Part :=
  [.text "<html>\n\n<head>\n    <style>\n        body { font-family: monospace;\n        }\n\n        .block { margin: 4px;\n        }\n    </style>\n    <title>dtn7: ",
    .value w.nodeid,
    .text "</title>\n</head>\n\n<body>\n    <h1>dtn7 local node: <a href=\"/\">",
    .value w.nodeid,
    .text "</a></h1>\n\n    <div class=\"block\">\n        <h2>Peers</h2>\n        <div class=\"block\">\n            <table margin=\"4px\">\n                <tr>\n                    <th width=\"40%\" align=\"left\">Name</th>\n                    <th width=\"10%\" align=\"left\">Type</th>\n                    <th width=\"10%\" align=\"left\">Addr</th>\n                    <th width=\"20%\" align=\"left\">Last Seen</th>\n                </tr>\n                "] ++
  (v.peers.flatMap fun p => [.text "\n                <tr>\n                    <td>",
    .value p.2.peer.eid.print,
    .text "</td>\n                    <td>",
    .value (typeName p.2.peer.conType),
    .text "</td>\n                    <td>",
    .raw (Serde.chars (RouterJson.addrValue p.2.peer.addr)),
    .text "</td>\n                    <td>",
    .value (lastSeen w p.2.peer),
    .text "</td>\n                </tr>\n                "]) ++
  [.text "\n            </table>\n        </div>\n    </div>\n</body>\n\n</html>"]

/-- `web_bundles`, `dtnd/httpd.rs:221-247`, and `webroot/bundles.html`. -/
def bundles (x : Status.Ext) (w : Web) (v : Status.View) : List Part :=
  [.text "<html>\n\n<head>\n    <style>\n        body { font-family: monospace;\n        }\n\n        .block { margin: 4px;\n        }\n    </style>\n    <title>dtn7: ",
    .value w.nodeid,
    .text "</title>\n</head>\n\n<body>\n    <h1>dtn7 local node: <a href=\"/\">",
    .value w.nodeid,
    .text "</a></h1>\n\n    <div class=\"block\">\n        <h2>Bundles (",
    .value (Digest.complete x.sha1 v.packs),
    .text ")</h2>\n        <div class=\"block\">\n            <table margin=\"4px\">\n                <tr>\n                    <th width=\"40%\" align=\"left\">Bundle ID</th>\n                    <th width=\"40%\" align=\"left\">Size</th>\n                </tr>\n                "] ++
  ((v.packs.filter fun b => !b.has .deleted).flatMap fun b => [.text "\n                <tr>\n                    <td><a href=\"/download?",
    .value b.id,
    .text "\">",
    .value b.id,
    .text "</a></td>\n                    <td>",
    .value (w.size b.size),
    .text "</td>\n                </tr>\n                "]) ++
  [.text "\n            </table>\n        </div>\n    </div>\n</body>\n\n</html>"]

end Dtn.WebPages
