"""Regenerates the generated sections at the end of DESIGN.md: what is modelled of each source file, the
disagreements between code and properties, and the axioms of every theorem in MANIFEST.json.
Run after `lake build`; needs `lake` for the axioms."""
import collections, glob, json, os, re, subprocess, tempfile

ROOT = "/verif"
MARK = "<!-- generated by tools/gen_design.py -->"
SRC = "/repo/core/dtn7/src/"

# what is left out, per source file (besides logging, `Display`, help texts and trivial accessors)
LEFT_OUT = {
    "examples/dtnecla_connect_n.rs": "the option parser and log output; a client address that is not `ip:port` (the task panics)",
    "examples/dtnecla_mtcp.rs": "the option parser and log output; failures of `bind`, `accept` and `try_clone` (panics); bytes that TCP accepts but never delivers",
    "examples/dtnecla_json_mtcp.rs": "as for `dtnecla_mtcp.rs`; the JSON text of packets (a parameter)",
    "bin/dtnd.rs": "the logger, daemonisation, help and version output of the option parser",
    "bin/dtnquery.rs": "the HTTP transport below the request; terminal output beyond the printed text",
    "bin/dtnrecv.rs": "the HTTP transport below the request",
    "bin/dtnsend.rs": "the HTTP transport below the request; reading of the clock is a parameter",
    "bin/dtntrigger.rs": "the web socket transport; the operating system's file and process functions are parameters",
    "cla/dummy.rs": "nothing else",
    "cla/ecla/mod.rs": "nothing else",
    "cla/ecla/processing.rs": "nothing else",
    "cla/ecla/tcp.rs": "accept errors of the operating system",
    "cla/ecla/ws.rs": "the web socket handshake",
    "cla/ecla/ws_client.rs": "the web socket handshake",
    "cla/external.rs": "nothing else",
    "cla/http.rs": "the HTTP transport below request and response",
    "cla/httppull.rs": "the HTTP transport below request and response",
    "cla/mod.rs": "help texts (generated by the `cla` macro)",
    "cla/mtcp.rs": "`send_bundles` and `MPDU::new` for several bundles, which nothing calls",
    "cla/tcp/mod.rs": "TCP itself: connections are reliable byte streams that may end at any time",
    "cla/tcp/net.rs": "nothing else",
    "cla/tcp/proto.rs": "nothing else",
    "cla/udp.rs": "datagrams may be lost; fragmentation by the network",
    "client/data.rs": "a re-export", "client/ecla.rs": "a re-export", "client/erouting.rs": "a re-export",
    "client/mod.rs": "a re-export",
    "core/application_agent.rs": "nothing else",
    "core/bundlepack.rs": "CBOR texts of records that no node writes (further keys, numbers as keys)",
    "core/helpers.rs": "`rnd_peer` (random test data)",
    "core/mod.rs": "nothing else",
    "core/peer.rs": "nothing else",
    "core/processing.rs": "the channel in front of `send_bundle` (`send_through_task`, `sender_task`) only delays a call and "
                          "is covered by calls starting at any time; measuring of processing times",
    "core/store/mem.rs": "nothing else",
    "core/store/mod.rs": "nothing else",
    "core/store/sled.rs": "sled's own files",
    "core/store/sneakers.rs": "opening (`new`); directory and database of the crate `d7sneakers` are parameters",
    "dtnconfig.rs": "the TOML parser (its result is the input of the model)",
    "dtnd/cron.rs": "the length of the intervals (a timer fires at some later time)",
    "dtnd/daemon.rs": "the disabled code in comments",
    "dtnd/httpd.rs": "routing inside `axum`",
    "dtnd/janitor.rs": "nothing else",
    "dtnd/mod.rs": "a re-export",
    "dtnd/ws.rs": "the web socket handshake",
    "examples/dtnecho2.rs": "the option parser, printing; the web socket is two queues of messages; encoding of requests is a parameter",
    "examples/dtnping.rs": "the option parser, the set-up of the connection, payload and encoding of the pings; printing is what is reported",
    "examples/dtnerouting.rs": "the web socket transport, the option parser; packets are decoded already",
    "ipnd/beacon.rs": "nothing else",
    "ipnd/mod.rs": "a re-export",
    "ipnd/neighbour_discovery.rs": "socket options and joining of multicast groups",
    "ipnd/services.rs": "nothing else",
    "lib.rs": "nothing else",
    "routing/epidemic.rs": "nothing else", "routing/erouting/mod.rs": "packets and structures given as JSON lists; the text of bundles and reading of endpoint ids (crate `bp7`)",
    "routing/erouting/processing.rs": "the web socket handshake",
    "routing/erouting/ws_client.rs": "the web socket handshake",
    "routing/external.rs": "nothing else", "routing/flooding.rs": "nothing else", "routing/mod.rs": "nothing else",
    "routing/sink.rs": "nothing else", "routing/sprayandwait.rs": "nothing else",
    "routing/static_routing.rs": "the glob matcher is a parameter; notifications are only logged",
}


def coverage():
    files = sorted(os.path.relpath(f, SRC) for f in glob.glob(SRC + "**/*.rs", recursive=True))
    mods = collections.defaultdict(set)
    for m in glob.glob(ROOT + "/lean/Verif/Model/**/*.lean", recursive=True):
        name = os.path.relpath(m, ROOT + "/lean/Verif/Model/")[:-5]
        for x in re.finditer(r"([A-Za-z_0-9/]+\.rs)", open(m).read()):
            c = [g for g in files if g == x.group(1) or g.endswith("/" + x.group(1))]
            if len(c) == 1:
                mods[c[0]].add(name)
    out = ["## What is modelled, file by file", "",
           "Paths of the source are relative to `/repo/core/dtn7/src`, those of examples to `/repo`. Logging, `Display`,",
           "help texts and trivial accessors are left out everywhere. Not modelled at all: examples that are not in the",
           "table or not in Rust, `/repo/core/codegen` (its one",
           "macro registers convergence layers; its result is written out in `Model/Setup.lean`), `/repo/fuzz` and tests.",
           "", "| source | model | left out |", "|---|---|---|"]
    for f in sorted(glob.glob("/repo/examples/*.rs")):
        f = os.path.relpath(f, "/repo")
        for m in glob.glob(ROOT + "/lean/Verif/Model/**/*.lean", recursive=True):
            if f in open(m).read():
                mods[f].add(os.path.relpath(m, ROOT + "/lean/Verif/Model/")[:-5])
        if mods[f]:
            files.append(f)
    for f in files:
        ms = ", ".join(sorted(mods[f])) or "—"
        out.append("| `%s` | %s | %s |" % (f, ms, LEFT_OUT.get(f, "nothing else")))
    return out


def docs():
    d = {}
    for f in glob.glob(ROOT + "/lean/Verif/Props/*.lean"):
        t = open(f).read()
        for x in re.finditer(r"theorem (C\d+_\w+)", t):
            i = t.rfind("/--", 0, x.start())
            j = t.find("-/", i)
            if i >= 0 and j < x.start() and not re.search(r"\n(theorem|def|example|lemma|abbrev) ", t[j:x.start()]):
                d[x.group(1)] = " ".join(t[i + 3:j].split())
    return d


def findings(claims):
    d = docs()
    out = ["## Where code and properties disagree", "",
           "Each of these theorems shows that the code, as modelled, does not have the property as stated in English.",
           "The other theorems of the property say what does hold.", ""]
    for c in claims:
        for t in c["theorems"]:
            n = t.split(".")[-1]
            if re.search("violated|fails", n):
                s = re.split(r"(?<=[.]) (?=[A-Z])", d.get(n, ""))
                txt = s[0]
                if len(txt) < 60 and len(s) > 1:
                    txt += " " + s[1]
                out.append("* `%s`: %s" % (n, txt))
    return out


def axioms(claims):
    ts = list(dict.fromkeys(t for c in claims for t in c["theorems"]))
    with tempfile.NamedTemporaryFile("w", suffix=".lean", delete=False) as f:
        f.write("import Verif\n" + "".join("#print axioms %s\n" % t for t in ts))
    o = subprocess.run(["lake", "env", "lean", f.name], cwd=ROOT + "/lean", capture_output=True, text=True).stdout
    os.unlink(f.name)
    g = collections.OrderedDict()
    for m in re.finditer(r"'(\S+)' (?:does not depend on any axioms|depends on axioms: \[([^\]]*)\])", o):
        ax = ", ".join(m.group(2).replace(",", " ").split()) if m.group(2) else "no axioms"
        g.setdefault(ax, []).append(m.group(1).split(".")[-1])
    n = sum(map(len, g.values()))
    assert n == len(ts), (n, len(ts), o[:500])
    out = ["## Axioms of each theorem", "", "As printed by `#print axioms` for all %d theorems of MANIFEST.json." % n, ""]
    for ax in sorted(g, key=len):
        out.append("* **%s** (%d): %s" % (ax, len(g[ax]), ", ".join(g[ax])))
    return out


claims = json.load(open(ROOT + "/MANIFEST.json"))["claims"]
p = ROOT + "/DESIGN.md"
s = open(p).read()
s = s[:s.index(MARK)] if MARK in s else s.rstrip("\n") + "\n\n"
s += "\n".join([MARK, ""] + coverage() + [""] + findings(claims) + [""] + axioms(claims)) + "\n"
open(p, "w").write(s)
