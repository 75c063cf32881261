#!/usr/bin/env python3
"""Writes /verif/MANIFEST.json from the table in tools/manifest_table.json.

Each theorem listed must exist in the Lean sources; the script checks that by
searching for `theorem <name>` under lean/Verif."""
import json, os, re, sys
root = os.path.dirname(os.path.dirname(os.path.abspath(__file__)))
names = set()
for d, _, fs in os.walk(os.path.join(root, "lean", "Verif")):
    for f in fs:
        if not f.endswith(".lean"):
            continue
        txt = open(os.path.join(d, f)).read()
        for m in re.finditer(r"^theorem\s+([A-Za-z0-9_'.]+)", txt, re.M):
            names.add(m.group(1))
table = []
for line in open(os.path.join(root, "tools", "manifest_table.jsonl")):
    line = line.strip()
    if line:
        table.append(json.loads(line))
ids = [json.loads(l)["id"] for l in open(os.path.join(root, "properties.jsonl")) if l.strip()]
claims, bad = [], False
for c in table:
    if c["property"] not in ids:
        print("unknown property", c["property"]); bad = True
    for t in c["theorems"]:
        if t.split(".")[-1] not in names:
            print("missing theorem", t); bad = True
    claims.append({"property": c["property"], "status": c["status"],
                   "theorems": ["Dtn.Props." + t for t in c["theorems"]], "note": c["note"]})
claims.sort(key=lambda c: int(c["property"][1:]))
listed = {t.split(".")[-1] for c in claims for t in c["theorems"]}
for n in sorted(names):
    if re.match(r"C\d+_", n) and n not in listed:
        print("theorem not in manifest:", n)
for i in ids:
    if i not in {c["property"] for c in claims}:
        print("property without claim:", i)
json.dump({"claims": claims}, open(os.path.join(root, "MANIFEST.json"), "w"), indent=1)
sys.exit(1 if bad else 0)
