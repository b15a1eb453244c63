#!/usr/bin/env python3
"""Writes /verif/MANIFEST.json from the table below; checks that the theorem names exist."""
import json, os, re, glob
root = os.path.join(os.path.dirname(os.path.abspath(__file__)), "..")
M = {}
def m(prop, status, theorems, note=""):
    M[prop] = dict(property=prop, status=status, theorems=["Drpm." + t for t in theorems.split()], note=note)
exec(open(os.path.join(root, "tools", "claims.py")).read())
names = set()
for f in glob.glob(os.path.join(root, "lean/Verif/**/*.lean"), recursive=True):
    for l in open(f):
        g = re.match(r"\s*(?:private |protected )?theorem\s+([^\s({\[:]+)", l)
        if g: names.add("Drpm." + g.group(1))
bad = [t for c in M.values() for t in c["theorems"] if t not in names]
if bad: raise SystemExit("missing theorems: %s" % bad)
props = [json.loads(l)["id"] for l in open(os.path.join(root, "properties.jsonl"))]
out = [M[p] for p in props if p in M]
json.dump({"claims": out}, open(os.path.join(root, "MANIFEST.json"), "w"), indent=1)
print(len(out), "claims; without claim:", [p for p in props if p not in M])
