#!/usr/bin/env python3
"""Write AXIOMS.md: the axioms every theorem of MANIFEST.json depends on (run after `lake build`)."""
import json, os, re, subprocess
root = os.path.dirname(os.path.dirname(os.path.abspath(__file__)))
names = []
for c in json.load(open(os.path.join(root, "MANIFEST.json")))["claims"]:
    for t in c["theorems"]:
        if t not in names: names.append(t)
src = "import Verif\n" + "".join("#print axioms %s\n" % n for n in names)
tmp = "/tmp/axioms_check.lean"
open(tmp, "w").write(src)
out = subprocess.run(["lake", "env", "lean", tmp], cwd=os.path.join(root, "lean"), capture_output=True, text=True)
text = re.sub(r"\n\s+", " ", out.stdout)
ax = {}
for l in text.splitlines():
    m = re.match(r"'(.+)' depends on axioms: \[(.*)\]", l)
    if m: ax[m.group(1)] = ", ".join(sorted(x.strip() for x in m.group(2).split(",")))
    m = re.match(r"'(.+)' does not depend on any axioms", l)
    if m: ax[m.group(1)] = "none"
def get(n):
    for k in (n, "Drpm." + n):
        if k in ax: return ax[k]
    return "?"
groups = {}
for n in names: groups.setdefault(get(n), []).append(n)
with open(os.path.join(root, "AXIOMS.md"), "w") as f:
    f.write("# Axioms of the theorems in MANIFEST.json\n\nGenerated by `tools/axioms.py` from `#print axioms`.\n")
    for g in sorted(groups):
        f.write("\n## %s\n\n" % g)
        for n in groups[g]: f.write("* `%s`\n" % n)
print({g: len(v) for g, v in groups.items()})
