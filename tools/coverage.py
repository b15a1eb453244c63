#!/usr/bin/env python3
"""For every function of /repo/src: the Lean definitions whose comment cites its lines."""
import re, glob, os, sys
root = os.path.dirname(os.path.dirname(os.path.abspath(__file__)))
cites = []   # (cfile, a, b, lean def)
for f in sorted(glob.glob(root + "/lean/Verif/**/*.lean", recursive=True)):
    t = open(f).read()
    for m in re.finditer(r"/--(.*?)-/\s*(?:@\[[^\]]*\]\s*)?(?:private )?(def|structure|inductive|abbrev|instance)\s+(\S+)", t, re.S):
        doc, name = m.group(1), m.group(3)
        for c in re.finditer(r"src/(\w+\.[ch]):((?:\d+(?:-\d+)?(?:,\s*|\s+and\s+)?)+)", doc):
            for r in re.finditer(r"(\d+)(?:-(\d+))?", c.group(2)):
                a = int(r.group(1)); b = int(r.group(2) or a)
                cites.append((c.group(1), a, b, name))
def functions(path):
    L = open(path).read().split("\n"); res = []
    i = 0
    while i < len(L):
        if L[i] == "{" and i > 0:
            j = i - 1
            while j > 0 and not re.match(r"^[A-Za-z_]", L[j]): j -= 1
            k = i
            while L[k] != "}": k += 1
            m = re.search(r"(\w+)\s*\(", L[j])
            if m: res.append((m.group(1), j + 1, k + 1))
            i = k
        i += 1
    return res
for p in sorted(glob.glob("/repo/src/*.c")):
    n = os.path.basename(p)
    print("==", n)
    for fn, a, b in functions(p):
        ds = []
        lines = set()
        for (c, x, y, d) in cites:
            if c == n and x <= b and y >= a:
                if d not in ds: ds.append(d)
                lines |= set(range(max(x, a), min(y, b) + 1))
        print("%-34s %5d-%-5d %3d%%  %s" % (fn, a, b, 100 * len(lines) // (b - a + 1), " ".join(ds)))
