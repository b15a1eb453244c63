#!/usr/bin/env python3
"""Mutation testing of the theorems.

usage: mutate.py MUTATIONS.json [--log] [--fast]

Works in a scratch copy (/root/mut/lean). For each mutation {"def","file","old","new","claim"} the
model file is edited, the modules that depend on it are recompiled, declarations that no longer
check are replaced by sorry (in the scratch copy) so that the modules after them can be checked too,
and at the end every theorem of MANIFEST.json that now depends on sorry counts as failed.
With --log one line per mutation is appended to /verif/seeded/LOG.jsonl. With --fast the search for failing
theorems ends with the first module that has any.
"""
import json, os, re, shutil, subprocess, sys, concurrent.futures as cf
SRC = "/verif/lean"; ROOT = "/root/mut/base"; W = "/root/mut/lean"; O = "/root/mut/out"
LP = subprocess.check_output(["lake", "env", "printenv", "LEAN_PATH"], cwd=SRC, text=True).strip()
LP = ":".join(x for x in LP.split(":") if "/verif/" not in x)

def mods():
    r = {}
    for d, _, fs in os.walk(W + "/Verif"):
        for f in fs:
            if f.endswith(".lean"):
                p = os.path.join(d, f)
                n = os.path.relpath(p, W)[:-5].replace("/", ".")
                r[n] = re.findall(r"^import (Verif[.\w]*)", open(p).read(), re.M)
    return r

def reach(ms, todo):
    s = set()
    while todo:
        n = todo.pop()
        if n not in s: s.add(n); todo = todo + ms[n]
    return s

def path(n): return W + "/" + n.replace(".", "/") + ".lean"
def opath(n): return O + "/" + n.replace(".", "/") + ".olean"

def lean(n):
    os.makedirs(os.path.dirname(opath(n)), exist_ok=True)
    e = dict(os.environ, LEAN_PATH=O + ":" + LP)
    try:
        r = subprocess.run(["lean", "-R", W, "-o", opath(n), path(n)], cwd=W, env=e, capture_output=True,
                           text=True, timeout=900)
    except subprocess.TimeoutExpired:
        return None
    out = r.stdout + r.stderr
    errs = [int(m.group(1)) for m in re.finditer(r":(\d+):\d+: error", out)]
    if r.returncode != 0 and not errs:
        print("lean %s: %d %s" % (n, r.returncode, out[-300:]), file=sys.stderr)
        return None
    return errs

# `decide +kernel` evaluates a false statement a second time, outside the kernel, to explain the failure; that
# can take all memory. The scratch copy uses this tactic instead.
KDECIDE = """import Lean
open Lean Meta Elab Tactic
elab "kdecide" : tactic => closeMainGoalUsing `kdecide fun t _ => do
  let t ← instantiateMVars t
  let s ← synthInstance (mkApp (mkConst ``Decidable) t)
  let s ← instantiateMVars s
  let pf := mkApp3 (mkConst ``of_decide_eq_true) t s (mkApp2 (mkConst ``Eq.refl [1]) (mkConst ``Bool) (mkConst ``true))
  let l ← mkAuxLemma [] t pf
  return mkConst l
"""

START = re.compile(r"^(?:@\[[^\]]*\]\s*)?(?:private |protected )?(theorem|example|def|instance|structure|inductive|abbrev|lemma)\b")

def blocks(lines):
    st = [i for i, l in enumerate(lines) if START.match(l)]
    return st

def sorry_out(n, errs):
    """replace the failing declarations; returns their names"""
    lines = open(path(n)).read().split("\n")
    st = blocks(lines)
    bad = set()
    for e in errs:
        c = [i for i in st if i <= e - 1]
        if c: bad.add(c[-1])
    names = []
    for i in sorted(bad, reverse=True):
        j = next((k for k in st if k > i), len(lines))
        # end of the declaration: first line after i that is not indented and not empty
        k = i + 1
        while k < j and (lines[k] == "" or lines[k][0] in " \t|·)⟩"): k += 1
        txt = "\n".join(lines[i:k])
        m = START.match(lines[i])
        kind = m.group(1)
        nm = re.match(r"\s*([\w.']+)", lines[i][m.end():])
        name = nm.group(1) if nm and kind != "example" else "(example)"
        names.append(name)
        if kind == "example":
            new = "theorem mutatedExample_%s_%d : True := trivial\n" % (n.replace(".", "_"), i)
        elif kind == "theorem":
            a = txt.find(":= by\n"); a2 = txt.find(" :=\n"); b = txt.find(" where\n")
            c = [x for x in (a, a2, b, txt.find("\n  | ")) if x >= 0]
            pos = min(c) if c else txt.find(":= ")
            new = txt[:pos].rstrip() + " := by\n  sorry\n"
        else:
            return None
        # drop a 'set_option ... in' line stays as is
        lines[i:k] = new.split("\n")
    open(path(n), "w").write("\n".join(lines))
    return names

FAST = "--fast" in sys.argv

def heads(n):
    return set(re.findall(r"^theorem ([\w.']+)", open(ROOT + "/" + n.replace(".", "/") + ".lean").read(), re.M))

def build(ms, todo, failed, ths=(), hit=None):
    done = set(m for m in ms if m not in todo)
    left = set(todo)
    with cf.ThreadPoolExecutor(3) as ex:
        run = {}
        while left or run:
            for n in sorted(left):
                if all(d in done for d in ms[n]) and len(run) < 3:
                    left.discard(n)
                    run[ex.submit(one, n, failed)] = n
            d, _ = cf.wait(run, return_when=cf.FIRST_COMPLETED)
            for f in d:
                n = run.pop(f)
                if not f.result(): return "cannot compile " + n
                done.add(n)
                if FAST and failed and ".Props." in n and not hit:
                    mine = [t for t in ths if t.replace("Drpm.", "") in heads(n)]
                    hit.extend(axioms(mine, n) if mine else [])
                if hit: left.clear()
    return None

def one(n, failed):
    for _ in range(6):
        errs = lean(n)
        if errs is None: return False
        if not errs: return True
        r = sorry_out(n, errs)
        if r is None: return False
        failed.setdefault(n, []).extend(r)
    return False

def downstream(ms, n):
    s = {n}
    ch = True
    while ch:
        ch = False
        for m in ms:
            if m not in s and any(d in s for d in ms[m]): s.add(m); ch = True
    return s

def axioms(ths, mod="Verif"):
    t = "import %s\n" % mod + "".join("#print axioms %s\n" % x for x in ths)
    open(W + "/Ax.lean", "w").write(t)
    e = dict(os.environ, LEAN_PATH=O + ":" + LP)
    r = subprocess.run(["lean", "-R", W, W + "/Ax.lean"], cwd=W, env=e, capture_output=True, text=True)
    bad = []
    for m in re.finditer(r"'([^'\n]+)' depends on axioms: \[([^\]]*)\]", r.stdout):
        if "sorryAx" in m.group(2): bad.append(m.group(1))
    return bad

def main():
    muts = json.load(open(sys.argv[1])); log = "--log" in sys.argv
    os.makedirs("/root/mut", exist_ok=True)
    # a snapshot of the last commit's sources and of the compiled modules, so that work can go on
    shutil.rmtree(ROOT, ignore_errors=True)
    os.makedirs(ROOT)
    subprocess.run("git -C /verif archive HEAD lean | tar x --strip-components=1 -C " + ROOT, shell=True, check=True)
    for d, _, fs in os.walk(ROOT + "/Verif"):
        for f in fs:
            q = os.path.join(d, f); t = open(q).read()
            if "decide +kernel" in t:
                open(q, "w").write("import Verif.KDecide\n" + t.replace("decide +kernel", "kdecide"))
    open(ROOT + "/Verif/KDecide.lean", "w").write(KDECIDE)
    shutil.rmtree(W, ignore_errors=True)
    shutil.copytree(ROOT, W)
    shutil.rmtree(O, ignore_errors=True)
    B = "/root/mut/baseo"
    shutil.rmtree(B, ignore_errors=True)
    shutil.copytree(SRC + "/.lake/build/lib/lean", B)
    def ign(d, fs): return [f for f in fs if not (f.endswith(".olean") or os.path.isdir(os.path.join(d, f)))]
    shutil.copytree(B, O, ignore=ign)
    if lean("Verif.KDecide") != []: sys.exit("KDecide")
    ms = mods()
    ms = {n: ms[n] for n in reach(ms, re.findall(r"^import (Verif[.\w]*)", open(W + "/Verif.lean").read(), re.M))}
    ths = [t for c in json.load(open("/verif/MANIFEST.json"))["claims"] for t in c["theorems"]]
    for mu in muts:
        # "edits" (a list of {"file","old","new"}): a mistake made in several places alike
        edits = mu.get("edits") or [mu]
        mu.setdefault("file", edits[0]["file"])
        if "edits" in mu:
            mu.setdefault("edit", "; ".join(e["old"].strip() + "  ->  " + e["new"].strip() for e in edits))
        cur = {}
        ok = True
        for e in edits:
            s = cur.get(e["file"]) or open(ROOT + "/Verif/" + e["file"]).read()
            if s.count(e["old"]) != 1:
                print("SKIP (matches %d)" % s.count(e["old"]), mu["def"], e["old"][:60]); ok = False; break
            cur[e["file"]] = s.replace(e["old"], e["new"])
        if not ok: continue
        todo = set()
        for f in cur:
            n = "Verif." + f[:-5].replace("/", ".")
            open(path(n), "w").write(cur[f])
            todo |= downstream(ms, n)
        failed = {}
        hit = []
        err = build(ms, todo, failed, ths, hit)
        if err: print("ERR", mu["def"], err, failed); bad = None
        else:
            ms2 = dict(ms)
            root = W + "/Verif.lean"
            e = dict(os.environ, LEAN_PATH=O + ":" + LP)
            if not hit: subprocess.run(["lean", "-R", W, "-o", O + "/Verif.olean", root], cwd=W, env=e, check=True)
            bad = sorted(set(hit or axioms(ths)))
            short = [b.replace("Drpm.", "") for b in bad]
            ex = sum(x == "(example)" for v in failed.values() for x in v)
            print(("SURVIVED " if not bad else "killed ") + mu["claim"], mu["def"], short, "examples:%d" % ex, flush=True)
            if log:
                with open("/verif/seeded/LOG.jsonl", "a") as f:
                    f.write(json.dumps({"definition": mu["def"], "file": "lean/Verif/" + mu["file"],
                        "edit": mu.get("edit") or (mu["old"].strip() + "  ->  " + mu["new"].strip()),
                        "claim": mu["claim"], "failed": short,
                        "lemmas_failed": {k: v for k, v in failed.items()},
                        "tightened": mu.get("tightened", [])}) + "\n")
        # restore
        for m in todo:
            shutil.copy(ROOT + "/" + m.replace(".", "/") + ".lean", path(m))
            o = B + "/" + m.replace(".", "/") + ".olean"
            if os.path.exists(o): shutil.copy(o, opath(m))
        shutil.copy(B + "/Verif.olean", O + "/Verif.olean")

main()
