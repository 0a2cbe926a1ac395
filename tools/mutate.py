#!/usr/bin/env python3
"""Mutation test: apply each edit of a set to a scratch copy of the Lean project, rebuild, record what failed.

usage: mutate.py seeded/sets/NAME.json [--dry] [--only K]
A set is a list of objects: file (relative to lean/Verif), def, old, new, claim, target (modules to build), edit (optional
description). One line per attempt is appended to seeded/LOG.jsonl.
"""
import json, os, re, shutil, subprocess, sys
ROOT = os.path.dirname(os.path.dirname(os.path.abspath(__file__)))
SCRATCH = os.environ.get("MUT_SCRATCH", "/tmp/mut")
LEAN = os.path.join(SCRATCH, "lean")

def sync():
    os.makedirs(SCRATCH, exist_ok=True)
    subprocess.run(["rsync", "-a", "--delete", ROOT + "/lean/", LEAN + "/"], check=False) if shutil.which("rsync") else (
        shutil.rmtree(LEAN, ignore_errors=True), shutil.copytree(ROOT + "/lean", LEAN, symlinks=True))
    # limit the memory of an evaluation that a mutation makes run away (weak arguments do not cause rebuilds)
    with open(LEAN + "/lakefile.toml", "a") as f:
        f.write('weakLeanArgs = ["-M", "6000"]\n')

def load_deps():
    """name -> (module path, first, last, used names), from the unmodified build"""
    r = subprocess.run(["lake", "env", "lean", "--stdin"], cwd=LEAN, input=open(ROOT + "/tools/deps.txt").read(), capture_output=True, text=True)
    d = {}
    for l in r.stdout.split("\n"):
        p = l.split("\t")
        if p[0] == "DEP":
            d[p[1]] = (p[2].replace(".", "/") + ".lean", int(p[3]), int(p[4]), p[5].split())
    return d
DEPS = {}

def enclosing(path, line):
    best = None
    for n, (m, a, b, _) in DEPS.items():
        if m == path and a and a <= line <= b and (best is None or a >= DEPS[best][1]):
            if best is None or a > DEPS[best][1] or len(n) < len(best):
                best = n
    return best

def dependents(names):
    rev = {}
    for n, v in DEPS.items():
        for u in v[3]:
            rev.setdefault(u, []).append(n)
    seen, todo = set(names), list(names)
    while todo:
        for x in rev.get(todo.pop(), []):
            if x not in seen:
                seen.add(x); todo.append(x)
    return seen

def run(mut):
    path = os.path.join(LEAN, "Verif", mut["file"])
    src = open(path, encoding="utf-8").read()
    if src.count(mut["old"]) != 1:
        print("!! pattern occurs", src.count(mut["old"]), "times:", mut["old"]); return None
    open(path, "w", encoding="utf-8").write(src.replace(mut["old"], mut["new"]))
    failed, modelbad = [], False
    try:
        r = subprocess.run(["lake", "build"] + mut["target"], cwd=LEAN, capture_output=True, text=True, timeout=1500)
        if "unknown target" in r.stderr + r.stdout:
            raise SystemExit(r.stderr)
        txt = r.stdout + r.stderr
        if r.returncode != 0 and not re.search(r"^error: Verif/\S+\.lean:\d+:", txt, re.M):
            raise SystemExit("build failed without an error in a module: " + txt[-1500:])
        for m in re.finditer(r"^error: (Verif/\S+\.lean):(\d+):", txt, re.M):
            if m.group(1).startswith("Verif/Model"):
                modelbad = True
            nm = enclosing(m.group(1), int(m.group(2))) or "example@%s:%s" % (os.path.basename(m.group(1)), m.group(2))
            if nm not in failed:
                failed.append(nm)
        if modelbad:
            print("!! model does not build:", txt[:1500])
        props = sorted(n for n in dependents([f for f in failed if f in DEPS]) if re.match(r"Props\.(\w+\.)?C\d\d\w*$", n))
    finally:
        open(path, "w", encoding="utf-8").write(src)
    return failed, props, modelbad

def main():
    muts = json.load(open(sys.argv[1]))
    dry = "--dry" in sys.argv
    frm = int(sys.argv[sys.argv.index("--from") + 1]) if "--from" in sys.argv else 0
    only = int(sys.argv[sys.argv.index("--only") + 1]) if "--only" in sys.argv else None
    sync()
    subprocess.run(["lake", "build", "Verif"], cwd=LEAN, capture_output=True)
    DEPS.update(load_deps())
    for k, m in enumerate(muts):
        if k < frm or (only is not None and k != only): continue
        m.setdefault("target", ["Verif"])
        if isinstance(m["target"], str): m["target"] = m["target"].split()
        r = run(m)
        if r is None or r[2]: continue
        failed, props, _ = r
        hit = [p for p in props if any(c in p for c in m["claim"].split(":")[0].replace(",", " ").split())]
        print("%2d %-28s %-9s failed=%s props=%s" % (k, m["def"][:28], "KILLED" if hit else ("?OTHER" if failed else "SURVIVED"), failed[:6], props[:8]), flush=True)
        if not dry:
            with open(ROOT + "/seeded/LOG.jsonl", "a") as f:
                f.write(json.dumps({"definition": m["def"], "file": "lean/Verif/" + m["file"],
                    "edit": m.get("edit") or ("`%s` -> `%s`" % (m["old"], m["new"])), "claim_broken": m["claim"],
                    "theorems_failed": failed, "claim_theorems_failed": props, "theorems_tightened": m.get("tightened", [])}, ensure_ascii=False) + "\n")
main()
