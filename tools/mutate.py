#!/usr/bin/env python3
"""Seeded bugs: applies each edit of seeded/mutations.json to a scratch copy of the Lean project,
rebuilds it, and appends the outcome to seeded/LOG.jsonl.

Usage: mutate.py SCRATCH [id ...]   (SCRATCH: a copy of /verif/lean outside /verif, already built)"""
import json, os, re, subprocess, sys, glob
root = os.path.dirname(os.path.dirname(os.path.abspath(__file__)))
scratch = sys.argv[1]
only = set(sys.argv[2:])
muts = json.load(open(f"{root}/seeded/mutations.json"))
log = f"{root}/seeded/LOG.jsonl"
done = set()
if os.path.exists(log):
    done = {json.loads(l)["id"] for l in open(log)}

if subprocess.run(["diff", "-rq", f"{root}/lean/Verif", f"{scratch}/Verif"]).returncode != 0:
    sys.exit("the scratch copy differs from /verif/lean")

def enclosing(path, line):
    name = None
    for i, l in enumerate(open(path), 1):
        m = re.match(r"(?:private |protected )?(?:theorem|lemma|def|instance|structure|example)\s*(\S*)", l)
        if m and i <= line: name = m.group(1) or "example"
        if l.startswith("example") and i <= line: name = "example"
    return name

# module import graph
def imports(mod):
    p = f"{scratch}/{mod.replace('.', '/')}.lean"
    return re.findall(r"^import (Verif\S*)", open(p).read(), re.M) if os.path.exists(p) else []
mods = [p[len(scratch) + 1:-5].replace("/", ".") for p in glob.glob(f"{scratch}/Verif/**/*.lean", recursive=True)]
deps = {m: imports(m) for m in mods}
def depends(m, bad, seen):
    if m in bad: return True
    if m in seen: return False
    seen.add(m)
    return any(depends(d, bad, seen) for d in deps.get(m, []))

for mu in muts:
    if (only and mu["id"] not in only) or (not only and mu["id"] in done): continue
    edits = [mu] + mu.get("also", [])  # an edit may be needed in a second model of the same function
    texts = {}
    for e in edits:
        path = f"{scratch}/Verif/{e['file']}"
        src, cur = texts.get(path, (open(path).read(),) * 2)
        if cur.count(e["old"]) != 1:
            print("BAD MUTATION", mu["id"], cur.count(e["old"])); texts = None; break
        texts[path] = (src, cur.replace(e["old"], e["new"]))
    if texts is None: continue
    for path, (src, cur) in texts.items(): open(path, "w").write(cur)
    try:
        r = subprocess.run(["lake", "build"], cwd=scratch, capture_output=True, text=True)
        out = r.stdout + r.stderr
    finally:
        for path, (src, cur) in texts.items(): open(path, "w").write(src)
    failed, badmods = [], set()
    for f, ln in re.findall(r"error: (Verif/\S+?\.lean):(\d+):", out):
        n = enclosing(f"{scratch}/{f}", int(ln))
        badmods.add(f[:-5].replace("/", "."))
        t = f"{f[6:-5]}:{n}"
        if t not in failed: failed.append(t)
    blocked = sorted(m[6:] for m in mods if m.startswith("Verif.Props.") and m not in badmods
                     and depends(m, badmods, set()))
    rec = {"id": mu["id"], "definition": mu["definition"], "file": mu["file"], "edit": "; ".join(f"{e['old']}  ==>  {e['new']}" for e in edits),
           "claim_broken": mu["claim"], "theorems_failed": failed, "property_files_not_reached": blocked,
           "build_failed": r.returncode != 0, "theorems_tightened": mu.get("tightened", [])}
    with open(log, "a") as o: o.write(json.dumps(rec) + "\n")
    print(mu["id"], "KILLED" if r.returncode != 0 else "SURVIVED", failed[:4], flush=True)
