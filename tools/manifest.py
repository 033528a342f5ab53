#!/usr/bin/env python3
"""Regenerates MANIFEST.json and lean/Verif/Audit.lean from the property theorems.

Every theorem in lean/Verif/Props whose name starts with Cnn_ belongs to property Cnn.
Status and notes come from tools/status.json (default: proved / partial by suffix)."""
import json, re, glob, os
root = os.path.dirname(os.path.dirname(os.path.abspath(__file__)))
props = [json.loads(l) for l in open(f"{root}/properties.jsonl")]
status = json.load(open(f"{root}/tools/status.json"))
thms = {}
mods = []
for f in sorted(glob.glob(f"{root}/lean/Verif/Props/*.lean")):
    mods.append("Verif.Props." + os.path.basename(f)[:-5])
    src = open(f).read()
    ns = []
    for line in src.splitlines():
        m = re.match(r"namespace (\S+)", line)
        if m: ns.append(m.group(1)); continue
        m = re.match(r"end (\S+)", line)
        if m and ns and ns[-1] == m.group(1): ns.pop(); continue
        m = re.match(r"(?:private )?theorem ((C\d\d+)_\S+)", line)
        if m: thms.setdefault(m.group(2), []).append(".".join(ns + [m.group(1)]))
claims = []
for p in props:
    i = p["id"]
    t = thms.get(i, [])
    st = status.get(i, {})
    s = st.get("status") or ("partial" if (not t or any(x.endswith("_partial") for x in t)) else "proved")
    claims.append({"property": i, "status": s, "theorems": t,
                   "note": st.get("note", "" if t else "Not yet proved.")})
json.dump({"claims": claims}, open(f"{root}/MANIFEST.json", "w"), indent=1)
open(f"{root}/MANIFEST.json", "a").write("\n")
with open(f"{root}/lean/Verif/Audit.lean", "w") as o:
    for m in mods: o.write(f"import {m}\n")
    o.write("/-\nAxioms of every property theorem (generated by tools/manifest.py).\n-/\n")
    for p in props:
        for t in thms.get(p["id"], []): o.write(f"#print axioms {t}\n")
open(f"{root}/lean/Verif.lean", "w").write("import Verif.Audit\n")
for c in claims: print(c["property"], c["status"], len(c["theorems"]))
