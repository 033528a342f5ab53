#!/usr/bin/env python3
"""Rewrites the section "Axioms of each theorem" of DESIGN.md from the output of Verif.Audit."""
import subprocess, re, os
root = os.path.dirname(os.path.dirname(os.path.abspath(__file__)))
out = subprocess.run(["lake", "env", "lean", "Verif/Audit.lean"], cwd=f"{root}/lean", capture_output=True, text=True).stdout
groups = {}
for m in re.finditer(r"'([^']+)' (?:depends on axioms: \[([^\]]*)\]|does not depend on any axioms)", out):
    ax = ", ".join(sorted(x.strip() for x in (m.group(2) or "").split(",") if x.strip())) or "none"
    groups.setdefault(ax, []).append(m.group(1).split(".")[-1])
text = "## Axioms of each theorem\n\n(Generated by tools/axioms.py from the `#print axioms` of `Verif.Audit`.)\n\n"
for ax in sorted(groups, key=lambda a: (a.count(","), a)):
    text += f"* {ax}: " + ", ".join(f"`{t}`" for t in groups[ax]) + "\n"
p = f"{root}/DESIGN.md"
s = open(p).read()
i = s.find("## Axioms of each theorem")
s = (s if i < 0 else s[:i]).rstrip() + "\n\n" + text
open(p, "w").write(s)
for ax in groups: print(ax, len(groups[ax]))
