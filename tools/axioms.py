#!/usr/bin/env python3
"""Write AXIOMS.md: the axioms each theorem of MANIFEST.json depends on, as reported by Lean on the built project."""
import json, os, re, subprocess, tempfile
root = os.path.dirname(os.path.dirname(os.path.abspath(__file__)))
claims = json.load(open(f"{root}/MANIFEST.json"))["claims"]
names = [t for c in claims for t in c["theorems"]]
f = tempfile.mkdtemp() + "/A.lean"
open(f, "w").write("import Verif\n" + "".join(f"#print axioms {n}\n" for n in names))
out = subprocess.run(["lake", "env", "lean", f], cwd=f"{root}/lean", capture_output=True, text=True)
text = " ".join((out.stdout + out.stderr).split())
ax = {n: a for n, a in re.findall(r"'(\S+)' depends on axioms: \[([^\]]*)\]", text)}
ax.update({n: "none" for n in re.findall(r"'(\S+)' does not depend on any axioms", text)})
missing = [n for n in names if n not in ax]
if missing: print("no answer for", missing[:5], text[:500])
groups = {}
for n in names: groups.setdefault(ax.get(n, "?"), []).append(n)
with open(f"{root}/AXIOMS.md", "w") as g:
    g.write("# Axioms of each theorem\n\nWritten by `tools/axioms.py` from `#print axioms`.\n")
    for a in sorted(groups, key=lambda a: (len(a), a)):
        g.write(f"\n## {a} ({len(groups[a])} theorems)\n\n" + ", ".join(n.replace("Rstsr.", "") for n in groups[a]) + "\n")
for a in groups: print(a, len(groups[a]))
