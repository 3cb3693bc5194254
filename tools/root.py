"""Writes lean/Verif.lean, importing every module under lean/Verif."""
import os
root = os.path.join(os.path.dirname(os.path.abspath(__file__)), "..", "lean")
mods = []
for d, _, fs in os.walk(os.path.join(root, "Verif")):
    for f in fs:
        if f.endswith(".lean"):
            rel = os.path.relpath(os.path.join(d, f), root)
            mods.append(rel[:-5].replace(os.sep, "."))
with open(os.path.join(root, "Verif.lean"), "w") as h:
    for m in sorted(mods):
        h.write(f"import {m}\n")
