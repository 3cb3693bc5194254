#!/usr/bin/env python3
"""Write MANIFEST.json: the theorems named Cxx_... in lean/Verif/Thm, with status and note per property."""
import json, re, glob, os
root = os.path.dirname(os.path.dirname(os.path.abspath(__file__)))
props = [json.loads(l)["id"] for l in open(f"{root}/properties.jsonl") if l.strip()]
status = json.load(open(f"{root}/tools/status.json"))
thms = {}
for f in sorted(glob.glob(f"{root}/lean/Verif/Thm/*.lean")):
    for m in re.finditer(r"^theorem (C\d+)(_[A-Za-z0-9_']+)", open(f).read(), re.M):
        thms.setdefault(m.group(1), []).append("Rstsr." + m.group(1) + m.group(2))
claims = []
for p in props:
    st = status.get(p)
    if st is None:
        if p in thms: print("no status for", p, "with theorems")
        continue
    claims.append({"property": p, "status": st[0], "theorems": thms.get(p, []), "note": st[1]})
json.dump({"claims": claims}, open(f"{root}/MANIFEST.json", "w"), indent=1)
print(len(claims), "claims,", sum(len(c["theorems"]) for c in claims), "theorems; missing:", [p for p in props if p not in status])
