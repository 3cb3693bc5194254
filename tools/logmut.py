#!/usr/bin/env python3
"""Append the results of a batch of tools/mutate.py to seeded/LOG.jsonl: logmut.py BATCH.json [first [last]]."""
import json, os, re, sys
root = os.path.dirname(os.path.dirname(os.path.abspath(__file__)))
f = sys.argv[1]
muts = json.load(open(f))
first = int(sys.argv[2]) if len(sys.argv) > 2 else 0
last = int(sys.argv[3]) if len(sys.argv) > 3 else len(muts)
with open(f"{root}/seeded/LOG.jsonl", "a") as out:
    for i in range(first, last):
        m = muts[i]
        p = f"/tmp/mut_{os.path.basename(f)}_{i}.json"
        if not os.path.exists(p): print("no result", i); continue
        r = json.load(open(p))
        failed = r.get("affected", [])
        failed += [n for n in r.get("direct", []) if re.match(r"C\d+_", n) and n not in failed]
        out.write(json.dumps({"definition": m["definition"], "file": m["file"], "edit": m["edit"], "claim": m["claim"],
            "failed": failed, "failed_first": r.get("direct", []), "tightened": m.get("tightened", [])}, ensure_ascii=False) + "\n")
