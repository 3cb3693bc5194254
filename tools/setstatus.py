#!/usr/bin/env python3
"""setstatus.py ID STATUS NOTE: record the status of a property and rewrite MANIFEST.json."""
import json, os, subprocess, sys
root = os.path.dirname(os.path.dirname(os.path.abspath(__file__)))
f = f"{root}/tools/status.json"
s = json.load(open(f))
s[sys.argv[1]] = [sys.argv[2], sys.argv[3]]
json.dump(dict(sorted(s.items())), open(f, "w"), indent=1)
subprocess.run([sys.executable, f"{root}/tools/manifest.py"])
