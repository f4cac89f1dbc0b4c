#!/usr/bin/env python3
"""Writes MANIFEST.json. Properties without an entry here are listed as partial with no theorems."""
import json, os
ROOT = os.path.dirname(os.path.dirname(os.path.abspath(__file__)))
C = {}

def claim(pid, status, theorems, note):
    C[pid] = dict(property=pid, status=status, theorems=theorems, note=note)

exec(open(os.path.join(ROOT, "tools", "claims.py")).read())

props = [json.loads(l)["id"] for l in open(os.path.join(ROOT, "properties.jsonl"))]
out = []
for p in props:
    out.append(C.get(p) or dict(property=p, status="partial", theorems=[], note="not started"))
extra = set(C) - set(props)
assert not extra, extra
with open(os.path.join(ROOT, "MANIFEST.json"), "w") as f:
    json.dump({"claims": out}, f, indent=1, ensure_ascii=False)
    f.write("\n")
from collections import Counter
print(Counter(c["status"] if c["theorems"] else "none" for c in out))
