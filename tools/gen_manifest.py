#!/usr/bin/env python3
"""Writes /verif/MANIFEST.json. Theorems of a property are all theorems whose name starts with
its id (in lean/Verif/Props); status and notes are below."""
import json, os, re, glob
ROOT = os.path.dirname(os.path.dirname(os.path.abspath(__file__)))
STATUS = json.load(open(os.path.join(ROOT, "tools", "status.json")))
names = {}
for f in sorted(glob.glob(os.path.join(ROOT, "lean/Verif/Props/*.lean"))):
    for m in re.finditer(r"^theorem (C\d\d_\w+)", open(f).read(), re.M):
        names.setdefault(m.group(1)[:3], []).append("WS." + m.group(1))
ids = [json.loads(l)["id"] for l in open(os.path.join(ROOT, "properties.jsonl"))]
claims = []
for i in ids:
    if i in STATUS:
        st, note = STATUS[i]
        ths = names.get(i, [])
        assert ths, i
        claims.append(dict(property=i, status=st, theorems=ths, note=note))
    elif i in names:
        raise SystemExit("no status for " + i)
json.dump({"claims": claims}, open(os.path.join(ROOT, "MANIFEST.json"), "w"), indent=1)
print(len(claims), "claims,", sum(len(c["theorems"]) for c in claims), "theorems; missing:",
      [i for i in ids if i not in STATUS])
