#!/usr/bin/env python3
"""Write MANIFEST.json: theorem names are collected from lean/Verif/Props, status and note are given here."""
import collections, glob, json, os, re

root = os.path.dirname(os.path.dirname(os.path.abspath(__file__)))
names = collections.defaultdict(list)
for f in sorted(glob.glob(root + "/lean/Verif/Props/*.lean")):
    for m in re.finditer(r"^theorem (C\d\d_[A-Za-z0-9_']+)", open(f).read(), re.M):
        names[m.group(1)[:3]].append("BI." + m.group(1))

# property: (status, note)
info = json.load(open(root + "/tools/status.json"))
claims = []
for p in sorted(names):
    status, note = info[p]
    claims.append({"property": p, "status": status, "theorems": names[p], "note": note})
json.dump({"claims": claims}, open(root + "/MANIFEST.json", "w"), indent=1, ensure_ascii=False)
open(root + "/MANIFEST.json", "a").write("\n")
