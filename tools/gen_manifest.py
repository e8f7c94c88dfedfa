#!/usr/bin/env python3
"""Write MANIFEST.json: theorem names are collected from lean/Verif/Props, status and notes from tools/claims.json."""
import glob, json, re, os
root = os.path.dirname(os.path.dirname(os.path.abspath(__file__)))
names = {}
for f in sorted(glob.glob(root + "/lean/Verif/Props/*.lean")):
    for l in open(f):
        m = re.match(r"theorem (C(\d\d+)_\S+)", l)
        if m:
            names.setdefault("C" + m.group(2), []).append("Madg." + m.group(1))
notes = json.load(open(root + "/tools/claims.json"))
props = [json.loads(l)["id"] for l in open(root + "/properties.jsonl")]
claims = []
for p in props:
    if p in names:
        st, note = notes.get(p, ["proved", ""])
        claims.append({"property": p, "status": st, "theorems": names[p], "note": note})
json.dump({"claims": claims}, open(root + "/MANIFEST.json", "w"), indent=1)
print(len(claims), "claims;", "missing:", [p for p in props if p not in names])
