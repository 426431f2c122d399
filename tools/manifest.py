#!/usr/bin/env python3
"""Regenerate MANIFEST.json: every theorem C##_* of lean/Verif/Props is listed under its property."""
import re, json, glob, os
root = os.path.dirname(os.path.dirname(os.path.abspath(__file__)))
thms = {}
for f in sorted(glob.glob(root + "/lean/Verif/Props/*.lean")):
    s = open(f).read()
    for m in re.finditer(r"^theorem (C(\d\d)_\w+'?)", s, re.M):
        thms.setdefault("C" + m.group(2), []).append("Scrypt.Props." + m.group(1))
notes = json.load(open(root + "/tools/notes.json"))
ids = [json.loads(l)["id"] for l in open(root + "/properties.jsonl")]
claims = []
for i in ids:
    n = notes.get(i, {})
    if i in thms:
        st = n.get("status") or ("partial" if all(t.endswith("_partial") for t in thms[i]) else "proved")
        claims.append({"property": i, "status": st, "theorems": thms[i], "note": n.get("note", "")})
    elif n.get("status") == "not_applicable":
        claims.append({"property": i, "status": "not_applicable", "theorems": [], "note": n["note"]})
json.dump({"claims": claims}, open(root + "/MANIFEST.json", "w"), indent=1)
print({c["property"]: (c["status"], len(c["theorems"])) for c in claims}, "missing:", [i for i in ids if i not in {c["property"] for c in claims}])
