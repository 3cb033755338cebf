#!/usr/bin/env python3
"""Write MANIFEST.json from the claim notes in tools/claims.json and the theorem names found in
lean/Verif/Props: every theorem named Cnn_... counts for property Cnn."""
import glob, json, os, re
root = os.path.dirname(os.path.dirname(os.path.abspath(__file__)))
thms = {}
for f in sorted(glob.glob(root + "/lean/Verif/Props/*.lean")):
    ns = []
    for l in open(f):
        if m := re.match(r"namespace (\S+)", l):
            ns.append(m.group(1))
        elif (m := re.match(r"end (\S+)", l)) and ns and m.group(1) == ns[-1]:
            ns.pop()
        elif m := re.match(r"theorem ((C\d+)_\S+)", l):
            thms.setdefault(m.group(2), []).append(".".join(ns + [m.group(1)]))
notes = json.load(open(root + "/tools/claims.json"))
ids = [json.loads(l)["id"] for l in open(root + "/properties.jsonl") if l.strip()]
claims = []
for i in ids:
    n = notes.get(i)
    if n is None or (i not in thms and n["status"] != "not_applicable"):
        continue
    claims.append({"property": i, "status": n["status"], "theorems": thms.get(i, []), "note": n["note"]})
json.dump({"claims": claims}, open(root + "/MANIFEST.json", "w"), indent=1)
print(len(claims), "claims", sum(len(c["theorems"]) for c in claims), "theorems; missing:",
      [i for i in ids if i not in {c["property"] for c in claims}])
