"""Set a claim: claim.py C26 partial "note"."""
import json, os, sys
p = os.path.join(os.path.dirname(__file__), "claims.json")
d = json.load(open(p))
d[sys.argv[1]] = {"status": sys.argv[2], "note": sys.argv[3]}
d = dict(sorted(d.items(), key=lambda e: int(e[0][1:])))
json.dump(d, open(p, "w"), indent=1)
