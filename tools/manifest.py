#!/usr/bin/env python3
# Regenerates MANIFEST.json from the table below.  Run from /verif.
import json, sys
C={}
def c(id, status, theorems, note=""):
    C[id]=dict(property=id, status=status, theorems=theorems, note=note)
exec(open("tools/claims.py").read())
ids=[json.loads(l)["id"] for l in open("properties.jsonl")]
missing=[i for i in ids if i not in C]
if missing: print("not yet claimed:", missing, file=sys.stderr)
json.dump({"claims":[C[i] for i in ids if i in C]}, open("MANIFEST.json","w"), indent=1, ensure_ascii=False)
