#!/usr/bin/env python3
# Generates MANIFEST.json from notes/claims.py
import json,os
d=os.path.dirname(os.path.abspath(__file__))
ns={}
exec(open(os.path.join(d,"claims.py")).read(),ns)
props=[json.loads(l)["id"] for l in open(os.path.join(d,"../properties.jsonl"))]
claims=[]
for (p,st,th,note) in ns["C"]:
    assert p in props,p
    claims.append(dict(property=p,status=st,theorems=th,note=note))
have={c["property"] for c in claims}
missing=[p for p in props if p not in have]
if missing: print("MISSING",missing)
json.dump({"claims":claims},open(os.path.join(d,"../MANIFEST.json"),"w"),indent=1,ensure_ascii=False)
print(len(claims))
