#!/usr/bin/env python3
"""Write MANIFEST.json from the table below."""
import json, os
C = []
def c(prop, status, theorems, note=''):
    C.append({"property": prop, "status": status, "theorems": theorems.split(), "note": note})
here = os.path.dirname(os.path.abspath(__file__))
exec(open(os.path.join(here, 'claims.py')).read())
C.sort(key=lambda d: d["property"])
ids = [d["property"] for d in C]
assert len(set(ids)) == len(ids), "duplicate claim"
props = [json.loads(l)["id"] for l in open(os.path.join(here, '..', 'properties.jsonl'))]
missing = [p for p in props if p not in ids]
if missing: print('no claim yet:', ' '.join(missing))
assert all(i in props for i in ids)
json.dump({"claims": C}, open(os.path.join(here, '..', 'MANIFEST.json'), 'w'), indent=1, ensure_ascii=False)
