#!/usr/bin/env python3
"""Writes MANIFEST.json from the table below; checks that every theorem exists in lean/Verif."""
import json, re, glob, os
root = os.path.dirname(os.path.dirname(os.path.abspath(__file__)))
names = set()
for f in glob.glob(root + '/lean/Verif/**/*.lean', recursive=True):
    for m in re.finditer(r'^(?:private |protected |noncomputable )*theorem\s+([\w.\']+)', open(f).read(), re.M):
        names.add(m.group(1))
claims = []
def claim(pid, status, theorems, note):
    for t in theorems:
        assert t in names, (pid, t)
    claims.append({"property": pid, "status": status,
                   "theorems": ["Polylog." + t for t in theorems], "note": note})
exec(open(root + '/tools/claims.py').read())
props = [json.loads(l)['id'] for l in open(root + '/properties.jsonl')]
have = [c['property'] for c in claims]
for p in props:
    if p not in have:
        claims.append({"property": p, "status": "partial", "theorems": [], "note": "not yet proved"})
claims.sort(key=lambda c: c['property'])
json.dump({"claims": claims}, open(root + '/MANIFEST.json', 'w'), indent=1, ensure_ascii=False)
print(len(claims), 'claims;', sum(c['status'] == 'proved' for c in claims), 'proved')
