#!/usr/bin/env python3
"""Regenerates MANIFEST.json: theorem names are collected from lean/Verif/Props, status and notes from notes.json."""
import json, re, glob, os
root = os.path.join(os.path.dirname(os.path.abspath(__file__)), '..')
props = [json.loads(l) for l in open(os.path.join(root, 'properties.jsonl'))]
notes = json.load(open(os.path.join(root, 'tools', 'notes.json')))
thms = {}
for f in sorted(glob.glob(os.path.join(root, 'lean/Verif/Props/*.lean'))):
    for m in re.finditer(r'^theorem (C\d\d\d?)(_\w+)', open(f).read(), re.M):
        thms.setdefault(m[1], []).append('Ethabi.Props.' + m[1] + m[2])
claims = []
for p in props:
    i = p['id']
    ts = thms.get(i, [])
    n = notes.get(i, {})
    if not ts:
        continue
    status = n.get('status') or ('partial' if any(t.endswith('_partial') for t in ts) else 'proved')
    claims.append({'property': i, 'status': status, 'theorems': ts, 'note': n.get('note', '')})
json.dump({'claims': claims}, open(os.path.join(root, 'MANIFEST.json'), 'w'), indent=1, ensure_ascii=False)
print(len(claims), 'claims;', [p['id'] for p in props if p['id'] not in thms], 'open')
