#!/usr/bin/env python3
"""Regenerate MANIFEST.json from the theorem names in lean/Verif/Props and the notes below."""
import json, re, glob, os
root = os.path.dirname(os.path.dirname(os.path.abspath(__file__)))
props = [json.loads(l) for l in open(os.path.join(root, 'properties.jsonl')) if l.strip()]
notes = {}
np = os.path.join(root, 'tools', 'notes.json')
if os.path.exists(np):
    notes = json.load(open(np))
thms = {}
for f in sorted(glob.glob(os.path.join(root, 'lean/Verif/Props/*.lean'))):
    for m in re.finditer(r'^theorem\s+(C\d+)_(\w+)', open(f).read(), re.M):
        thms.setdefault(m.group(1), []).append('Picsar.Props.%s_%s' % (m.group(1), m.group(2)))
claims = []
for p in props:
    i = p['id']
    t = thms.get(i, [])
    n = notes.get(i, {})
    if isinstance(n, str):
        n = {'note': n}
    if 'status' in n:
        st = n['status']
    elif not t:
        continue
    elif any(x.endswith('_partial') or x.endswith('_refuted') for x in t):
        st = 'partial'
    else:
        st = 'proved'
    claims.append({'property': i, 'status': st, 'theorems': t, 'note': n.get('note', '')})
json.dump({'claims': claims}, open(os.path.join(root, 'MANIFEST.json'), 'w'), indent=1)
print(len(claims), 'claims;', 'missing:', [p['id'] for p in props if p['id'] not in {c['property'] for c in claims}])
