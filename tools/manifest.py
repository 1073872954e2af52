#!/usr/bin/env python3
"""Generate MANIFEST.json: theorems named CNN_* in lean/Verif/Props/*.lean, grouped by property."""
import re, glob, json, os
root = os.path.dirname(os.path.dirname(os.path.abspath(__file__)))
thms = {}
for f in sorted(glob.glob(root + '/lean/Verif/Props/*.lean')):
    for m in re.finditer(r'^(?:noncomputable )?theorem (C(\d\d+)_\w+)', open(f).read(), re.M):
        thms.setdefault('C' + m.group(2), []).append('Pace.' + m.group(1))
notes = json.load(open(root + '/tools/notes.json'))
claims = []
for l in open(root + '/properties.jsonl'):
    p = json.loads(l)
    i = p['id']
    n = notes.get(i, {})
    st = n.get('status', 'proved')
    if i not in thms:
        continue
    claims.append({'property': i, 'status': st, 'theorems': thms[i], 'note': n.get('note', '')})
json.dump({'claims': claims}, open(root + '/MANIFEST.json', 'w'), indent=1)
print(len(claims), 'claims', sum(len(c['theorems']) for c in claims), 'theorems')
