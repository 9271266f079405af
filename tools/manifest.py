#!/usr/bin/env python3
"""Regenerate MANIFEST.json: theorems named cNN_* in lean/Verif/Props, notes from tools/notes.json."""
import json, re, glob, collections
notes = json.load(open('/verif/tools/notes.json'))
th = collections.defaultdict(list)
for f in sorted(glob.glob('/verif/lean/Verif/Props/*.lean')):
    for m in re.finditer(r'^theorem (c(\d\d)_\w+)', open(f).read(), re.M):
        th['C' + m.group(2)].append('Verif.Props.' + m.group(1))
claims = []
for l in open('/verif/properties.jsonl'):
    i = json.loads(l)['id']
    n = notes.get(i)
    if not th[i] and not n: continue
    st = n['status'] if n else 'proved'
    if any(t.endswith('_partial') for t in th[i]) and st == 'proved': print('check', i)
    claims.append({'property': i, 'status': st, 'theorems': th[i], 'note': n['note'] if n else ''})
json.dump({'claims': claims}, open('/verif/MANIFEST.json', 'w'), indent=1, ensure_ascii=False)
print(len(claims), 'claims', sum(len(c['theorems']) for c in claims), 'theorems')
