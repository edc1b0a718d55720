#!/usr/bin/env python3
"""Regenerate MANIFEST.json from properties.jsonl, lean/Verif/Props/*.lean and scripts/notes.json."""
import json, re, glob, os
root = os.path.dirname(os.path.dirname(os.path.abspath(__file__)))
notes = json.load(open(f'{root}/scripts/notes.json'))
thms = {}
for f in sorted(glob.glob(f'{root}/lean/Verif/Props/*.lean')):
    s = open(f).read()
    ns = re.search(r'^namespace (\S+)', s, re.M).group(1)
    for m in re.finditer(r'^theorem (C\d+)(_\w+)', s, re.M):
        thms.setdefault(m.group(1), []).append(f'{ns}.{m.group(1)}{m.group(2)}')
claims = []
for l in open(f'{root}/properties.jsonl'):
    i = json.loads(l)['id']
    t = thms.get(i, [])
    if not t:
        print('no theorem yet:', i)
        continue
    partial = any('_partial' in x or '_refuted' in x for x in t)
    claims.append({'property': i, 'status': 'partial' if partial else 'proved', 'theorems': t, 'note': notes.get(i, '')})
    if i not in notes: print('no note:', i)
json.dump({'claims': claims}, open(f'{root}/MANIFEST.json', 'w'), indent=1, ensure_ascii=False)
print(len(claims), 'claims', sum(len(c['theorems']) for c in claims), 'theorems', sum(c['status']=='proved' for c in claims), 'proved')
