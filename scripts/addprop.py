#!/usr/bin/env python3
"""Append properties: reads JSON lines on stdin, replaces the line of an existing id or appends."""
import json, sys, os
p = os.path.join(os.path.dirname(os.path.dirname(os.path.abspath(__file__))), 'properties.jsonl')
rows = [json.loads(l) for l in open(p)]
for l in sys.stdin:
    if not l.strip(): continue
    d = json.loads(l)
    for i, r in enumerate(rows):
        if r['id'] == d['id']: rows[i] = d; break
    else: rows.append(d)
rows.sort(key=lambda r: int(r['id'][1:]))
open(p, 'w').write(''.join(json.dumps(r, ensure_ascii=False) + '\n' for r in rows))
