#!/usr/bin/env python3
"""Merge JSON object from stdin into notes.json."""
import json, sys, os
p = os.path.join(os.path.dirname(os.path.abspath(__file__)), 'notes.json')
d = json.load(open(p)); d.update(json.load(sys.stdin))
json.dump(dict(sorted(d.items())), open(p, 'w'), indent=0, ensure_ascii=False)
