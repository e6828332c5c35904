#!/usr/bin/env python3
"""Add a claim: reads a JSON object with the fields of properties.jsonl, `note` and optionally `row` (a row of DESIGN.md)."""
import json, os, sys
root = os.path.dirname(os.path.dirname(os.path.abspath(__file__)))
c = json.load(sys.stdin)
note, row = c.pop('note'), c.pop('row', None)
p = root + '/properties.jsonl'
s = open(p).read().rstrip('\n')
assert f'"id": "{c["id"]}"' not in s
open(p, 'w').write(s + '\n' + json.dumps(c, ensure_ascii=False) + '\n')
p = root + '/tools/notes.json'
d = json.load(open(p))
d[c['id']] = note
open(p, 'w').write('{\n' + ',\n'.join(' ' + json.dumps(k) + ': ' + json.dumps(v, ensure_ascii=False) for k, v in d.items()) + '\n}')
if row:
    p = root + '/DESIGN.md'
    lines = open(p).read().split('\n')
    i = max(k for k, l in enumerate(lines) if l.startswith('| `'))
    lines.insert(i + 1, row)
    open(p, 'w').write('\n'.join(lines))
