#!/usr/bin/env python3
"""Rewrite the list at the end of DESIGN.md: every `_counterexample` theorem of MANIFEST.json with its comment."""
import json, re, glob, os
os.chdir(os.path.join(os.path.dirname(os.path.abspath(__file__)), '..'))
docs = {}
for f in sorted(glob.glob('lean/Verif/**/*.lean', recursive=True)):
    for d, n in re.findall(r'/--((?:(?!/--).)*?)-/\s*(?:open Classical in\s*)?theorem (\S*counterexample\S*)', open(f).read(), re.S):
        docs[n] = ' '.join(d.split())
out = ''
for c in json.load(open('MANIFEST.json'))['claims']:
    for t in c['theorems']:
        b = t.split('.')[-1]
        if 'counterexample' in b:
            d = re.sub(r'^C\d+: ', '', re.sub(r'^\*\*([^*]*)\*\*[:.,]?\s*', '', docs.get(b, '')))
            d = re.sub(r'^(counterexample|Counterexample): ', '', d)
            out += '* %s `%s` %s\n' % (c['property'], b, d)
s = open('DESIGN.md').read()
i = s.index('each is a `_counterexample` theorem.') + len('each is a `_counterexample` theorem.')
open('DESIGN.md', 'w').write(s[:i] + '\n\n' + out)
