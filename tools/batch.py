#!/usr/bin/env python3
"""Run mutate.py on a list of edits.

usage: batch.py FILE < edits, each edit being
@ DEF | CLAIM
OLD
====
NEW
"""
import subprocess, sys, os
rel = sys.argv[1]
here = os.path.dirname(os.path.abspath(__file__))
for chunk in ('\n' + sys.stdin.read()).split('\n@ ')[1:]:
    head, body = chunk.split('\n', 1)
    d, c = [x.strip() for x in head.split('|', 1)]
    r = subprocess.run([sys.executable, here + '/mutate.py', rel, d, c], input=body, text=True, capture_output=True)
    print(d, '::', r.stdout[:700], r.stderr[-300:], flush=True)
