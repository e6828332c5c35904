#!/usr/bin/env python3
"""Seed one wrong program and see which theorems notice.

usage: mutate.py FILE DEF CLAIM  (edit read from stdin as OLD\n====\nNEW), FILE relative to lean/Verif
Works in a scratch copy (/tmp/mut/lean); /verif itself is not touched except for seeded/LOG.jsonl.
Optional 4th argument: theorems tightened (comma separated); --no-log as last argument to only try.
"""
import json, os, re, subprocess, sys, time
args = [a for a in sys.argv[1:] if a != '--no-log']
nolog = '--no-log' in sys.argv
rel, dfn, claim = args[:3]
tight = args[3].split(',') if len(args) > 3 and args[3] else []
old, new = sys.stdin.read().rstrip('\n').split('\n====\n')
while not os.environ.get('NOWAIT') and subprocess.run(['pgrep', '-f', 'timeout 4000 vchec[k]'], capture_output=True).returncode == 0:
    time.sleep(20)  # one build at a time
SCR = os.environ.get('MUT_DIR', '/tmp/mut')
os.makedirs(SCR, exist_ok=True)
subprocess.run(f'rm -rf {SCR}/lean && cp -a /verif/lean {SCR}/lean', shell=True, check=True)
p = SCR + '/lean/Verif/' + rel
s = open(p).read()
if s.count(old) != 1:
    sys.exit(f'edit matches {s.count(old)} times')
open(p, 'w').write(s.replace(old, new))
# first the modules of the topic and those about the claim; all the rest only if they do not notice
ids = re.findall(r'C\d+', claim)
first = []
for d, _, fs in os.walk(SCR + '/lean/Verif'):
    for f in fs:
        q = os.path.join(d, f)
        if f.endswith('.lean') and (os.path.basename(d) == rel.split('/')[0] or
                                    any(re.search(r'theorem ' + i + r'_', open(q).read()) for i in ids)):
            first.append(os.path.relpath(q, SCR + '/lean')[:-5].replace('/', '.'))
out = ''
for targets in (first, []):
    r = subprocess.run(['lake', 'build'] + targets, cwd=SCR + '/lean', capture_output=True, text=True)
    out += r.stdout + r.stderr
    if r.returncode:
        break
failed = []
for m in re.finditer(r'error: (Verif/\S+?\.lean):(\d+):', out):
    lines = open(SCR + '/lean/' + m[1]).read().split('\n')
    k = int(m[2]) - 1
    while k >= 0 and not re.match(r'(?:private |noncomputable )*(theorem|lemma|def|example|instance)\b', lines[k]):
        k -= 1
    name = m[1] + ': top'
    if k >= 0:
        w = lines[k].split()
        name = next((x for x in w if x not in ('theorem', 'lemma', 'def', 'private', 'noncomputable')), w[0])
        if name == 'example' or lines[k].startswith('example'):
            name = 'example@' + m[1] + ':' + str(k + 1)
    if name not in failed:
        failed.append(name)
mods = re.findall(r'^- (Verif\.\S+)', out, re.M)
# modules that could not be built because a module they import failed
bad = set(mods)
imports = {}
for d, _, fs in os.walk(SCR + '/lean/Verif'):
    for f in fs:
        if f.endswith('.lean'):
            q = os.path.join(d, f)
            mod = os.path.relpath(q, SCR + '/lean')[:-5].replace('/', '.')
            imports[mod] = re.findall(r'^import (Verif\.\S+)', open(q).read(), re.M)
blocked = set()
ch = True
while ch:
    ch = False
    for m, im in imports.items():
        if m not in bad and m not in blocked and any(i in bad or i in blocked for i in im):
            blocked.add(m); ch = True
rec = {'definition': rel + ': ' + dfn, 'edit': f'{old.strip()}  ->  {new.strip()}', 'claim': claim,
       'failed': failed, 'blocked_modules': sorted(blocked), 'tightened': tight}
print('SURVIVED' if not failed else 'killed', json.dumps(rec, ensure_ascii=False)[:600])
if not nolog:
    with open('/verif/seeded/LOG.jsonl', 'a') as f:
        f.write(json.dumps(rec, ensure_ascii=False) + '\n')
