#!/usr/bin/env python3
"""Regenerates MANIFEST.json: collects theorems named Cnn_* from lean/Verif/Props/*.lean."""
import re, json, glob, os
root = os.path.dirname(os.path.dirname(os.path.abspath(__file__)))
thms = {}
for f in sorted(glob.glob(root + '/lean/Verif/Props/*.lean')):
    stack = []
    for line in open(f):
        if m := re.match(r'(namespace|section|mutual)\b ?([\w.]*)', line):
            stack.append((m.group(1), m.group(2)))
        elif re.match(r'end( [\w.]+)?$', line.rstrip()):
            stack.pop()
        elif m := re.match(r'theorem (C(\d\d+)_\w+)', line):
            ns = '.'.join(n for k, n in stack if k == 'namespace')
            thms.setdefault('C' + m.group(2), []).append(ns + '.' + m.group(1))
notes = {}
exec(open(root + '/tools/notes.py').read())
claims = []
for l in open(root + '/properties.jsonl'):
    d = json.loads(l)
    pid = d['id']
    if pid not in thms:
        if pid in notes and notes[pid][0] == 'not_applicable':
            claims.append(dict(property=pid, status='not_applicable', theorems=[], note=notes[pid][1]))
        continue
    status, note = notes[pid]
    claims.append(dict(property=pid, status=status, theorems=thms[pid], note=note))
json.dump({'claims': claims}, open(root + '/MANIFEST.json', 'w'), indent=1)
print(len(claims), 'claims')
